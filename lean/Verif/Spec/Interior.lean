import Verif.Spec.Grey
import Verif.Spec.Edges

/-!
# Away from the border; straight-line images
-/

namespace TI.Spec

variable {α : Type}

/-- `jx` is the position `ix` moved by half the kernel along every filtered axis -/
structure Moved (g : Given (List α)) (axes ix jx : List Nat) : Prop where
  length : jx.length = ix.length
  filtered : ∀ i < axes.length, jx.getD (axes.getD i 0) 0 = ix.getD (axes.getD i 0) 0 + (g.entry [] i).length / 2
  other : ∀ k, k ∉ axes → jx.getD k 0 = ix.getD k 0

/-- the kernels centred at position `jx` do not reach over the border of the image -/
def Interior (g : Given (List α)) (axes shape jx : List Nat) : Prop :=
  InB shape jx ∧ ∀ i < axes.length, (g.entry [] i).length / 2 ≤ jx.getD (axes.getD i 0) 0 ∧
    jx.getD (axes.getD i 0) 0 - (g.entry [] i).length / 2 + (g.entry [] i).length ≤ shape.getD (axes.getD i 0) 0

/-- `kx` is one of the positions in the window of output position `ix` -/
structure InWindow (ops : List (PoolOp α)) (ix kx : List Nat) : Prop where
  length : kx.length = ix.length
  pooled : ∀ o ∈ ops, o.kernel ≠ [] → ix.getD o.axis 0 * o.stride ≤ kx.getD o.axis 0 ∧ kx.getD o.axis 0 < ix.getD o.axis 0 * o.stride + o.kernel.length
  other : ∀ k, (∀ o ∈ ops, o.kernel ≠ [] → o.axis ≠ k) → kx.getD k 0 = ix.getD k 0

/-- `kx` is one of the positions covered by the kernels centred at `jx` -/
structure Around (g : Given (List α)) (axes jx kx : List Nat) : Prop where
  length : kx.length = jx.length
  filtered : ∀ i < axes.length, g.entry [] i ≠ [] → jx.getD (axes.getD i 0) 0 ≤ kx.getD (axes.getD i 0) 0 + (g.entry [] i).length / 2 ∧
    kx.getD (axes.getD i 0) 0 + (g.entry [] i).length / 2 < jx.getD (axes.getD i 0) 0 + (g.entry [] i).length
  other : ∀ k, (∀ i < axes.length, g.entry [] i ≠ [] → axes.getD i 0 ≠ k) → kx.getD k 0 = jx.getD k 0

section
variable [Field α]

/-- a linear function of the position -/
def rise (s : Nat → α) (ix : List Nat) : α := ∑ k ∈ Finset.range ix.length, s k * (ix.getD k 0 : α)

/-- the grey value is a linear function of the position plus a constant -/
def Affine (c : α) (s : Nat → α) (x : Tensor α) : Prop := ∀ ix, InB x.shape ix → x.get ix = c + rise s ix

/-- weights times their positions -/
def moment (w : List α) : α := ((List.range w.length).map fun j : Nat => (j : α) * w.getD j 0).sum

/-- how far the centre of mass of the kernels is from their middle, times the slopes -/
def drift (g : Given (List α)) (axes : List Nat) (s : Nat → α) : α :=
  ((List.range axes.length).map fun i : Nat => s (axes.getD i 0) * (moment (g.entry [] i) - (((g.entry [] i).length / 2 : Nat) : α))).sum

end

/-- modes that continue straight lines -/
def PadArgs.Straight (gp : PadArgs α) (n : Nat) : Prop := ∀ i < n, match gp.mode.entry .unknown i with
  | .smooth | .oddReflect => True
  | _ => False

/-- the edge kernel and the smoothing kernels centred at `jx` do not reach over the border -/
def EdgeInterior (w : List α) (g : Given (List α)) (axes : List Nat) (a : Nat) (shape jx : List Nat) : Prop :=
  Interior (.one w) [a] shape jx ∧ Interior g (axes.filter fun b => b ≠ a) shape jx

end TI.Spec
