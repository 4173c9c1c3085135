import Verif.Proofs.PoolSame
import Verif.Model.Edges

/-!
# Edge filters and sharpening
-/

namespace TI.Spec

variable {α : Type}

/-- pooling arguments of a filter: the given kernels with stride one -/
def PoolArgs.filter (g : Given (List α)) : PoolArgs α := ⟨g, .one (some 1)⟩

section
variable [Field α]

/-- weights divided by their sum -/
def normalised (w : List α) : List α := w.map (· / w.sum)

variable [LinearOrder α]

/-- Same-padded filtering: widen every axis so that as many windows fit as there are samples, then slide the kernels. -/
def filtered (g : Given (List α)) (gp : PadArgs α) (x : Tensor α) (axes : List Nat) : Tensor α :=
  poolSeq (padSeq x (sameOps (PoolArgs.filter g) gp x.shape axes)) ((PoolArgs.filter g).ops axes)

/-- edge response along axis `a`, smoothed along the other axes -/
def edgeResponse (w : List α) (g : Given (List α)) (gp : PadArgs α) (x : Tensor α) (axes : List Nat) (a : Nat) : Tensor α :=
  filtered g gp (filtered (.one w) gp x [a]) (axes.filter fun b => b ≠ a)

/-- edge response without padding -/
def validResponse (w : List α) (g : Given (List α)) (x : Tensor α) (axes : List Nat) (a : Nat) : Tensor α :=
  poolSeq x (⟨a, w, 1⟩ :: (PoolArgs.filter g).ops (axes.filter fun b => b ≠ a))

/-- entrywise sum of the `p`-th powers -/
def powerSum (shape : List Nat) (p : Nat) (c : Nat → Tensor α) (axes : List Nat) : Tensor α :=
  Tensor.ofFn shape fun ix => (axes.map fun a => (c a).get ix ^ p).sum

/-- Conditions of a padded edge response: `SameCall` for the edge kernel along `a`, and for the smoothing along the other axes. -/
structure EdgeCall (w : List α) (g : Given (List α)) (gp : PadArgs α) (x : Tensor α) (axes : List Nat) (a : Nat) : Prop where
  edge : SameCall (PoolArgs.filter (.one w)) gp x (.int a) [a]
  smooth : SameCall (PoolArgs.filter g) gp (filtered (.one w) gp x [a]) (.seq (castV (axes.filter fun b => b ≠ a)))
    (axes.filter fun b => b ≠ a)

/-- kernels that agree with `(-1, 0, 1)` up to the digits after the decimal point -/
def TakenForFirst : List α → Prop
  | [a, b, c] => (-2 < a ∧ a ≤ -1) ∧ (-1 < b ∧ b < 1) ∧ (1 ≤ c ∧ c < 2)
  | _ => False

/-- kernels that agree with `(1, -2, 1)` up to the digits after the decimal point -/
def TakenForSecond : List α → Prop
  | [a, b, c] => (1 ≤ a ∧ a < 2) ∧ (-3 < b ∧ b ≤ -2) ∧ (1 ≤ c ∧ c < 2)
  | _ => False

open Classical in
/-- the kernel that is used in place of `w` -/
noncomputable def usedKernel (w : List α) : List α :=
  if TakenForFirst w then [-1, 0, 1] else if TakenForSecond w then [1, -2, 1] else w

/-- The components along `n` axes are computed into new tensors: there is a power to take, or one of the kernels in use has weights. -/
def Acts (w : List α) (g : Given (List α)) (n p : Nat) : Prop := p ≠ 1 ∨ w ≠ [] ∨ ∃ i < n - 1, g.entry [] i ≠ []

/-- one more sample on both sides of axis `a`, with the first setting of the padder -/
def widened (gp : PadArgs α) (x : Tensor α) (a : Nat) : Tensor α :=
  padStep x (a, ⟨1, 1, gp.mode.entry .unknown 0, gp.cv.entry (0, 0) 0, gp.ev.entry (0, 0) 0, gp.sl.entry (none, none) 0⟩)

/-- sum over the axes of the second differences of the widened image -/
def laplacian (gp : PadArgs α) (x : Tensor α) (axes : List Nat) : Tensor α :=
  Tensor.ofFn x.shape fun ix => (axes.map fun a => (widened gp x a).get (ix.set a (ix.getD a 0 + 2)) + (widened gp x a).get ix -
    2 * (widened gp x a).get (ix.set a (ix.getD a 0 + 1))).sum

end

end TI.Spec
