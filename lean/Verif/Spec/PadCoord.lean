import Verif.Spec.Axes
import Mathlib.Algebra.BigOperators.Group.List.Basic

/-!
# Coordinate form of the padding modes that copy samples
-/

namespace TI.Spec

variable {α : Type}

/-- settings applied to tensor axis `k`, if any -/
def settingAt (ops : List (Nat × AxisPad α)) (k : Nat) : Option (AxisPad α) :=
  match ops with
  | [] => none
  | o :: ops => if o.1 = k then some o.2 else settingAt ops k

/-- width padded before tensor axis `k` -/
def beforeAt (ops : List (Nat × AxisPad α)) (k : Nat) : Nat :=
  match settingAt ops k with
  | some s => s.before
  | none => 0

/-- clamp to `[0, n-1]` -/
def clampC (n : Nat) (z : Int) : Nat := if z < 0 then 0 else if z < n then z.toNat else n - 1

/-- `z mod n` -/
def circC (n : Nat) (z : Int) : Nat := (z % n).toNat

/-- fold with period `2n` about the half-sample edges -/
def symC (n : Nat) (z : Int) : Nat :=
  if (z % (2 * n)).toNat < n then (z % (2 * n)).toNat else 2 * n - 1 - (z % (2 * n)).toNat

/-- fold with period `2(n-1)` about the edge samples -/
def reflC (n : Nat) (z : Int) : Nat :=
  if n = 1 then 0
  else if (z % (2 * (n - 1) : Nat)).toNat < n then (z % (2 * (n - 1) : Nat)).toNat
  else 2 * (n - 1) - (z % (2 * (n - 1) : Nat)).toNat

/-- period `n` for even `n`; for odd `n` period `n + 1` with the last sample occurring twice -/
def perC (n : Nat) (z : Int) : Nat :=
  if n % 2 = 0 then (z % n).toNat else min (z % (n + 1 : Nat)).toNat (n - 1)

/-- coordinate map of a sample-copying mode -/
def modeC : Mode α → Option (Nat → Int → Nat)
  | .replicate => some clampC
  | .circular => some circC
  | .periodize => some perC
  | .symmetric => some symC
  | .antisymmetric => some symC
  | .reflect => some reflC
  | _ => none

/-- sign attached to a copied sample -/
def modeS [One α] [Neg α] : Mode α → Nat → Int → α
  | .antisymmetric => fun n z => if (z % (2 * n)).toNat < n then 1 else -1
  | _ => fun _ _ => 1

section
variable [Field α]

/-- position of the original sample `ix` in the padded tensor -/
def embed (ops : List (Nat × AxisPad α)) (ix : List Nat) : List Nat :=
  (List.range ix.length).map fun k => ix.getD k 0 + beforeAt ops k

/-- source position of output position `ix` -/
def source (shape : List Nat) (ops : List (Nat × AxisPad α)) (ix : List Nat) : List Nat :=
  (List.range ix.length).map fun k => match settingAt ops k with
    | some s => match modeC s.mode with
      | some c => c (shape.getD k 0) ((ix.getD k 0 : Int) - s.before)
      | none => ix.getD k 0
    | none => ix.getD k 0

/-- product of the signs met on the padded axes -/
def signs (shape : List Nat) (ops : List (Nat × AxisPad α)) (ix : List Nat) : α :=
  (ops.map fun o => modeS o.2.mode (shape.getD o.1 0) ((ix.getD o.1 0 : Int) - o.2.before)).prod

/-- settings whose extension is linear in the samples -/
def AxisPad.Linear (s : AxisPad α) : Prop :=
  match s.mode with
  | .constant => s.cv = (0, 0)
  | .linearRamp => s.ev = (0, 0)
  | .stat .mean => True
  | .stat _ | .zeros | .empty | .unknown | .custom _ => False
  | _ => True

/-- Every fibre of `y` along `d` is the extension by `E` of its middle part
`[before, before + n)`. -/
def FibreLaw (E : Ext α) (d before n : Nat) (y : Tensor α) : Prop :=
  ∀ ix, InB y.shape ix →
    y.get ix = E n (fun j => y.get (ix.set d (before + j))) ((ix.getD d 0 : Int) - before)

/-- index `ix` lies in the original region of all the axes in `ops` -/
def Inside (shape : List Nat) (ops : List (Nat × AxisPad α)) (ix : List Nat) : Prop :=
  ∀ q ∈ ops, q.2.before ≤ ix.getD q.1 0 ∧ ix.getD q.1 0 < q.2.before + shape.getD q.1 0

end

/-- replace the coordinate on every padded axis: position `z = ix_k - before` relative to the first
original sample of an axis with `n` samples becomes `c n z` -/
def pull (c : Nat → Int → Nat) (shape : List Nat) (ops : List (Nat × AxisPad α)) (ix : List Nat) : List Nat :=
  (List.range ix.length).map fun k => match settingAt ops k with
    | some s => c (shape.getD k 0) ((ix.getD k 0 : Int) - s.before)
    | none => ix.getD k 0

/-- `v` is the statistic of the samples `l`; the median is the lower one -/
def IsStat [Field α] [LinearOrder α] : Stat → List α → α → Prop
  | .mean, l, v => v * (l.length : α) = l.sum
  | .maximum, l, v => v ∈ l ∧ ∀ a ∈ l, a ≤ v
  | .minimum, l, v => v ∈ l ∧ ∀ a ∈ l, v ≤ a
  | .median, l, v => v ∈ l ∧ (l.filter fun a => decide (a < v)).length ≤ (l.length - 1) / 2 ∧
      (l.length - 1) / 2 < (l.filter fun a => decide (a ≤ v)).length

end TI.Spec
