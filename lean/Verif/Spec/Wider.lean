import Verif.Spec.PadCoord

/-!
# A narrower padding inside a wider one

Independent description for C106.
-/

namespace TI.Spec
open Tensor

variable {α : Type}

/-- `s'` pads at least as much as `s`, with the same mode and values; ramps are excluded, since they reach their end values at the new ends -/
structure AxisPad.Wider (s s' : AxisPad α) : Prop where
  before : s.before ≤ s'.before
  after : s.after ≤ s'.after
  mode : s'.mode = s.mode
  cv : s'.cv = s.cv
  sl : s'.sl = s.sl
  ramp : s.mode ≠ .linearRamp

/-- position `ix`, `off k` further on every axis `k` -/
def further (off : Nat → Nat) (ix : List Nat) : List Nat := (List.range ix.length).map fun k => ix.getD k 0 + off k

/-- `y` is the part of `z` that begins at the offsets `off` -/
def PartOf [Zero α] (off : Nat → Nat) (y z : Tensor α) : Prop :=
  ∀ ix, InB y.shape ix → InB z.shape (further off ix) ∧ z.get (further off ix) = y.get ix

end TI.Spec
