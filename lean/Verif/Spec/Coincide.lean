import Verif.Spec.PadCoord

/-!
# Modes that coincide

Independent description for C113: families of settings that write the same samples, on an axis of `n` samples.
-/

namespace TI.Spec

variable {α : Type}

/-- at most one sample is added on either side -/
def AxisPad.Thin (s : AxisPad α) : Prop := s.before ≤ 1 ∧ s.after ≤ 1

/-- a length for a statistic that takes at most `k` samples -/
def Short (k : Int) (l : Option Int) : Prop := ∃ w, l = some w ∧ w ≤ k

/-- settings that repeat the outermost sample: `replicate`; any statistic of a single sample; a mirror about the edge (even or odd) that is
asked for one sample; and nearly every mode on an axis of one sample -/
def AxisPad.EdgeLike (n : Nat) (s : AxisPad α) : Prop :=
  s.mode = .replicate ∨
  (∃ st, s.mode = .stat st) ∧ (Short 1 s.sl.1 ∧ Short 1 s.sl.2 ∨ n = 1) ∨
  (s.mode = .symmetric ∨ s.mode = .oddSymmetric) ∧ (s.Thin ∨ n = 1) ∨
  (s.mode = .circular ∨ s.mode = .reflect ∨ s.mode = .oddReflect ∨ s.mode = .smooth) ∧ n = 1

/-- settings that continue the line through the two outermost samples: `smooth`; `odd_reflect` for one sample or on an axis of two samples -/
def AxisPad.LineLike (n : Nat) (s : AxisPad α) : Prop :=
  2 ≤ n ∧ (s.mode = .smooth ∨ s.mode = .oddReflect ∧ (s.Thin ∨ n = 2))

/-- settings that repeat the samples periodically: `circular`; `periodize` on even axes; `reflect` on an axis of two samples -/
def AxisPad.RingLike (n : Nat) (s : AxisPad α) : Prop :=
  s.mode = .circular ∨ s.mode = .periodize ∧ n % 2 = 0 ∨ s.mode = .reflect ∧ n = 2

/-- settings that write the smallest of the outermost samples: `minimum`; `median` of at most two samples, since it is the lower one -/
def AxisPad.LowLike (n : Nat) (s : AxisPad α) : Prop :=
  s.mode = .stat .minimum ∨ s.mode = .stat .median ∧ (Short 2 s.sl.1 ∧ Short 2 s.sl.2 ∨ n ≤ 2)

/-- settings that write the values `c`: `constant`; a ramp of a single sample -/
def AxisPad.ValueLike (c : α × α) (s : AxisPad α) : Prop :=
  s.mode = .constant ∧ s.cv = c ∨ s.mode = .linearRamp ∧ s.ev = c ∧ s.Thin

/-- the settings belong to the same family -/
def AxisPad.Alike (n : Nat) (s s' : AxisPad α) : Prop :=
  s.EdgeLike n ∧ s'.EdgeLike n ∨ s.LineLike n ∧ s'.LineLike n ∨ s.RingLike n ∧ s'.RingLike n ∨
  (s.LowLike n ∧ s'.LowLike n ∧ s.sl = s'.sl) ∨ (∃ c, s.ValueLike c ∧ s'.ValueLike c) ∨
  (s.mode = s'.mode ∧ s.cv = s'.cv ∧ s.ev = s'.ev ∧ s.sl = s'.sl)

/-- both modes repeat the edge when asked for one sample, or both continue the outermost line; the latter needs `n ≥ 2` samples -/
def SmallAlike (n : Nat) (m m' : Mode α) : Prop :=
  (m = .replicate ∨ m = .symmetric ∨ m = .oddSymmetric) ∧ (m' = .replicate ∨ m' = .symmetric ∨ m' = .oddSymmetric) ∨
  (m = .smooth ∨ m = .oddReflect) ∧ (m' = .smooth ∨ m' = .oddReflect) ∧ 2 ≤ n

/-- the settings have the same widths and belong to the same family -/
structure AxisPad.Coincide (n : Nat) (s s' : AxisPad α) : Prop where
  before : s'.before = s.before
  after : s'.after = s.after
  alike : s.Alike n s'

end TI.Spec
