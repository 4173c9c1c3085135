import Verif.Spec.PadCoord

/-!
# Padding in two steps

Independent description for C105: the widths of a padding are split into two paddings made one after the other.
-/

namespace TI.Spec
open Tensor

variable {α : Type}

/-- the padding `s` is made in two steps: first `s₁`, then `s₂`, with the same mode and the same values -/
structure AxisPad.Steps (s₁ s₂ s : AxisPad α) : Prop where
  before : s.before = s₁.before + s₂.before
  after : s.after = s₁.after + s₂.after
  mode : s₁.mode = s.mode ∧ s₂.mode = s.mode
  cv : s₁.cv = s.cv ∧ s₂.cv = s.cv
  sl : s₁.sl = s.sl ∧ s₂.sl = s.sl

/-- rules that find the same border values on the extended signal as on the signal: they continue the outermost samples, continue the
outermost straight line, set a constant, or set a statistic of all the samples -/
def AxisPad.Settled (s : AxisPad α) : Prop :=
  match s.mode with
  | .replicate | .smooth | .constant => True
  | .stat _ => s.sl = (none, none)
  | _ => False

/-- The settings of several axes agree well enough for the corners: there is one axis only, or all the constants are the same and the
statistics are means, or there are only edge values and maxima, or only edge values and minima. -/
def Agreeing (ss : List (AxisPad α)) : Prop :=
  ss.length ≤ 1 ∨
  (∃ c, ∀ s ∈ ss, s.mode = .replicate ∨ s.mode = .smooth ∨ s.mode = .stat .mean ∨ s.mode = .constant ∧ s.cv = (c, c)) ∨
  (∀ s ∈ ss, s.mode = .replicate ∨ s.mode = .stat .maximum) ∨
  (∀ s ∈ ss, s.mode = .replicate ∨ s.mode = .stat .minimum)

end TI.Spec
