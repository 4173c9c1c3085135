import Verif.Spec.Pool

/-!
# Two poolings in a row
-/

namespace TI.Spec

variable {α : Type} [Field α]

/-- Weights of two poolings of one axis in a row: windows of the second one are `b ↦ w₂[b]`, at distance `s` of each other in the
samples of the first one, whose windows are `a ↦ w₁[a]`; sample `b * s + a` is weighted by `w₂[b] * w₁[a]`, and weights of the same
sample are added. -/
def composed (w₁ : List α) (s : Nat) (w₂ : List α) : List α :=
  (List.range ((w₂.length - 1) * s + w₁.length)).map fun j =>
    ((List.range w₂.length).map fun b => w₂.getD b 0 * if b * s ≤ j then w₁.getD (j - b * s) 0 else 0).sum

end TI.Spec
