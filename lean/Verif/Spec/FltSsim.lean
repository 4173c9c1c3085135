import Verif.Spec.Flt
import Verif.Spec.Metrics

/-!
# Structural similarity of images with entries that are not finite
-/

namespace TI.Spec

variable {α : Type} [Field α] [LinearOrder α]

/-- a quotient of two numbers: dividing by zero gives NaN for zero and an infinity with the sign of any other number -/
def quotient (n d : α) : Flt α := if d ≠ 0 then .num (n / d) else if n = 0 then .nan else if 0 < n then .inf false else .inf true

/-- the numerator of the SSIM index -/
def ssimNumer (c1 c2 f m1 m2 e12 : α) : α := (2 * (m1 * m2) + c1) * (2 * (f * (e12 - m1 * m2)) + c2)

/-- the denominator of the SSIM index -/
def ssimDenom (c1 c2 f m1 m2 e11 e22 : α) : α := (m1 ^ 2 + m2 ^ 2 + c1) * (f * (e11 - m1 ^ 2) + f * (e22 - m2 ^ 2) + c2)

/-- the outcomes of a call that returns scores and a map, for images of numbers and for images with entries that are not finite -/
def AlikePair (r : Except Err (Tensor α × Tensor α)) (s : Except Err (Tensor (Flt α) × Tensor (Flt α))) : Prop :=
  (∃ e, r = .error e ∧ s = .error e) ∨ ∃ v z V Z, r = .ok (v, z) ∧ s = .ok (V, Z) ∧ FillsIn v V ∧ FillsIn z Z

end TI.Spec
