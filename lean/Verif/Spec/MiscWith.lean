import Verif.Model.MiscWith
import Verif.Spec.Misc
import Verif.Spec.Flt
import Verif.Spec.Rounding

/-!
# Polynomials of integers, of numbers that are not finite, and with rounding errors
-/

namespace TI.Spec

/-- the coefficient is an integer -/
def IsInt {α : Type} : Coef α → Prop
  | .int _ => True
  | .float _ => False

variable {α : Type} [Field α] [LinearOrder α]

/-- the number meant by a coefficient -/
inductive Means : Coef α → α → Prop
  | int (n : ℤ) : Means (.int n) (n : α)
  | float (a : α) : Means (.float a) a

/-- the polynomial of an integer whose powers (not the products with coefficients) are numbers of the type -/
def polyWrapped (t : IntType) (p : List α) (v : ℤ) : α :=
  p.getLastD 0 + ((List.range (p.length - 1)).map fun i => p.getD (p.length - 2 - i) 0 * ((wrapped t (v ^ (i + 1)) : ℤ) : α)).sum

/-- the arithmetic of `poly1d`: one rounding for every product, every sum and every conversion of a coefficient to the type of the tensor -/
structure AccuratePoly (u : α) (mul : α → α → α) (scale : α → α → α) (addScaled : α → α → α → α) (shift : α → α → α) : Prop where
  mul : ∀ a b, Rounds u (a * b) (mul a b)
  scale : ∀ w v, ∃ c, Rounds u w c ∧ Rounds u (c * v) (scale w v)
  addScaled : ∀ w a v, ∃ c s, Rounds u w c ∧ Rounds u (c * v) s ∧ Rounds u (a + s) (addScaled w a v)
  shift : ∀ b a, ∃ c, Rounds u b c ∧ Rounds u (a + c) (shift b a)

end TI.Spec
