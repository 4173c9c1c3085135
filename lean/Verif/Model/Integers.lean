import Verif.Model.Rounded
import Mathlib.Algebra.Order.Floor.Ring

/-!
# torchimage/pooling/base.py:191-228 for images of a signed integer type

The kernel is converted to the type of the image (`move_tensor`, base.py:12-15 and 217) and `@` multiplies and adds integers of this type, which wrap around.
Simplifications: the weights are in the range of the type (PyTorch refuses others), padding is exact (copying modes).
-/

namespace TI

variable {α : Type} [Field α] [LinearOrder α] [FloorRing α]

/-- conversion of a number to an integer: digits after the point are dropped -/
def truncate (a : α) : ℤ := if 0 ≤ a then ⌊a⌋ else ⌈a⌉

/-- two's complement with `b` bits -/
def wrapBits (b : Nat) (n : ℤ) : ℤ := (n + 2 ^ (b - 1)) % 2 ^ b - 2 ^ (b - 1)

/-- scalar product of `b`-bit integers, pooling/base.py:217 and 227 -/
def intDot (b : Nat) : Nat → List Nat → List α → List α → α := fun _ _ xs w =>
  ((wrapBits b ((List.range w.length).map fun j => truncate (xs.getD j 0) * truncate (w.getD j 0)).sum : ℤ) : α)

/-- pooling/base.py:191-228 `forward` for an image of `b`-bit integers -/
def SepPool.forwardInt (b : Nat) (pool : SepPool α) (padder : Option (Padder α)) (junk : List Nat → α) (x : Tensor α) (axes : Axes) :
    Option (Padder α) × Except Err (Tensor α) :=
  SepPool.forwardWith (intDot b) pool padder junk x axes

end TI
