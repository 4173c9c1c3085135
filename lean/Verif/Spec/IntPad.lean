import Verif.Spec.PadNd
import Verif.Spec.Integers
import Verif.Model.IntPad

/-!
# Padding of images with integer entries
-/

namespace TI.Spec

variable {α : Type}

/-- the numbers that an integer type can hold -/
def Holdable (t : IntType) (n : ℤ) : Prop :=
  if t.signed then -2 ^ (t.bits - 1) ≤ n ∧ n < 2 ^ (t.bits - 1) else 0 ≤ n ∧ n < 2 ^ t.bits

/-- the image of numbers meant by an image of machine integers -/
def numbers [Field α] {t : IntType} (x : Tensor t.Word) : Tensor α := x.map fun v => ((t.value v : ℤ) : α)

/-- What the settings of an axis mean for an integer image: the padding constants lose their digits after the point, and the linear ramp
is no ramp at all but the constant end value. -/
def intAxis [Field α] [LinearOrder α] [FloorRing α] (s : AxisPad α) : AxisPad α :=
  match s.mode with
  | .linearRamp => { s with mode := .constant, cv := ((towardZero s.ev.1 : ℤ), (towardZero s.ev.2 : ℤ)) }
  | _ => { s with cv := ((towardZero s.cv.1 : ℤ), (towardZero s.cv.2 : ℤ)) }

/-- the axes and settings in effect for an integer image -/
def intOps [Field α] [LinearOrder α] [FloorRing α] (ops : List (Nat × AxisPad α)) : List (Nat × AxisPad α) := ops.map fun o => (o.1, intAxis o.2)

/-- modes that compute new values by adding and subtracting old ones -/
def isArithmetic : Mode α → Bool
  | .smooth | .antisymmetric | .oddReflect | .oddSymmetric => true
  | _ => false

/-- modes that order values -/
def isStat : Mode α → Bool
  | .stat _ => true
  | _ => false

/-- the mode is covered by the model of integer images: no callable, and not the mean, which PyTorch refuses -/
def forIntegers : Mode α → Bool
  | .stat .mean | .custom _ => false
  | _ => true

end TI.Spec
