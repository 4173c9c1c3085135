import Verif.Spec.Pool
import Verif.Spec.PadCoord

/-!
# Pooling one axis after the other

Independent description for C103: an axis is widened and pooled at once, before the next axis is touched.
-/

namespace TI.Spec
open Tensor

variable {α : Type} [Field α] [LinearOrder α]

/-- widen one axis and pool it -/
def sameStep (x : Tensor α) (q : PoolOp α × (Nat × AxisPad α)) : Tensor α := slide (padStep x q.2) q.1

/-- widen and pool the axes one after the other -/
def sameEach (x : Tensor α) (l : List (PoolOp α × (Nat × AxisPad α))) : Tensor α := l.foldl sameStep x

/-- the border values are affine functions of the samples (see C17 for the linear rules): all rules but the maximum, minimum and median -/
def AxisPad.Affine (s : AxisPad α) : Prop :=
  match s.mode with
  | .stat .mean => True
  | .stat _ | .zeros | .empty | .unknown | .custom _ => False
  | _ => True

/-- what makes widening one axis and pooling another one exchangeable: the border values are linear functions of the samples, or they are
affine functions and the weights sum to one -/
def Passes (o : PoolOp α) (s : AxisPad α) : Prop := s.Linear ∨ s.Affine ∧ o.kernel.sum = 1

end TI.Spec
