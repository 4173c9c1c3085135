import Verif.Spec.Energy
import Verif.Spec.Compose

/-!
# Scalar products of images
-/

namespace TI.Spec
open Tensor

variable {α : Type} [Field α]

/-- the sum of the products of the samples at the same place -/
def dot (x y : Tensor α) : α := ((indices x.shape).map fun ix => x.get ix * y.get ix).sum

/-- the kernel of two filters of one axis in a row; an empty kernel leaves the axis alone -/
def inTurn (w v : List α) : List α := if w = [] then v else if v = [] then w else composed w 1 v

/-- the axis is continued as a ring or between half-sample mirrors -/
def Folds (m : Mode α) : Prop := m = .circular ∨ m = .symmetric

end TI.Spec
