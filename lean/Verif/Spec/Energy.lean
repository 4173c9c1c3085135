import Verif.Spec.Grey
import Verif.Spec.PadNd
import Mathlib.Algebra.Order.Group.Unbundled.Abs

/-!
# Gain of a filter, and borders which count every sample once
-/

namespace TI.Spec

variable {α : Type} [Field α] [LinearOrder α]

/-- product over the axes of the sums of the absolute weights; an empty kernel leaves its axis alone -/
def gain (ops : List (PoolOp α)) : α := (ops.map fun o => if o.kernel = [] then 1 else (o.kernel.map abs).sum).prod

/-- the border of one axis lets every sample contribute with the same total weight: a ring with any kernel, or half-sample mirrors with a kernel of odd
length which reads the same backwards -/
def Fair (m : Mode α) (w : List α) : Prop :=
  m = .circular ∨ m = .symmetric ∧ w.reverse = w ∧ (w = [] ∨ w.length % 2 = 1)

/-- the position of the signal which is repeated at position `z`, on a ring of `n` samples -/
def ringAt (n : Nat) (z : Int) : Nat := (z % n).toNat

/-- … between two half-sample mirrors -/
def mirroredAt (n : Nat) (z : Int) : Nat := if (z % (2 * n)).toNat < n then (z % (2 * n)).toNat else 2 * n - 1 - (z % (2 * n)).toNat

end TI.Spec
