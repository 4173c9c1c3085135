import Verif.Spec.Pool
import Mathlib.Algebra.Order.Floor.Ring
import Mathlib.Data.Int.ModEq

/-!
# Images with integer entries
-/

namespace TI.Spec

variable {α : Type} [Field α] [LinearOrder α]

/-- the entries are integers of `b` bits, the first of them for the sign -/
def IntEntries (b : Nat) (x : Tensor α) : Prop := ∀ v ∈ x.data, ∃ n : ℤ, v = n ∧ -2 ^ (b - 1) ≤ n ∧ n < 2 ^ (b - 1)

/-- what is left of a number without its digits after the point -/
def towardZero [FloorRing α] (a : α) : ℤ := if a < 0 then -⌊-a⌋ else ⌊a⌋

/-- the same filter with integer weights -/
def truncOp [FloorRing α] (o : PoolOp α) : PoolOp α := ⟨o.axis, o.kernel.map fun a => ((towardZero a : ℤ) : α), o.stride⟩

end TI.Spec
