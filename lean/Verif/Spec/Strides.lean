import Verif.Spec.Wider
import Verif.Spec.Pool

/-!
# Every s-th entry of a tensor

Independent description for C119.
-/

namespace TI.Spec
open Tensor

variable {α : Type}

/-- position `ix` on a grid which takes every `st k`-th sample of axis `k`, beginning with sample `off k` -/
def spread (st off : Nat → Nat) (ix : List Nat) : List Nat := (List.range ix.length).map fun k => ix.getD k 0 * st k + off k

/-- `y` is what the grid takes of `z` -/
def EveryOf [Zero α] (st off : Nat → Nat) (y z : Tensor α) : Prop :=
  ∀ ix, InB y.shape ix → InB z.shape (spread st off ix) ∧ z.get (spread st off ix) = y.get ix

/-- distance of the windows on axis `k`; axes which are not pooled have distance one -/
def strideAt (ops : List (PoolOp α)) (k : Nat) : Nat :=
  ((ops.find? fun o => o.axis = k && !o.kernel.isEmpty).map fun o => o.stride).getD 1

/-- sample at which the first window with same padding is centred: half the kernel less the padding before (axis `k` of `shape`) -/
def centreAt (ops : List (PoolOp α)) (shape : List Nat) (k : Nat) : Nat :=
  ((ops.find? fun o => o.axis = k && !o.kernel.isEmpty).map fun o =>
    o.kernel.length / 2 - (PoolArgs.samePair o.kernel.length o.stride (shape.getD k 0)).1).getD 0

/-- the windows are blocks of equal weights side by side which cover the axis -/
def Blocks [Field α] (shape : List Nat) (o : PoolOp α) : Prop :=
  o.axis < shape.length ∧ ∃ k c, 0 < k ∧ 0 < c ∧ o.kernel = List.replicate k (1 / (k : α)) ∧ o.stride = k ∧ shape.getD o.axis 0 = c * k

end TI.Spec
