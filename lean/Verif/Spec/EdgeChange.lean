import Verif.Spec.Grey
import Verif.Spec.Order
import Verif.Spec.EdgeSym
import Verif.Spec.EdgeLoss

/-!
# Edges and edge losses of changed images

Independent description for C114.
-/

namespace TI.Spec

variable {α : Type} [Field α] [LinearOrder α]

/-- sum of the absolute weights; an empty kernel is skipped -/
def absSum (w : List α) : α := if w = [] then 1 else (w.map fun v => |v|).sum

/-- product of the sums of the absolute weights of all axes -/
def absWeight (ops : List (PoolOp α)) : α := (ops.map fun o => absSum o.kernel).prod

/-- how much an edge filter on `n` axes can enlarge differences: the sum of the absolute weights of the edge kernel times those of the smoothing
kernels of the other axes -/
def edgeGain (w : List α) (g : Given (List α)) (n : Nat) : α :=
  absSum w * ((List.range (n - 1)).map fun i => absSum (g.entry [] i)).prod

/-- images that differ from `p` and `t` by the same image `u`, after scaling by `a` -/
def Shifted (a b : α) (u p t p' t' : Tensor α) : Prop :=
  u.shape = p.shape ∧ u.shape = t.shape ∧ p' = lincomb a p b u ∧ t' = lincomb a t b u

end TI.Spec
