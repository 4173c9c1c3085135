import Verif.Spec.MsSsim

/-!
# Selecting positions of an axis
-/

namespace TI.Spec

variable {α : Type}

/-- `torch.index_select(x, b, index)`: positions `index` of axis `b`, in that order, repeated or left out -/
def selected [Zero α] (b : Nat) (index : List Nat) (x : Tensor α) : Tensor α :=
  Tensor.ofFn (x.shape.set b index.length) fun ix => x.get (ix.set b (index.getD (ix.getD b 0) 0))

/-- axis `b` exists and has all positions in `index` -/
structure Selects (b : Nat) (index : List Nat) (shape : List Nat) : Prop where
  axis : b < shape.length
  lt : ∀ i ∈ index, i < shape.getD b 0

/-- the position of axis `b` among the axes that are not in `ds` -/
def keptPos (n : Nat) (ds : List Nat) (b : Nat) : Nat := (keptAxes n ds).idxOf b

end TI.Spec
