import Verif.Spec.PadCoord
import Verif.Spec.Pool

/-!
# Reversing an axis
-/

namespace TI.Spec

variable {α : Type}

/-- `torch.flip(x, (d,))` -/
def flipped [Zero α] (d : Nat) (x : Tensor α) : Tensor α :=
  Tensor.ofFn x.shape fun ix => x.get (ix.set d (x.shape.getD d 0 - 1 - ix.getD d 0))

/-- the settings of one axis, before and after exchanged -/
def AxisPad.mirrored (s : AxisPad α) : AxisPad α where
  before := s.after
  after := s.before
  mode := s.mode
  cv := (s.cv.2, s.cv.1)
  ev := (s.ev.2, s.ev.1)
  sl := (s.sl.2, s.sl.1)

/-- before and after exchanged on axis `d` -/
def mirrorAt (d : Nat) (ops : List (Nat × AxisPad α)) : List (Nat × AxisPad α) :=
  ops.map fun o => if o.1 = d then (o.1, o.2.mirrored) else o

/-- the weights of axis `d` reversed -/
def reverseAt (d : Nat) (ops : List (PoolOp α)) : List (PoolOp α) :=
  ops.map fun o => if o.axis = d then ⟨o.axis, o.kernel.reverse, o.stride⟩ else o

end TI.Spec
