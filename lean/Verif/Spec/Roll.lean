import Verif.Spec.Pool
import Verif.Spec.PadNd

/-!
# Moving an image around a ring
-/

namespace TI.Spec

variable {α : Type} [Zero α]

/-- position `t` of axis `a`, which gets `m` positions, is filled from position `φ t` -/
def reindexed (a m : Nat) (φ : Nat → Nat) (x : Tensor α) : Tensor α :=
  Tensor.ofFn (x.shape.set a m) fun ix => x.get (ix.set a (φ (ix.getD a 0)))

/-- `torch.roll(x, -d, a)`: the image moved by `d` positions along axis `a`, what leaves on one side enters on the other -/
def rolled (a d : Nat) (x : Tensor α) : Tensor α :=
  Tensor.ofFn x.shape fun ix => x.get (ix.set a ((ix.getD a 0 + d) % x.shape.getD a 0))

end TI.Spec
