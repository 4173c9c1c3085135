import Verif.Spec.MsSsim
import Mathlib.Logic.Equiv.Basic

/-!
# Exchanging two axes
-/

namespace TI.Spec

variable {α : Type}

/-- entries `a` and `b` exchanged -/
def swapAt (a b : Nat) (l : List Nat) : List Nat := (l.set a (l.getD b 0)).set b (l.getD a 0)

/-- `torch.transpose(x, a, b)` -/
def transposed [Zero α] (a b : Nat) (x : Tensor α) : Tensor α := Tensor.ofFn (swapAt a b x.shape) fun ix => x.get (swapAt a b ix)

/-- where the axes are after exchanging `a` and `b` -/
def swapAxes (a b : Nat) (axes : List Nat) : List Nat := axes.map (Equiv.swap a b)

end TI.Spec
