import Mathlib.Analysis.Calculus.ContDiff.Operations
import Verif.Model.Tensor

/-!
# Images that depend on a parameter
-/

namespace TI.Spec

variable {E : Type}

/-- a class of real functions closed under the operations of a field -/
structure Arithmetic (R : (E → ℝ) → Prop) : Prop where
  const : ∀ c, R fun _ => c
  add : ∀ {f g}, R f → R g → R fun e => f e + g e
  mul : ∀ {f g}, R f → R g → R fun e => f e * g e
  div : ∀ {f g}, R f → R g → (∀ e, g e ≠ 0) → R fun e => f e / g e

/-- images of one shape whose entries are functions of a class -/
structure Family (R : (E → ℝ) → Prop) (S : List Nat) (x : E → Tensor ℝ) : Prop where
  shape : ∀ e, (x e).shape = S
  entry : ∀ ix, InB S ix → R fun e => (x e).get ix

/-- images of one shape whose entries are `n` times continuously differentiable functions of a parameter, near `e` -/
def SmoothAt [NormedAddCommGroup E] [NormedSpace ℝ E] (n : WithTop ℕ∞) (e : E) (S : List Nat) (x : E → Tensor ℝ) : Prop := Family (fun f => ContDiffAt ℝ n f e) S x

end TI.Spec
