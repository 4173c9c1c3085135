import Verif.Spec.Edges
import Mathlib.Analysis.SpecialFunctions.Trigonometric.Basic

/-!
# Waves: images that follow a sequence along an axis, and sequences that the padding modes continue
-/

namespace TI.Spec

variable {α : Type} [Field α]

/-- along axis `d` the image follows the sequence `F`, times a factor that depends on the other coordinates only -/
def Follows (x : Tensor α) (d : Nat) (F : Int → α) : Prop :=
  ∃ A : List Nat → α, ∀ ix, InB x.shape ix → x.get ix = A (ix.set d 0) * F (ix.getD d 0)

/-- the sequence has the symmetries that a padding mode gives to a signal of `n` samples -/
def ContinuedBy (n : Nat) (F : Int → α) : Mode α → Prop
  | .circular => ∀ z, F (z + n) = F z
  | .symmetric => (∀ z, F (-1 - z) = F z) ∧ ∀ z, F (z + 2 * n) = F z
  | .antisymmetric => (∀ z, F (-1 - z) = -F z) ∧ ∀ z, F (z + 2 * n) = F z
  | .reflect => 2 ≤ n ∧ (∀ z, F (-z) = F z) ∧ ∀ z, F (z + 2 * ((n : Int) - 1)) = F z
  | .oddReflect => 2 ≤ n ∧ (∀ z, F (-z) = -F z) ∧ ∀ z, F (z + 2 * ((n : Int) - 1)) = F z
  | _ => False

/-- the weights at `j` times the sequence at distance `j - k/2`, for `k` weights -/
def response (w : List α) (F : Int → α) (z : Int) : α :=
  ((List.range w.length).map fun j : Nat => w.getD j 0 * F (z + j - (w.length / 2 : Nat))).sum

/-- the cosine wave that advances by the angle `θ` per sample and starts at the angle `φ` -/
noncomputable def wave (θ φ : ℝ) (z : Int) : ℝ := Real.cos (θ * z + φ)

/-- the gain of a kernel at the angle `θ` per sample -/
noncomputable def waveGain (w : List ℝ) (θ : ℝ) : ℝ :=
  ((List.range w.length).map fun j : Nat => w.getD j 0 * Real.cos (θ * ((j : ℝ) - (w.length / 2 : Nat)))).sum

/-- the part of the answer that is a quarter period late -/
noncomputable def quadrature (w : List ℝ) (θ : ℝ) : ℝ :=
  ((List.range w.length).map fun j : Nat => w.getD j 0 * Real.sin (θ * ((j : ℝ) - (w.length / 2 : Nat)))).sum

end TI.Spec
