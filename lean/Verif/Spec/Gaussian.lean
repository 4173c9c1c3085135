import Mathlib.Analysis.Calculus.IteratedDeriv.Defs
import Mathlib.Analysis.SpecialFunctions.Exp

/-!
# Gaussian bell curve and its samples
-/

namespace TI.Spec

/-- the bell curve `exp(-t² / (2σ²))` -/
noncomputable def bell (σ t : ℝ) : ℝ := Real.exp (-(t ^ 2) / (2 * σ ^ 2))

/-- its `m`-th derivative at `t` -/
noncomputable def bellDeriv (m : Nat) (σ t : ℝ) : ℝ := iteratedDeriv m (bell σ) t

/-- sample points of a kernel of `k` weights: `⌊k/2⌋, ⌊k/2⌋ - 1, ...` -/
noncomputable def samplePoint (k i : Nat) : ℝ := ((k / 2 : Nat) : ℝ) - i

end TI.Spec
