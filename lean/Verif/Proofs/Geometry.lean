import Verif.Proofs.Parts
import Verif.Spec.Order
import Mathlib.Analysis.SpecialFunctions.Pow.Real

/-!
# Sums of squares
-/

set_option linter.unusedSectionVars false

namespace TI
open Tensor Spec

section
variable {α : Type} [Field α] [LinearOrder α] [IsStrictOrderedRing α] {x y : Tensor α} {ax : Axes} {axes : List Nat}

/-- every reduction of squared errors is, entry by entry, a sum of squared differences over a set of positions, times a number -/
theorem mse_form {r : Reduction} (hr : r ≠ .unknown) (hax : axesOf x.ndim ax = some axes) (hnd : axes.Nodup) :
    ∃ (S : List Nat) (L : List Nat → List (List Nat)) (k : List Nat → α), (∀ jx, 0 ≤ k jx) ∧ (∀ jx, InB S jx → ∀ ix ∈ L jx, InB x.shape ix) ∧
      ∀ u v : Tensor α, u.shape = x.shape → v.shape = x.shape →
        mse r u v ax = .ok (ofFn S fun jx => k jx * ((L jx).map fun ix => (u.get ix - v.get ix) ^ 2).sum) := by
  have hn : ∀ u : Tensor α, u.shape = x.shape → u.ndim = x.ndim := fun u hu => by rw [ndim, ndim, hu]
  cases r with
  | mean =>
    refine ⟨onKept (reducedAxes x.ndim axes) x.shape, fun jx => collected x.shape (reducedAxes x.ndim axes) jx,
      fun jx => ((collected x.shape (reducedAxes x.ndim axes) jx).length : α)⁻¹, fun jx => inv_nonneg.2 (Nat.cast_nonneg _),
      fun jx _ ix hix => (mem_collected.1 hix).1, fun u v hu hv => ?_⟩
    rw [C55_mean (hu.trans hv.symm) (by rw [hn u hu]; exact hax) hnd, hn u hu, hu]
    congr 1
    apply ofFn_congr
    intro jx _
    rw [Spec.mean, List.length_map, div_eq_inv_mul]
  | sum =>
    refine ⟨onKept (reducedAxes x.ndim axes) x.shape, fun jx => collected x.shape (reducedAxes x.ndim axes) jx, fun _ => 1, fun _ => zero_le_one,
      fun jx _ ix hix => (mem_collected.1 hix).1, fun u v hu hv => ?_⟩
    rw [C55_sum (hu.trans hv.symm) (by rw [hn u hu]; exact hax) hnd, hn u hu, hu]
    congr 1
    apply ofFn_congr
    intro jx _
    rw [one_mul]
  | none =>
    refine ⟨x.shape, fun jx => [jx], fun _ => 1, fun _ => zero_le_one, fun jx hj ix hix => by rw [List.mem_singleton.1 hix]; exact hj,
      fun u v hu hv => ?_⟩
    rw [C55_none (hu.trans hv.symm) (by rw [hn u hu]; exact hax), hu]
    congr 1
    apply ofFn_congr
    intro jx _
    simp
  | unknown => exact absurd rfl hr

theorem sum_sq_mix (L : List (List Nat)) (l : α) (u v w : List Nat → α) :
    (L.map fun ix => (l * u ix + (1 - l) * v ix - w ix) ^ 2).sum = l * (L.map fun ix => (u ix - w ix) ^ 2).sum +
      (1 - l) * (L.map fun ix => (v ix - w ix) ^ 2).sum - l * (1 - l) * (L.map fun ix => (u ix - v ix) ^ 2).sum := by
  induction L with
  | nil => simp
  | cons a L ih =>
    simp only [List.map_cons, List.sum_cons, ih]
    ring

theorem sum_mul_sq_le (L : List (List Nat)) (u v : List Nat → α) :
    (L.map fun ix => u ix * v ix).sum ^ 2 ≤ (L.map fun ix => u ix ^ 2).sum * (L.map fun ix => v ix ^ 2).sum := by
  induction L with
  | nil => simp
  | cons a L ih =>
    simp only [List.map_cons, List.sum_cons]
    have hP := sum_sq_nonneg L u
    have hQ := sum_sq_nonneg L v
    generalize (L.map fun ix => u ix * v ix).sum = s at *
    generalize (L.map fun ix => u ix ^ 2).sum = P at *
    generalize (L.map fun ix => v ix ^ 2).sum = Q at *
    generalize u a = p
    generalize v a = q
    have h1 : (2 * (p * q) * s) ^ 2 ≤ (p ^ 2 * Q + q ^ 2 * P) ^ 2 := by
      have h2 : (2 * (p * q) * s) ^ 2 = 4 * (p * q) ^ 2 * s ^ 2 := by ring
      have h3 : 4 * (p * q) ^ 2 * s ^ 2 ≤ 4 * (p * q) ^ 2 * (P * Q) := mul_le_mul_of_nonneg_left ih (by positivity)
      nlinarith [sq_nonneg (p ^ 2 * Q - q ^ 2 * P)]
    have h4 : 2 * (p * q) * s ≤ p ^ 2 * Q + q ^ 2 * P := by
      have h5 : 0 ≤ p ^ 2 * Q + q ^ 2 * P := by positivity
      exact le_of_abs_le (abs_le_of_sq_le_sq h1 h5)
    nlinarith

end

/-- Minkowski's inequality -/
theorem sqrt_sum_le (L : List (List Nat)) {k : ℝ} (hk : 0 ≤ k) (u v w : List Nat → ℝ) :
    Real.sqrt (k * (L.map fun ix => (u ix - w ix) ^ 2).sum) ≤
      Real.sqrt (k * (L.map fun ix => (u ix - v ix) ^ 2).sum) + Real.sqrt (k * (L.map fun ix => (v ix - w ix) ^ 2).sum) := by
  have hA := sum_sq_nonneg L fun ix => u ix - v ix
  have hB := sum_sq_nonneg L fun ix => v ix - w ix
  have hC := sum_mul_sq_le L (fun ix => u ix - v ix) (fun ix => v ix - w ix)
  have e : (L.map fun ix => (u ix - w ix) ^ 2).sum = (L.map fun ix => (u ix - v ix) ^ 2).sum + 2 * (L.map fun ix => (u ix - v ix) * (v ix - w ix)).sum +
      (L.map fun ix => (v ix - w ix) ^ 2).sum := by
    clear hA hB hC
    induction L with
    | nil => simp
    | cons a L ih =>
      simp only [List.map_cons, List.sum_cons, ih]
      ring
  rw [e]
  generalize (L.map fun ix => (u ix - v ix) * (v ix - w ix)).sum = s at *
  generalize (L.map fun ix => (u ix - v ix) ^ 2).sum = A at *
  generalize (L.map fun ix => (v ix - w ix) ^ 2).sum = B at *
  apply Real.sqrt_le_iff.2
  refine ⟨by positivity, ?_⟩
  have h1 := Real.sq_sqrt (mul_nonneg hk hA)
  have h2 := Real.sq_sqrt (mul_nonneg hk hB)
  have h3 : k * s ≤ Real.sqrt (k * A) * Real.sqrt (k * B) := by
    have h4 : (k * s) ^ 2 ≤ (Real.sqrt (k * A) * Real.sqrt (k * B)) ^ 2 := by
      rw [mul_pow, mul_pow, h1, h2]
      nlinarith [mul_le_mul_of_nonneg_left hC (sq_nonneg k)]
    exact le_of_abs_le (abs_le_of_sq_le_sq h4 (by positivity))
  nlinarith

end TI
