import Verif.Model.Gaussian
import Verif.Spec.Gaussian
import Mathlib.Algebra.Polynomial.Derivative
import Mathlib.Analysis.Calculus.Deriv.Polynomial
import Mathlib.Analysis.SpecialFunctions.ExpDeriv
import Mathlib.Analysis.Calculus.IteratedDeriv.Lemmas
import Mathlib.Algebra.BigOperators.Ring.List
import Mathlib.Algebra.Order.BigOperators.Group.List
import Mathlib.Algebra.Polynomial.Eval.SMul

/-!
# Gaussian kernels
-/

set_option linter.unusedSectionVars false

namespace TI
open Spec Polynomial

/-! ## derivatives -/

/-- the polynomial factor of the `n`-th derivative -/
noncomputable def bellPoly (σ : ℝ) : Nat → ℝ[X]
  | 0 => 1
  | n + 1 => derivative (bellPoly σ n) - C (1 / σ ^ 2) * (X * bellPoly σ n)

theorem hasDerivAt_bell (σ t : ℝ) : HasDerivAt (bell σ) (-(1 / σ ^ 2) * t * bell σ t) t := by
  have h1 : HasDerivAt (fun t : ℝ => -(t ^ 2) / (2 * σ ^ 2)) (-(2 * t) / (2 * σ ^ 2)) t := by
    have := ((hasDerivAt_pow 2 t).neg).div_const (2 * σ ^ 2)
    simpa using this
  have h2 := h1.exp
  refine h2.congr_deriv ?_
  rw [bell]
  rcases eq_or_ne σ 0 with rfl | h
  · simp
  · field_simp

theorem iteratedDeriv_bell (σ : ℝ) : ∀ n, iteratedDeriv n (bell σ) = fun t => (bellPoly σ n).eval t * bell σ t
  | 0 => by
    rw [iteratedDeriv_zero]
    funext t
    simp [bellPoly]
  | n + 1 => by
    rw [iteratedDeriv_succ, iteratedDeriv_bell σ n]
    funext t
    have h := ((bellPoly σ n).hasDerivAt t).mul (hasDerivAt_bell σ t)
    refine h.deriv.trans ?_
    simp only [bellPoly, eval_sub, eval_mul, eval_C, eval_X]
    ring

theorem bellPoly_coeff_zero_of_lt (σ : ℝ) : ∀ {n i : Nat}, n < i → (bellPoly σ n).coeff i = 0
  | 0, i, h => by
    rw [bellPoly, coeff_one, if_neg (by omega)]
  | n + 1, 0, h => by omega
  | n + 1, i + 1, h => by
    rw [bellPoly, coeff_sub, coeff_derivative, coeff_C_mul, coeff_X_mul, bellPoly_coeff_zero_of_lt σ (by omega),
      bellPoly_coeff_zero_of_lt σ (by omega)]
    simp

theorem sum_single {N a : Nat} {f : Nat → ℝ} : ((List.range N).map fun j => if j = a then f j else 0).sum = if a < N then f a else 0 := by
  induction N with
  | zero => simp
  | succ N ih =>
    rw [List.range_succ, List.map_append, List.sum_append, ih, List.map_singleton, List.sum_singleton]
    rcases lt_trichotomy a N with h | h | h
    · rw [if_pos h, if_neg (by omega), if_pos (by omega), add_zero]
    · subst h; simp
    · rw [if_neg (by omega), if_neg (by omega), if_neg (by omega), add_zero]

theorem derivStep_eq (s2 : ℝ) (order : Nat) (q : Nat → ℝ) (i : Nat) (hi : i ≤ order) :
    derivStep s2 order q i = (if i < order then ((i : ℝ) + 1) * q (i + 1) else 0) + (if i = 0 then 0 else 1 / -s2 * q (i - 1)) := by
  have e : (fun j => derivMatrix s2 i j * q j) = fun j => (if j = i + 1 then (j : ℝ) * q j else 0) +
      (if j = i - 1 then (if i = 0 then 0 else 1 / -s2 * q j) else 0) := by
    funext j
    rw [derivMatrix, add_mul, ite_mul, ite_mul, zero_mul]
    congr 1
    by_cases h : i = j + 1
    · rw [if_pos h, if_pos (by omega), if_neg (by omega)]
    · rw [if_neg h]
      by_cases h0 : i = 0
      · simp [h0]
      · rw [if_neg (by omega)]
  rw [derivStep, e, List.sum_map_add, sum_single, sum_single]
  congr 1
  · by_cases h : i < order
    · rw [if_pos (by omega), if_pos h]; push_cast; ring
    · rw [if_neg (by omega), if_neg h]
  · rw [if_pos (by omega)]

theorem derivCoeffs_eq (σ : ℝ) (order : Nat) : ∀ n ≤ order, ∀ i ≤ order, derivCoeffs (σ * σ) order n i = (bellPoly σ n).coeff i
  | 0, _, i, _ => by
    rw [derivCoeffs, bellPoly, coeff_one]
  | n + 1, hn, i, hi => by
    rw [derivCoeffs, derivStep_eq _ _ _ _ hi, bellPoly, coeff_sub, coeff_derivative, coeff_C_mul]
    have e1 : (if i < order then ((i : ℝ) + 1) * derivCoeffs (σ * σ) order n (i + 1) else 0) =
        (bellPoly σ n).coeff (i + 1) * ((i : ℝ) + 1) := by
      split_ifs with h
      · rw [derivCoeffs_eq σ order n (by omega) (i + 1) (by omega)]; ring
      · rw [bellPoly_coeff_zero_of_lt σ (by omega)]; ring
    rw [e1]
    cases i with
    | zero => simp
    | succ i =>
      rw [if_neg (by omega), coeff_X_mul, Nat.add_sub_cancel, derivCoeffs_eq σ order n (by omega) i (by omega)]
      rw [div_neg, neg_mul, sub_eq_add_neg, sq]

theorem eval_bellPoly (σ : ℝ) (m : Nat) (t : ℝ) : ((List.range (m + 1)).map fun j => t ^ j * derivCoeffs (σ * σ) m m j).sum = (bellPoly σ m).eval t := by
  have hdeg : (bellPoly σ m).natDegree < m + 1 := by
    rw [Nat.lt_succ_iff, natDegree_le_iff_coeff_eq_zero]
    intro N hN
    exact bellPoly_coeff_zero_of_lt σ hN
  rw [eval_eq_sum_range' hdeg, ← List.sum_toFinset _ List.nodup_range, List.toFinset_range]
  apply Finset.sum_congr rfl
  intro j hj
  rw [Finset.mem_range] at hj
  rw [derivCoeffs_eq σ m m le_rfl j (by omega), mul_comm]

theorem bellDeriv_eq (m : Nat) (σ t : ℝ) : bellDeriv m σ t = (bellPoly σ m).eval t * bell σ t := by
  rw [bellDeriv, iteratedDeriv_bell]

/-- derivatives of an even function alternate between even and odd -/
theorem bellDeriv_neg (m : Nat) (σ t : ℝ) : bellDeriv m σ (-t) = (-1) ^ m * bellDeriv m σ t := by
  have h : (fun t => bell σ (-t)) = bell σ := by
    funext t
    simp [bell]
  have := iteratedDeriv_comp_neg m (bell σ) t
  rw [h, smul_eq_mul] at this
  rw [bellDeriv, bellDeriv, this, ← mul_assoc, ← mul_pow]
  simp

theorem bell_pos (σ t : ℝ) : 0 < bell σ t := Real.exp_pos _

/-! ## the kernels -/

/-- sum of the bell curve at the sample points of the (odd) kernel with radius `r` -/
noncomputable def bellSum (σ : ℝ) (r : Nat) : ℝ := ((List.range (2 * r + 1)).map fun i : Nat => bell σ ((r : ℝ) - i)).sum

theorem exponent (σ t : ℝ) : Real.exp (-0.5 / (σ * σ) * t ^ 2) = bell σ t := by
  rw [bell]
  congr 1
  rcases eq_or_ne σ 0 with rfl | h
  · simp
  · field_simp
    norm_num
    ring

theorem range_reverse_map {β : Type} (N : Nat) (f : Nat → β) : ((List.range N).map f).reverse = (List.range N).map fun i => f (N - 1 - i) := by
  apply List.ext_getElem (by simp)
  intro i h1 h2
  simp

theorem sampleRange_reverse (r : Nat) : (sampleRange r).reverse = (List.range (2 * r + 1)).map fun i : Nat => ((r : ℝ) - i) := by
  rw [sampleRange, range_reverse_map, show ((2 * (r : Int) + 1).toNat) = 2 * r + 1 by omega]
  apply List.map_congr_left
  intro i hi
  rw [List.mem_range] at hi
  have : ((2 * r + 1 - 1 - i : Nat) : ℝ) = 2 * r - i := by
    rw [show 2 * r + 1 - 1 - i = 2 * r - i by omega, Nat.cast_sub (by omega)]
    push_cast; ring
  rw [this]
  push_cast
  ring

theorem sum_reverse' (l : List ℝ) : l.reverse.sum = l.sum := (List.reverse_perm l).sum_eq

theorem gaussianKernel1d_reverse {σ : ℝ} (hσ : σ ≠ 0) (m r : Nat) :
    ∃ l, gaussianKernel1d σ m r = .ok l ∧ l.reverse = (List.range (2 * r + 1)).map fun i : Nat => bellDeriv m σ ((r : ℝ) - i) / bellSum σ r := by
  have hs : σ * σ ≠ 0 := mul_ne_zero hσ hσ
  have hsum : ((sampleRange r).map fun t => Real.exp (-0.5 / (σ * σ) * t ^ 2)).sum = bellSum σ r := by
    rw [← sum_reverse', ← List.map_reverse, sampleRange_reverse, List.map_map, bellSum]
    congr 1
    apply List.map_congr_left
    intro i _
    exact exponent σ _
  simp only [gaussianKernel1d]
  rw [if_neg (by omega), if_neg hs, hsum]
  split_ifs with h0
  · have hm : m = 0 := by omega
    subst hm
    refine ⟨_, rfl, ?_⟩
    rw [← List.map_reverse, ← List.map_reverse, sampleRange_reverse, List.map_map, List.map_map]
    apply List.map_congr_left
    intro i _
    simp only [Function.comp, exponent]
    rw [bellDeriv_eq]
    simp [bellPoly]
  · refine ⟨_, rfl, ?_⟩
    rw [List.reverse_zipWith (by simp), ← List.map_reverse, ← List.map_reverse, ← List.map_reverse, sampleRange_reverse, List.map_map,
      List.map_map, List.map_map, List.zipWith_map, List.zipWith_self]
    apply List.map_congr_left
    intro i _
    simp only [Function.comp, exponent, Int.toNat_natCast]
    rw [eval_bellPoly, bellDeriv_eq, mul_div_assoc]

/-- sum of the bell curve at the sample points of a kernel of `k` weights -/
noncomputable def bellSumK (σ : ℝ) (k : Nat) : ℝ := ((List.range k).map fun i : Nat => bell σ (samplePoint k i)).sum

theorem sum_pos' {l : List ℝ} (h : ∀ a ∈ l, 0 < a) (hne : l ≠ []) : 0 < l.sum := List.sum_pos l h hne

theorem bellSum_pos (σ : ℝ) (r : Nat) : 0 < bellSum σ r := by
  apply sum_pos'
  · intro a ha
    obtain ⟨i, _, rfl⟩ := List.mem_map.1 ha
    exact bell_pos _ _
  · simp

theorem bellSumK_pos (σ : ℝ) {k : Nat} (hk : 0 < k) : 0 < bellSumK σ k := by
  apply sum_pos'
  · intro a ha
    obtain ⟨i, _, rfl⟩ := List.mem_map.1 ha
    exact bell_pos _ _
  · simp; omega

theorem sum_map_div {β : Type} (l : List β) (f : β → ℝ) (c : ℝ) : (l.map fun b => f b / c).sum = (l.map f).sum / c := by
  induction l with
  | nil => simp
  | cons a l ih => simp [ih, add_div]

/-- all orders and sizes: samples of the derivative, divided by the sum of the bell curve (for even sizes and positive orders this
is the sum over one point more) -/
theorem gaussianKernel_eq {σ : ℝ} (hσ : σ ≠ 0) (k m : Nat) :
    gaussianKernel k σ m = .ok ((List.range k).map fun i : Nat => bellDeriv m σ (samplePoint k i) /
      (if m = 0 then bellSumK σ k else bellSum σ (k / 2))) := by
  obtain ⟨l, h1, h2⟩ := gaussianKernel1d_reverse hσ m (k / 2)
  have hr : ((k : Int) / 2) = ((k / 2 : Nat) : Int) := by omega
  simp only [gaussianKernel, hr, h1, bind, Except.bind, h2]
  rw [List.length_map, List.length_range]
  split_ifs with e1 e2 e2 e3 e3
  · have : 2 * (k / 2) + 1 = k := by omega
    rw [bellSum, bellSumK, this]
    rfl
  · have : 2 * (k / 2) + 1 = k := by omega
    rw [this]
    rfl
  · have hm : m = 0 := by omega
    subst hm
    have hk : k ≤ 2 * (k / 2) + 1 := by omega
    congr 1
    rw [Int.toNat_natCast, ← List.map_take, List.take_range, Nat.min_eq_left hk, sum_map_div, List.map_map]
    have hb : (fun i : Nat => bellDeriv 0 σ (((k / 2 : Nat) : ℝ) - i)) = fun i : Nat => bell σ (samplePoint k i) := by
      funext i
      rw [bellDeriv_eq, samplePoint]
      simp [bellPoly]
    rw [hb]
    apply List.map_congr_left
    intro i _
    simp only [Function.comp, bellDeriv_eq, bellPoly, eval_one, one_mul]
    rw [show ((k / 2 : Nat) : ℝ) - i = samplePoint k i from rfl]
    change _ / _ / (bellSumK σ k / bellSum σ (k / 2)) = _ / bellSumK σ k
    rw [div_div_div_cancel_right₀ (bellSum_pos σ _).ne']
  · omega
  · omega
  · have hk : k ≤ 2 * (k / 2) + 1 := by omega
    rw [Int.toNat_natCast, ← List.map_take, List.take_range, Nat.min_eq_left hk]
    rfl

end TI
