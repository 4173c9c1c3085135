import Verif.Props.Gaussian
import Mathlib.Analysis.SpecialFunctions.Exp
import Mathlib.Topology.Algebra.Order.Field

/-!
# The shape of Gaussian kernels: C120
-/

set_option linter.unusedSectionVars false

namespace TI
open Spec Filter Topology

/-- the weight at index `i`, zero if there is no kernel -/
noncomputable def Spec.weightAt : Except Err (List ℝ) → Nat → ℝ
  | .ok w, i => w.getD i 0
  | .error _, _ => 0

theorem list_getD_map {f : Nat → ℝ} {n i : Nat} (h : i < n) : ((List.range n).map f).getD i 0 = f i := by
  simp [List.getD_eq_getElem?_getD, h]

theorem weight_eq {σ : ℝ} (hσ : σ ≠ 0) {k i : Nat} (hi : i < k) : weightAt (gaussianKernel k σ 0) i = bell σ (samplePoint k i) / bellSumK σ k := by
  rw [C37_entries hσ k]
  exact list_getD_map hi

theorem weight_order {σ : ℝ} (hσ : σ ≠ 0) {k : Nat} (hodd : k % 2 = 1) {i : Nat} (hi : i < k) (m : Nat) :
    weightAt (gaussianKernel k σ m) i = (bellPoly σ m).eval (samplePoint k i) * bell σ (samplePoint k i) / bellSumK σ k := by
  rw [C38_derivative_samples hσ hodd m]
  refine (list_getD_map hi).trans ?_
  rw [← bellDeriv_eq]
  rfl

theorem bell_step {σ : ℝ} (hσ : σ ≠ 0) (k i : Nat) :
    bell σ (samplePoint k (i + 1)) = bell σ (samplePoint k i) * Real.exp ((2 * (((k / 2 : Nat) : ℝ) - i) - 1) / (2 * σ ^ 2)) := by
  rw [bell, bell, ← Real.exp_add]
  congr 1
  rw [samplePoint, samplePoint]
  push_cast
  field_simp
  ring

/-- **C120.** Neighbouring weights of `gaussian_kernel_1d(k, sigma, 0)`: their quotient is the exponential of `(2 (⌊k/2⌋ - i) - 1) / (2 sigma²)`. -/
theorem C120_ratio {σ : ℝ} (hσ : σ ≠ 0) {k i : Nat} (hi : i + 1 < k) :
    weightAt (gaussianKernel k σ 0) (i + 1) =
      weightAt (gaussianKernel k σ 0) i * Real.exp ((2 * (((k / 2 : Nat) : ℝ) - i) - 1) / (2 * σ ^ 2)) := by
  rw [weight_eq hσ hi, weight_eq hσ (by omega), bell_step hσ]
  ring

/-- **C120.** The weights increase up to index `⌊k/2⌋` and decrease from there on. -/
theorem C120_unimodal {σ : ℝ} (hσ : σ ≠ 0) {k i : Nat} (hi : i + 1 < k) :
    (i < k / 2 → weightAt (gaussianKernel k σ 0) i < weightAt (gaussianKernel k σ 0) (i + 1)) ∧
    (k / 2 ≤ i → weightAt (gaussianKernel k σ 0) (i + 1) < weightAt (gaussianKernel k σ 0) i) := by
  have hpos : 0 < weightAt (gaussianKernel k σ 0) i := by
    rw [weight_eq hσ (by omega)]
    exact div_pos (bell_pos _ _) (bellSumK_pos σ (by omega))
  have hs : (0 : ℝ) < 2 * σ ^ 2 := by positivity
  rw [C120_ratio hσ hi]
  constructor
  · intro h
    have h' : ((i : ℝ) + 1) ≤ ((k / 2 : Nat) : ℝ) := by exact_mod_cast h
    have : 1 < Real.exp ((2 * (((k / 2 : Nat) : ℝ) - i) - 1) / (2 * σ ^ 2)) := Real.one_lt_exp_iff.2 (div_pos (by linarith) hs)
    nlinarith
  · intro h
    have h' : ((k / 2 : Nat) : ℝ) ≤ (i : ℝ) := by exact_mod_cast h
    have : Real.exp ((2 * (((k / 2 : Nat) : ℝ) - i) - 1) / (2 * σ ^ 2)) < 1 := Real.exp_lt_one_iff.2 (div_neg_of_neg_of_pos (by linarith) hs)
    nlinarith

/-- **C120.** The kernel is log-concave, with the same bend everywhere: the product of the neighbours of a weight is its square times `exp(-1/sigma²)`. -/
theorem C120_logconcave {σ : ℝ} (hσ : σ ≠ 0) {k i : Nat} (hi : i + 2 < k) :
    weightAt (gaussianKernel k σ 0) i * weightAt (gaussianKernel k σ 0) (i + 2) =
      weightAt (gaussianKernel k σ 0) (i + 1) ^ 2 * Real.exp (-(1 / σ ^ 2)) := by
  rw [weight_eq hσ (by omega), weight_eq hσ hi, weight_eq hσ (by omega)]
  have hS := (bellSumK_pos σ (k := k) (by omega)).ne'
  field_simp
  rw [bell, bell, bell, ← Real.exp_add, ← Real.exp_nat_mul, ← Real.exp_add]
  congr 1
  rw [samplePoint, samplePoint, samplePoint]
  push_cast
  field_simp
  ring

/-- **C120.** The sign of `sigma` does not matter, for any order. -/
theorem C120_sigma_sign (σ : ℝ) (k m : Int) : gaussianKernel k (-σ) m = gaussianKernel k σ m := by
  have : gaussianKernel1d (-σ) m (k / 2) = gaussianKernel1d σ m (k / 2) := by
    simp only [gaussianKernel1d, neg_mul_neg]
  rw [gaussianKernel, gaussianKernel, this]

/-- **C120.** One weight: the filter does nothing. -/
theorem C120_single {σ : ℝ} (hσ : σ ≠ 0) : gaussianKernel 1 σ 0 = .ok [1] := by
  have h := C37_entries hσ 1
  rw [show ((1 : Nat) : Int) = 1 from rfl] at h
  rw [h]
  simp [(bell_pos σ _).ne']

theorem bell_le {σ σ' : ℝ} (hσ : 0 < |σ|) (h : |σ| < |σ'|) (t : ℝ) : bell σ t ≤ bell σ' t ∧ (t ≠ 0 → bell σ t < bell σ' t) := by
  have h2 : σ ^ 2 < σ' ^ 2 := sq_lt_sq.2 h
  have h0 : 0 < σ ^ 2 := by
    have := sq_pos_of_pos hσ
    rwa [sq_abs] at this
  have key : t ^ 2 / (2 * σ' ^ 2) ≤ t ^ 2 / (2 * σ ^ 2) := div_le_div_of_nonneg_left (sq_nonneg t) (by linarith) (by linarith)
  constructor
  · apply Real.exp_le_exp.2
    rw [neg_div, neg_div]
    linarith
  · intro ht
    have : t ^ 2 / (2 * σ' ^ 2) < t ^ 2 / (2 * σ ^ 2) := div_lt_div_of_pos_left (by positivity) (by linarith) (by linarith)
    apply Real.exp_lt_exp.2
    rw [neg_div, neg_div]
    linarith

theorem sum_lt_range {f g : Nat → ℝ} {k j : Nat} (h : ∀ i < k, f i ≤ g i) (hj : j < k) (hlt : f j < g j) :
    ((List.range k).map f).sum < ((List.range k).map g).sum := by
  apply List.sum_lt_sum
  · intro i hi
    exact h i (List.mem_range.1 hi)
  · exact ⟨j, List.mem_range.2 hj, hlt⟩

/-- **C120.** A larger `sigma` (in absolute value) lowers the weight in the middle and raises the weight at the end. -/
theorem C120_wider {σ σ' : ℝ} (hσ : σ ≠ 0) (h : |σ| < |σ'|) {k : Nat} (hk : 2 ≤ k) :
    weightAt (gaussianKernel k σ' 0) (k / 2) < weightAt (gaussianKernel k σ 0) (k / 2) ∧
    weightAt (gaussianKernel k σ 0) 0 < weightAt (gaussianKernel k σ' 0) 0 := by
  have ha : 0 < |σ| := abs_pos.2 hσ
  have hσ' : σ' ≠ 0 := abs_pos.1 (ha.trans h)
  have hS := bellSumK_pos σ (k := k) (by omega)
  have hS' := bellSumK_pos σ' (k := k) (by omega)
  rw [weight_eq hσ (by omega), weight_eq hσ' (by omega), weight_eq hσ (by omega), weight_eq hσ' (by omega)]
  have h1 : 1 ≤ k / 2 := by omega
  have hr : (1 : ℝ) ≤ ((k / 2 : Nat) : ℝ) := by exact_mod_cast h1
  constructor
  · have e : ∀ τ : ℝ, bell τ (samplePoint k (k / 2)) = 1 := by intro τ; simp [bell, samplePoint]
    rw [e, e]
    apply one_div_lt_one_div_of_lt hS
    refine sum_lt_range (j := 0) (fun i _ => (bell_le ha h _).1) (by omega) ((bell_le ha h _).2 ?_)
    simp only [samplePoint, Nat.cast_zero, sub_zero]
    linarith
  · rw [div_lt_div_iff₀ hS hS', bellSumK, bellSumK, ← List.sum_map_mul_left, ← List.sum_map_mul_left]
    have h2 : σ ^ 2 < σ' ^ 2 := sq_lt_sq.2 h
    have h0 : 0 < σ ^ 2 := by positivity
    have ineq : ∀ i : Nat, i < k → ∀ τ : ℝ, samplePoint k i ^ 2 ≤ samplePoint k 0 ^ 2 := by
      intro i hi τ
      have a1 : (i : ℝ) ≤ 2 * ((k / 2 : Nat) : ℝ) := by exact_mod_cast (show i ≤ 2 * (k / 2) by omega)
      have a2 : (0 : ℝ) ≤ i := Nat.cast_nonneg i
      simp only [samplePoint, Nat.cast_zero, sub_zero]
      nlinarith
    have cmp : ∀ a b : ℝ, b ^ 2 ≤ a ^ 2 → bell σ a * bell σ' b ≤ bell σ' a * bell σ b ∧ (b ^ 2 < a ^ 2 → bell σ a * bell σ' b < bell σ' a * bell σ b) := by
      intro a b hab
      have e : ∀ (τ τ' : ℝ), bell τ a * bell τ' b = Real.exp (-(a ^ 2) / (2 * τ ^ 2) + -(b ^ 2) / (2 * τ' ^ 2)) := by
        intro τ τ'; rw [bell, bell, Real.exp_add]
      rw [e, e]
      have hp : 1 / (2 * σ' ^ 2) < 1 / (2 * σ ^ 2) := one_div_lt_one_div_of_lt (by linarith) (by linarith)
      have f : ∀ τ c : ℝ, -(c ^ 2) / (2 * τ ^ 2) = -(c ^ 2 * (1 / (2 * τ ^ 2))) := by intro τ c; ring
      constructor
      · apply Real.exp_le_exp.2
        rw [f, f, f, f]
        nlinarith
      · intro hlt
        apply Real.exp_lt_exp.2
        rw [f, f, f, f]
        nlinarith
    refine sum_lt_range (j := k / 2) (fun i hi => (cmp _ _ (ineq i hi 0)).1) (by omega) ((cmp _ _ (ineq _ (by omega) 0)).2 ?_)
    simp only [samplePoint, Nat.cast_zero, sub_zero, sub_self]
    nlinarith

theorem tendsto_bellSum {k : Nat} {F : Filter ℝ} {c : Nat → ℝ} (h : ∀ i < k, Tendsto (fun σ => bell σ (samplePoint k i)) F (𝓝 (c i))) :
    Tendsto (fun σ => bellSumK σ k) F (𝓝 ((List.range k).map c).sum) := by
  simp only [bellSumK]
  have : ∀ l : List Nat, (∀ i ∈ l, i < k) → Tendsto (fun σ => (l.map fun i : Nat => bell σ (samplePoint k i)).sum) F (𝓝 (l.map c).sum) := by
    intro l
    induction l with
    | nil => intro _; simpa using tendsto_const_nhds
    | cons i l ih =>
      intro hl
      simp only [List.map_cons, List.sum_cons]
      exact (h i (hl i (by simp))).add (ih fun j hj => hl j (by simp [hj]))
  exact this _ fun i hi => List.mem_range.1 hi

/-- **C120.** For growing `sigma` the kernel tends to the average of `k` samples. -/
theorem C120_limit_average {k i : Nat} (hi : i < k) : Tendsto (fun σ : ℝ => weightAt (gaussianKernel k σ 0) i) atTop (𝓝 (1 / (k : ℝ))) := by
  have hb : ∀ t : ℝ, Tendsto (fun σ => bell σ t) atTop (𝓝 1) := by
    intro t
    have h1 : Tendsto (fun σ : ℝ => 2 * σ ^ 2) atTop atTop := (tendsto_pow_atTop (by decide)).const_mul_atTop (by norm_num)
    have h2 : Tendsto (fun σ : ℝ => -(t ^ 2) / (2 * σ ^ 2)) atTop (𝓝 0) := h1.const_div_atTop _
    have := (Real.continuous_exp.tendsto 0).comp h2
    simpa [bell, Function.comp_def] using this
  have hS := tendsto_bellSum (k := k) (c := fun _ => 1) fun i _ => hb _
  have hc : ((List.range k).map fun _ => (1 : ℝ)).sum = k := by simp
  rw [hc] at hS
  have hq := (hb (samplePoint k i)).div hS (Nat.cast_ne_zero.2 (by omega))
  refine hq.congr' ?_
  filter_upwards [eventually_gt_atTop 0] with σ hσ
  exact (weight_eq hσ.ne' hi).symm

/-- **C120.** For `sigma` near zero the kernel tends to the kernel that leaves the image alone (for odd sizes; the one in the middle, index `⌊k/2⌋`). -/
theorem C120_limit_identity {k i : Nat} (hi : i < k) :
    Tendsto (fun σ : ℝ => weightAt (gaussianKernel k σ 0) i) (𝓝[≠] 0) (𝓝 (if i = k / 2 then 1 else 0)) := by
  have hb : ∀ t : ℝ, t ≠ 0 → Tendsto (fun σ => bell σ t) (𝓝[≠] 0) (𝓝 0) := by
    intro t ht
    have h1 : Tendsto (fun σ : ℝ => 2 * σ ^ 2) (𝓝[≠] 0) (𝓝[>] 0) := by
      apply tendsto_nhdsWithin_of_tendsto_nhds_of_eventually_within
      · have : Tendsto (fun σ : ℝ => 2 * σ ^ 2) (𝓝 0) (𝓝 (2 * 0 ^ 2)) := Continuous.tendsto (by fun_prop) 0
        rw [show (2 : ℝ) * 0 ^ 2 = 0 by norm_num] at this
        exact this.mono_left nhdsWithin_le_nhds
      · filter_upwards [self_mem_nhdsWithin] with σ hσ
        have : σ ≠ 0 := hσ
        show 0 < 2 * σ ^ 2
        positivity
    have h2 : Tendsto (fun σ : ℝ => t ^ 2 * (2 * σ ^ 2)⁻¹) (𝓝[≠] 0) atTop := (tendsto_inv_nhdsGT_zero.comp h1).const_mul_atTop (by positivity)
    have h3 := Real.tendsto_exp_neg_atTop_nhds_zero.comp h2
    refine h3.congr fun σ => ?_
    simp only [Function.comp, bell]
    congr 1
    rw [neg_div, div_eq_mul_inv]
  have hb' : ∀ i < k, Tendsto (fun σ => bell σ (samplePoint k i)) (𝓝[≠] 0) (𝓝 (if i = k / 2 then 1 else 0)) := by
    intro i _
    split_ifs with h
    · subst h
      have : (fun σ => bell σ (samplePoint k (k / 2))) = fun _ => 1 := by
        funext σ
        simp [bell, samplePoint]
      rw [this]
      exact tendsto_const_nhds
    · apply hb
      rw [samplePoint, sub_ne_zero]
      intro e
      exact h (Nat.cast_injective e).symm
  have hS := tendsto_bellSum hb'
  have hc : ((List.range k).map fun i => if i = k / 2 then (1 : ℝ) else 0).sum = 1 := by
    rw [sum_single, if_pos (by omega)]
  rw [hc] at hS
  have hq := (hb' i hi).div hS one_ne_zero
  rw [div_one] at hq
  refine hq.congr' ?_
  filter_upwards [self_mem_nhdsWithin] with σ hσ
  exact (weight_eq hσ hi).symm

open Polynomial in
theorem bellPoly_derivative (σ : ℝ) : ∀ m, derivative (bellPoly σ (m + 1)) = -(C (((m : ℝ) + 1) / σ ^ 2) * bellPoly σ m)
  | 0 => by
    simp only [bellPoly, derivative_sub, derivative_mul, derivative_C, derivative_X, derivative_one]
    simp
  | m + 1 => by
    rw [bellPoly, derivative_sub, bellPoly_derivative σ m, derivative_neg, derivative_mul, derivative_mul, derivative_mul, derivative_C, derivative_X,
      derivative_C, bellPoly_derivative σ m]
    rw [show bellPoly σ (m + 1) = derivative (bellPoly σ m) - C (1 / σ ^ 2) * (X * bellPoly σ m) from rfl]
    have e1 : C (((m + 1 : Nat) : ℝ) + 1) = C ((m : ℝ) + 1) + (1 : ℝ[X]) := by push_cast; rw [map_add C ((m : ℝ) + 1) 1, map_one]
    have e2 : ∀ a : ℝ, C (a / σ ^ 2) = C a * C (1 / σ ^ 2) := by intro a; rw [← map_mul, mul_one_div]
    rw [e2 (((m + 1 : Nat) : ℝ) + 1), e2 ((m : ℝ) + 1), e1]
    ring

/-- **C120**, higher orders (odd sizes): the weights of order one are `-t / sigma²` times the weights of order zero, at `t = ⌊k/2⌋ - i`. -/
theorem C120_first_order {σ : ℝ} (hσ : σ ≠ 0) {k i : Nat} (hodd : k % 2 = 1) (hi : i < k) :
    weightAt (gaussianKernel k σ 1) i = -(samplePoint k i / σ ^ 2) * weightAt (gaussianKernel k σ 0) i := by
  have h1 := weight_order hσ hodd hi 1
  rw [show ((1 : Nat) : Int) = 1 from rfl] at h1
  rw [h1, weight_eq hσ hi]
  simp only [bellPoly, Polynomial.derivative_one, mul_one, zero_sub, Polynomial.eval_neg, Polynomial.eval_mul, Polynomial.eval_C, Polynomial.eval_X]
  ring

/-- **C120**, higher orders (odd sizes): three consecutive orders obey the recursion of the Hermite polynomials. -/
theorem C120_recursion {σ : ℝ} (hσ : σ ≠ 0) {k i : Nat} (hodd : k % 2 = 1) (hi : i < k) (m : Nat) :
    weightAt (gaussianKernel k σ (m + 2 : Nat)) i =
      -((samplePoint k i * weightAt (gaussianKernel k σ (m + 1 : Nat)) i + (m + 1) * weightAt (gaussianKernel k σ m) i) / σ ^ 2) := by
  rw [weight_order hσ hodd hi (m + 2), weight_order hσ hodd hi (m + 1), weight_order hσ hodd hi m]
  rw [show bellPoly σ (m + 2) = Polynomial.derivative (bellPoly σ (m + 1)) - Polynomial.C (1 / σ ^ 2) * (Polynomial.X * bellPoly σ (m + 1)) from rfl,
    bellPoly_derivative]
  simp only [Polynomial.eval_sub, Polynomial.eval_neg, Polynomial.eval_mul, Polynomial.eval_C, Polynomial.eval_X]
  ring

/-- a kernel of five weights: rising, then falling -/
example : weightAt (gaussianKernel 5 2 0) 0 < weightAt (gaussianKernel 5 2 0) 1 ∧ weightAt (gaussianKernel 5 2 0) 1 < weightAt (gaussianKernel 5 2 0) 2 ∧
    weightAt (gaussianKernel 5 2 0) 3 < weightAt (gaussianKernel 5 2 0) 2 ∧ weightAt (gaussianKernel 5 3 0) 2 < weightAt (gaussianKernel 5 2 0) 2 :=
  ⟨(C120_unimodal (σ := 2) (k := 5) (i := 0) two_ne_zero (by decide)).1 (by decide), (C120_unimodal (σ := 2) (k := 5) (i := 1) two_ne_zero (by decide)).1 (by decide),
    (C120_unimodal (σ := 2) (k := 5) (i := 2) two_ne_zero (by decide)).2 (by decide),
    (C120_wider (σ := 2) (σ' := 3) (k := 5) two_ne_zero (by rw [abs_of_pos, abs_of_pos] <;> norm_num) (by decide)).1⟩

end TI
