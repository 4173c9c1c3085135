import Verif.Proofs.Gaussian
import Verif.Props.Pool

/-!
# Gaussian kernels: C37, C38, and the Gaussian part of C34
-/

set_option linter.unusedSectionVars false

namespace TI
open Tensor Spec

/-! ## C37 -/

/-- **C37.** `gaussian_kernel_1d(k, sigma, 0)` has `k` positive entries with sum one, and reads the same from both ends if `k` is
odd. -/
theorem C37_probability_vector {σ : ℝ} (hσ : σ ≠ 0) {k : Nat} (hk : 0 < k) :
    ∃ w, gaussianKernel k σ 0 = .ok w ∧ w.length = k ∧ (∀ a ∈ w, 0 < a) ∧ w.sum = 1 ∧ (k % 2 = 1 → w.reverse = w) := by
  have h := gaussianKernel_eq hσ k 0
  simp only [if_true] at h
  refine ⟨_, h, by simp, ?_, ?_, ?_⟩
  · intro a ha
    obtain ⟨i, _, rfl⟩ := List.mem_map.1 ha
    rw [bellDeriv_eq]
    simp only [bellPoly, Polynomial.eval_one, one_mul]
    exact div_pos (bell_pos _ _) (bellSumK_pos σ hk)
  · rw [sum_map_div]
    have : ((List.range k).map fun i : Nat => bellDeriv 0 σ (samplePoint k i)).sum = bellSumK σ k := by
      simp [bellSumK, bellDeriv_eq, bellPoly]
    rw [this, div_self (bellSumK_pos σ hk).ne']
  · intro hodd
    rw [range_reverse_map]
    apply List.map_congr_left
    intro i hi
    rw [List.mem_range] at hi
    have : samplePoint k (k - 1 - i) = - samplePoint k i := by
      rw [samplePoint, samplePoint, Nat.sub_sub, Nat.cast_sub (by omega)]
      have : (k : ℝ) = 2 * ((k / 2 : Nat) : ℝ) + 1 := by
        exact_mod_cast (show k = 2 * (k / 2) + 1 by omega)
      push_cast
      rw [this]
      push_cast
      ring
    rw [this, bellDeriv_neg, pow_zero, one_mul]

/-- **C37**: the entries are `exp(-t²/2σ²)` at `t = ⌊k/2⌋ - i`, divided by their sum (`k` odd or even) -/
theorem C37_entries {σ : ℝ} (hσ : σ ≠ 0) (k : Nat) :
    gaussianKernel k σ 0 = .ok ((List.range k).map fun i : Nat => bell σ (samplePoint k i) /
      ((List.range k).map fun i : Nat => bell σ (samplePoint k i)).sum) := by
  have h := gaussianKernel_eq hσ k 0
  simp only [if_true, bellDeriv_eq, bellPoly, Polynomial.eval_one, one_mul] at h
  exact h

/-- **C37**: negative orders and `sigma = 0` are refused -/
theorem C37_invalid {σ : ℝ} {k order : Int} (h : order < 0) : gaussianKernel k σ order = .error .value := by
  simp [gaussianKernel, gaussianKernel1d, h, bind, Except.bind]

theorem C37_zero_sigma {k order : Int} (h : 0 ≤ order) : gaussianKernel k 0 order = .error .zeroDivision := by
  simp [gaussianKernel, gaussianKernel1d, not_lt.2 h, bind, Except.bind]

/-- `gaussian_kernel_1d(2, 1, 0)` is `[e^(-1/2), 1] / (e^(-1/2) + 1)`: even sizes are not symmetric -/
example : gaussianKernel 2 1 0 = .ok [Real.exp (-(1 / 2)) / (Real.exp (-(1 / 2)) + 1), 1 / (Real.exp (-(1 / 2)) + 1)] := by
  have h := C37_entries (σ := 1) one_ne_zero 2
  rw [show ((2 : Nat) : Int) = 2 from rfl] at h
  rw [h]
  simp [List.range_succ, bell, samplePoint]
  norm_num

/-! ## C38 -/

/-- **C38.** For every order `m` and odd size the entries are the `m`-th derivative of `exp(-t²/2σ²)` at `t = ⌊k/2⌋ - i`, divided
by the sum of `exp(-t²/2σ²)` over the sample points. -/
theorem C38_derivative_samples {σ : ℝ} (hσ : σ ≠ 0) {k : Nat} (hodd : k % 2 = 1) (m : Nat) :
    gaussianKernel k σ m = .ok ((List.range k).map fun i : Nat => iteratedDeriv m (bell σ) (samplePoint k i) /
      ((List.range k).map fun i : Nat => bell σ (samplePoint k i)).sum) := by
  rw [gaussianKernel_eq hσ k m]
  have : bellSum σ (k / 2) = bellSumK σ k := by
    rw [bellSum, bellSumK, show 2 * (k / 2) + 1 = k by omega]
    rfl
  rw [this, ite_self]
  rfl

/-- **C38**, even sizes: the same samples without the last point, but for `m > 0` the divisor still counts the point that was
dropped. -/
theorem C38_even_sizes {σ : ℝ} (hσ : σ ≠ 0) {k : Nat} (heven : k % 2 = 0) {m : Nat} (hm : 0 < m) :
    gaussianKernel k σ m = .ok ((List.range k).map fun i : Nat => iteratedDeriv m (bell σ) (samplePoint k i) /
      ((List.range (k + 1)).map fun i : Nat => bell σ (samplePoint k i)).sum) := by
  rw [gaussianKernel_eq hσ k m, if_neg (by omega), bellSum, show 2 * (k / 2) + 1 = k + 1 by omega]
  rfl

/-- **C38**: reading from the other end multiplies by `(-1)^m` -/
theorem C38_parity {σ : ℝ} (hσ : σ ≠ 0) {k : Nat} (hodd : k % 2 = 1) (m : Nat) :
    ∃ w, gaussianKernel k σ m = .ok w ∧ w.length = k ∧ w.reverse = w.map ((-1) ^ m * ·) := by
  refine ⟨_, C38_derivative_samples hσ hodd m, by simp, ?_⟩
  rw [range_reverse_map, List.map_map]
  apply List.map_congr_left
  intro i hi
  rw [List.mem_range] at hi
  have : samplePoint k (k - 1 - i) = - samplePoint k i := by
    rw [samplePoint, samplePoint, Nat.sub_sub, Nat.cast_sub (by omega)]
    have : (k : ℝ) = 2 * ((k / 2 : Nat) : ℝ) + 1 := by
      exact_mod_cast (show k = 2 * (k / 2) + 1 by omega)
    push_cast
    rw [this]
    push_cast
    ring
  simp only [Function.comp]
  rw [this, ← mul_div_assoc]
  congr 1
  exact bellDeriv_neg m σ _

/-- **C38**: kernels of odd order have sum zero, so they annihilate constants -/
theorem C38_odd_order_sum {σ : ℝ} (hσ : σ ≠ 0) {k : Nat} (hodd : k % 2 = 1) {m : Nat} (hm : m % 2 = 1) :
    ∃ w, gaussianKernel k σ m = .ok w ∧ w.sum = 0 := by
  obtain ⟨w, h1, _, h3⟩ := C38_parity hσ hodd m
  refine ⟨w, h1, ?_⟩
  have h := sum_reverse' w
  rw [h3, (Nat.odd_iff.2 hm).neg_one_pow, List.sum_map_mul_left, List.map_id'] at h
  linarith

/-- first order: `-t/σ²` times the Gaussian kernel, here at `t = 1, 0, -1` -/
example : gaussianKernel 3 1 1 = .ok ((List.range 3).map fun i : Nat => -(samplePoint 3 i) * bell 1 (samplePoint 3 i) /
    ((List.range 3).map fun i : Nat => bell 1 (samplePoint 3 i)).sum) := by
  have h := C38_derivative_samples (σ := 1) one_ne_zero (k := 3) rfl 1
  rw [show ((3 : Nat) : Int) = 3 from rfl, show ((1 : Nat) : Int) = 1 from rfl] at h
  rw [h]
  congr 1
  apply List.map_congr_left
  intro i _
  have := bellDeriv_eq 1 1 (samplePoint 3 i)
  rw [bellDeriv] at this
  rw [this]
  simp [bellPoly]

/-! ## C34, Gaussian pooling -/

/-- the weights of `gaussian_kernel_1d(k, sigma, order)` (empty if it is refused) -/
noncomputable def Spec.gaussWeights (k : Nat) (σ : ℝ) (m : Nat) : List ℝ :=
  (List.range k).map fun i : Nat => iteratedDeriv m (bell σ) (samplePoint k i) /
    (if m = 0 then ((List.range k).map fun i : Nat => bell σ (samplePoint k i)).sum
      else ((List.range (2 * (k / 2) + 1)).map fun i : Nat => bell σ (samplePoint k i)).sum)

theorem gaussianKernel_weights {σ : ℝ} (hσ : σ ≠ 0) (k m : Nat) : gaussianKernel k σ m = .ok (gaussWeights k σ m) := by
  rw [gaussianKernel_eq hσ k m]
  rfl

section
variable {size : Given Nat} {sigma : Given ℝ} {order : Given Nat} {st : Given (Option Nat)} {m : Nat}

/-- the kernels of `GaussianPoolNd`: one for all axes, or one per axis if any of the arguments is a list -/
noncomputable def Spec.gaussKernels (m : Nat) (size : Given Nat) (sigma : Given ℝ) (order : Given Nat) : Given (List ℝ) :=
  if size.isMany || sigma.isMany || order.isMany then
    .many ((List.range m).map fun i => gaussWeights (size.entry 0 i) (sigma.entry 1 i) (order.entry 0 i))
  else .one (gaussWeights (size.entry 0 0) (sigma.entry 1 0) (order.entry 0 0))

theorem gaussKernels_entry {i : Nat} (hi : i < m) : (gaussKernels m size sigma order).entry [] i =
    gaussWeights (size.entry 0 i) (sigma.entry 1 i) (order.entry 0 i) := by
  rw [gaussKernels]
  split_ifs with h
  · simp [Given.entry, hi]
  · simp only [Bool.or_eq_true, not_or, Bool.not_eq_true] at h
    rw [entry_of_not_many h.1.1 0 i, entry_of_not_many h.1.2 1 i, entry_of_not_many h.2 0 i]
    rfl

theorem gaussKernels_fits : (gaussKernels m size sigma order).Fits m := by
  rw [gaussKernels]
  split_ifs <;> simp [Given.Fits]

theorem ofItem_ints {g : Given Nat} (hm : 0 < m) (hg : g.Fits m) :
    ∃ s, NdSpec.ofItem [] (g.toPy pyNat) = .ok s ∧ IsSpec s pyNat g := ofItem_nats hm hg

theorem ofItem_reals {g : Given ℝ} (hm : 0 < m) (hg : g.Fits m) :
    ∃ s, NdSpec.ofItem [] (g.toPy Py.leaf) = .ok s ∧ IsSpec s Py.leaf g := by
  cases g with
  | one b => exact ⟨_, ofItem_leaf0 _, rfl, rfl⟩
  | many l =>
    have hl : l.length = m := hg
    have := ofItem_leaves (l := l) (by rintro rfl; simp at hl; omega)
    exact ⟨_, this, rfl, rfl, [], by simp⟩

/-- **C34**: `GaussianPoolNd(size, sigma, order, stride)` accepts all sizes, non-zero sigmas, orders and positive strides, one for
all axes or one per axis, and pools with the kernels of C37/C38.  With order zero they are averages, so the range and constant
preservation of `C34_range_valid`, `C34_range_same`, `C34_constant_valid`, `C34_constant_same` hold. -/
theorem C34_gaussian_kernels (hm : 0 < m) (hs : size.Fits m) (hg : sigma.Fits m) (ho : order.Fits m) (hst : st.Fits m)
    (hv : ∀ s ∈ st.values, s ≠ some 0) (hnz : ∀ s ∈ sigma.values, s ≠ 0) :
    ∃ pool, SepPool.gaussInit (size.toPy pyNat) (sigma.toPy Py.leaf) (order.toPy pyNat) (st.toPy PoolArgs.pyStride) = .ok pool ∧
      Built pool ⟨gaussKernels m size sigma order, st⟩ m ∧
      ((∀ o ∈ order.values, o = 0) → ∀ axes, axes.length = m → ∀ o ∈ (⟨gaussKernels m size sigma order, st⟩ : PoolArgs ℝ).ops axes,
        o.kernel ≠ [] → IsAverage o.kernel) := by
  obtain ⟨ss, e1, h1⟩ := ofItem_ints hm hs
  obtain ⟨sg, e2, h2⟩ := ofItem_reals hm hg
  obtain ⟨so, e3, h3⟩ := ofItem_ints hm ho
  have hmem : ∀ {i : Nat}, (sigma.isMany = true → i < m) → sigma.entry 1 i ≠ 0 := fun hi => hnz _ (entry_mem hg 1 hi)
  obtain ⟨k, e4, h4⟩ := apply3_spec h1 h2 h3 hs hg ho (func := SepPool.gaussItem) (f' := PoolArgs.pyKernel) 0 1 0
    (fun i => gaussWeights (size.entry 0 i) (sigma.entry 1 i) (order.entry 0 i)) (by
      intro i hi
      have hne : sigma.entry 1 i ≠ 0 := hmem fun h => hi (by simp [h])
      simp only [pyNat, SepPool.gaussItem, gaussianKernel_weights hne, bind, Except.bind]
      rfl)
  have h4' : IsSpec k PoolArgs.pyKernel (gaussKernels m size sigma order) := h4
  have hfit : (⟨gaussKernels m size sigma order, st⟩ : PoolArgs ℝ).Fits m := ⟨gaussKernels_fits, hst⟩
  obtain ⟨pool, e5, h5⟩ := poolIs_ofSpec (g := ⟨gaussKernels m size sigma order, st⟩) hm hfit hv h4'
  refine ⟨pool, ?_, .spec hm hfit hv h4' e5, ?_⟩
  · simp only [SepPool.gaussInit, e1, e2, e3, e4, bind, Except.bind]
    exact e5
  · intro hord axes hl o ho' hk
    obtain ⟨i, hi, rfl⟩ := mem_ops.1 ho'
    have hi' : i < m := by omega
    have e : ((⟨gaussKernels m size sigma order, st⟩ : PoolArgs ℝ).op axes i).kernel =
        gaussWeights (size.entry 0 i) (sigma.entry 1 i) 0 := by
      refine (gaussKernels_entry hi').trans ?_
      rw [hord _ (entry_mem ho 0 fun _ => hi')]
    rw [e] at hk ⊢
    have hpos : 0 < size.entry 0 i := by
      rcases Nat.eq_zero_or_pos (size.entry 0 i) with h0 | h0
      · rw [h0] at hk; exact absurd rfl hk
      · exact h0
    obtain ⟨w, q1, _, q3, q4, _⟩ := C37_probability_vector (hmem (i := i) fun _ => hi') hpos
    have q5 := gaussianKernel_weights (hmem (i := i) fun _ => hi') (size.entry 0 i) 0
    rw [show ((0 : Nat) : Int) = 0 from rfl, q1] at q5
    cases q5
    exact ⟨fun a ha => (q3 a ha).le, q4⟩

end

/-- a Gaussian blur (size 3, sigma 2, order 0, stride 1) without padding maps the constant `7` to the constant `7` -/
example (junk : List Nat → ℝ) : ∃ pool, SepPool.gaussInit (.leaf 3) (.leaf 2) (.leaf 0) (.leaf (some 1)) = .ok pool ∧
    ∃ z, SepPool.forward pool none junk (Tensor.ofFn [3, 4] fun _ => (7 : ℝ)) .none = (none, .ok z) ∧ ∀ ix, InB z.shape ix → z.get ix = 7 := by
  obtain ⟨pool, h1, h2, h3⟩ := C34_gaussian_kernels (size := .one 3) (sigma := .one 2) (order := .one 0) (st := .one (some 1)) (m := 2)
    (by decide) trivial trivial trivial trivial (by intro s hs; simp [Given.values] at hs; simp [hs])
    (by intro s hs; simp [Given.values] at hs; simp [hs])
  refine ⟨pool, h1, ?_⟩
  exact C34_constant_valid h2 (x := Tensor.ofFn [3, 4] fun _ => (7 : ℝ)) (axes := [0, 1]) (by decide) (by intro h; cases h) (by decide) (by
    intro o ho
    obtain ⟨i, hi, rfl⟩ := mem_ops.1 ho
    have hi : i < 2 := hi
    interval_cases i <;> simp [PoolArgs.op, gaussKernels, Given.isMany, Given.entry, gaussWeights, ofFn]) (h3 (by intro o ho; simpa [Given.values] using ho) _ rfl)
    (fun ix hix => get_ofFn hix) junk

end TI
