import Verif.Props.Power
import Verif.Proofs.Exclude

/-!
# Laws of safe_power with a fractional exponent: C122
-/

set_option linter.unusedSectionVars false

namespace TI
open Tensor Spec

section
variable {e eps : ℝ}

/-- **C122.** A fractional power of a floating point tensor: every entry is raised to the power, no entry is NaN. -/
theorem C122_entries (x : Tensor ℝ) (he : ¬ Integral e) (heps : 0 < eps) :
    safePower (.tensor ⟨false, x⟩) (.float e) eps = .ok ((x.map fun v => safePow eps v e).map Val.real) := by
  have hb : bshape (NumArg.tensor ⟨false, x⟩).values.shape (NumArg.float e).values.shape = some x.shape := by
    show bshape x.shape [] = some x.shape
    exact bshape_nil x.shape
  obtain ⟨t, ht, hs, hg⟩ := C65_safe_power (x := .tensor ⟨false, x⟩) (e := .float e) (by simp [NumArg.FloatBase]) heps hb
  rw [ht]
  congr 1
  refine ext_get hs fun ix hix => ?_
  rw [hs] at hix
  have hbi : bidx (NumArg.float e).values.shape ix = [] := by
    show bidx [] ix = []
    simp [bidx]
  have hv : (NumArg.float e).values.get [] = e := rfl
  have h1 := (hg ix hix).1
  rw [hbi, hv] at h1
  rw [h1 fun h => he h.2.1]
  rw [show bidx (NumArg.tensor ⟨false, x⟩).values.shape ix = ix from bidx_self hix]
  rw [get_map _ _ (show InB (x.map fun v => safePow eps v e).shape ix from hix), get_map _ _ hix]
  rfl

theorem safePow_pos {v : ℝ} (he : ¬ Integral e) (hv : 0 < v) : safePow eps v e = v ^ e := by
  rw [safePow, if_neg he, if_neg (not_lt.2 hv.le), if_neg hv.ne']

theorem safePow_neg {v : ℝ} (he : ¬ Integral e) (hv : v < 0) : safePow eps v e = -((-v) ^ e) := by
  rw [safePow, if_neg he, if_pos hv]

theorem safePow_zero (he : ¬ Integral e) : safePow eps 0 e = eps ^ e := by
  rw [safePow, if_neg he, if_neg (lt_irrefl _), if_pos rfl]

/-- **C122.** The power is odd away from zero. -/
theorem C122_odd (he : ¬ Integral e) {v : ℝ} (hv : v ≠ 0) : safePow eps (-v) e = -safePow eps v e := by
  rcases lt_or_gt_of_ne hv with h | h
  · rw [safePow_neg he h, safePow_pos he (by linarith), neg_neg]
  · rw [safePow_pos he h, safePow_neg he (by linarith), neg_neg]

/-- **C122.** For positive exponents the power keeps the order of numbers that are not zero; for negative exponents it reverses the order among
numbers of one sign. -/
theorem C122_order_partial (he : ¬ Integral e) {v w : ℝ} (hv : v ≠ 0) (hw : w ≠ 0) (hlt : v < w) :
    (0 < e → safePow eps v e < safePow eps w e) ∧ (e < 0 → 0 < v * w → safePow eps w e < safePow eps v e) := by
  rcases lt_or_gt_of_ne hv with h | h <;> rcases lt_or_gt_of_ne hw with h' | h'
  · rw [safePow_neg he h, safePow_neg he h']
    refine ⟨fun hp => ?_, fun hn _ => ?_⟩
    · exact neg_lt_neg (Real.rpow_lt_rpow (by linarith) (by linarith) hp)
    · exact neg_lt_neg (Real.rpow_lt_rpow_of_neg (by linarith) (by linarith) hn)
  · rw [safePow_neg he h, safePow_pos he h']
    refine ⟨fun _ => ?_, fun _ hvw => absurd hvw (by nlinarith)⟩
    have h1 := Real.rpow_pos_of_pos (show 0 < -v by linarith) e
    have h2 := Real.rpow_pos_of_pos h' e
    linarith
  · linarith
  · rw [safePow_pos he h, safePow_pos he h']
    exact ⟨fun hp => Real.rpow_lt_rpow h.le hlt hp, fun hn _ => Real.rpow_lt_rpow_of_neg h hlt hn⟩

/-- **C122** for zero: with a positive exponent zero is treated like `epsilon`, so it comes after every number below `epsilon`, also the positive ones. -/
theorem C122_zero_order (he : ¬ Integral e) (hp : 0 < e) (heps : 0 < eps) {v : ℝ} (hv : v ≠ 0) :
    (v < eps → safePow eps v e < safePow eps 0 e) ∧ (eps < v → safePow eps 0 e < safePow eps v e) ∧ safePow eps eps e = safePow eps 0 e := by
  have h0 : safePow eps 0 e = safePow eps eps e := by rw [safePow_zero he, safePow_pos he heps]
  rw [h0]
  exact ⟨fun h => (C122_order_partial he hv heps.ne' h).1 hp, fun h => (C122_order_partial he heps.ne' hv h).1 hp, rfl⟩

/-- **C122**, the order is not kept everywhere: the root of a black pixel is larger than that of a dim one. -/
theorem C122_order_false : ∃ x t : Tensor ℝ, x.shape = [2] ∧ x.get [0] < x.get [1] ∧
    safePower (.tensor ⟨false, x⟩) (.float (1 / 2)) (1 / 1000000) = .ok (t.map Val.real) ∧ t.get [1] < t.get [0] := by
  refine ⟨Tensor.vec [0, 1 / 4000000], _, rfl, ?_, C122_entries _ half_not_integral (by norm_num), ?_⟩
  · show (0 : ℝ) < 1 / 4000000
    norm_num
  · have h := (C122_zero_order (eps := 1 / 1000000) half_not_integral (by norm_num) (by norm_num) (v := 1 / 4000000) (by norm_num)).1 (by norm_num)
    exact h

/-- **C122.** The power of a product of numbers that are not zero: with the sign of the product, the absolute values multiply. -/
theorem C122_product (he : ¬ Integral e) {v w : ℝ} (hv : v ≠ 0) (hw : w ≠ 0) :
    |safePow eps (v * w) e| = |safePow eps v e| * |safePow eps w e| ∧ (0 < v → safePow eps (v * w) e = safePow eps v e * safePow eps w e) := by
  have habs : ∀ u : ℝ, u ≠ 0 → |safePow eps u e| = |u| ^ e := by
    intro u hu
    rcases lt_or_gt_of_ne hu with h | h
    · rw [safePow_neg he h, abs_neg, abs_of_neg h, abs_of_pos (Real.rpow_pos_of_pos (by linarith) e)]
    · rw [safePow_pos he h, abs_of_pos h, abs_of_pos (Real.rpow_pos_of_pos h e)]
  refine ⟨?_, fun hp => ?_⟩
  · rw [habs _ (mul_ne_zero hv hw), habs v hv, habs w hw, abs_mul, Real.mul_rpow (abs_nonneg _) (abs_nonneg _)]
  · rcases lt_or_gt_of_ne hw with h | h
    · rw [safePow_neg he (mul_neg_of_pos_of_neg hp h), safePow_neg he h, safePow_pos he hp, show -(v * w) = v * (-w) by ring,
        Real.mul_rpow hp.le (by linarith)]
      ring
    · rw [safePow_pos he (mul_pos hp h), safePow_pos he h, safePow_pos he hp, Real.mul_rpow hp.le h.le]

theorem safePow_inverse (he : ¬ Integral e) (he' : ¬ Integral (1 / e)) (heps : 0 < eps) (v : ℝ) :
    safePow eps (safePow eps v e) (1 / e) = if v = 0 then eps else v := by
  have h0 : e ≠ 0 := by
    rintro rfl
    exact he ⟨0, by simp⟩
  have inv : ∀ u : ℝ, 0 < u → (u ^ e) ^ (1 / e) = u := by
    intro u hu
    rw [← Real.rpow_mul hu.le, mul_one_div_cancel h0, Real.rpow_one]
  rcases lt_trichotomy v 0 with h | rfl | h
  · have hp := Real.rpow_pos_of_pos (show 0 < -v by linarith) e
    rw [if_neg h.ne, safePow_neg he h, safePow_neg he' (by linarith), neg_neg, inv _ (by linarith), neg_neg]
  · rw [if_pos rfl, safePow_zero he, safePow_pos he' (Real.rpow_pos_of_pos heps e), inv _ heps]
  · rw [if_neg h.ne', safePow_pos he h, safePow_pos he' (Real.rpow_pos_of_pos h e), inv _ h]

/-- **C122.** A power is undone by the inverse power, if both are fractional, except that zeros come back as `epsilon`. -/
theorem C122_inverse (x : Tensor ℝ) (he : ¬ Integral e) (he' : ¬ Integral (1 / e)) (heps : 0 < eps) : ∃ y : Tensor ℝ,
    safePower (.tensor ⟨false, x⟩) (.float e) eps = .ok (y.map Val.real) ∧
    safePower (.tensor ⟨false, y⟩) (.float (1 / e)) eps = .ok ((x.map fun v => if v = 0 then eps else v).map Val.real) := by
  refine ⟨_, C122_entries x he heps, ?_⟩
  rw [C122_entries _ he' heps]
  congr 2
  refine ext_get rfl fun ix hix => ?_
  have hix : InB x.shape ix := hix
  rw [get_map _ _ (show InB (x.map fun v => safePow eps v e).shape ix from hix), get_map _ _ hix, get_map _ _ hix, safePow_inverse he he' heps]

/-- **C122.** Exponents add up for positive numbers. -/
theorem C122_exponents {f v : ℝ} (he : ¬ Integral e) (hf : ¬ Integral f) (hv : 0 < v) : safePow eps v (e + f) = safePow eps v e * safePow eps v f := by
  rw [safePow_pos he hv, safePow_pos hf hv, ← Real.rpow_add hv]
  by_cases h : Integral (e + f)
  · rw [safePow, if_pos h]
  · rw [safePow_pos h hv]

end

theorem two_thirds_not_integral : ¬ Integral (2 / 3) ∧ ¬ Integral (1 / (2 / 3)) := by
  constructor
  · rintro ⟨n, h⟩
    have h3 : (3 * n : ℝ) = 2 := by rw [h]; norm_num
    have : 3 * n = 2 := by exact_mod_cast h3
    omega
  · rintro ⟨n, h⟩
    have h3 : (2 * n : ℝ) = 3 := by rw [h]; norm_num
    have : 2 * n = 3 := by exact_mod_cast h3
    omega

/-- the power two thirds and back, of a negative number, zero and a positive number -/
example : ∃ y : Tensor ℝ, safePower (.tensor ⟨false, Tensor.vec [-8, 0, 27]⟩) (.float (2 / 3)) (1 / 1000) = .ok (y.map Val.real) ∧
    safePower (.tensor ⟨false, y⟩) (.float (1 / (2 / 3))) (1 / 1000) =
      .ok (((Tensor.vec [-8, 0, 27]).map fun v => if v = 0 then 1 / 1000 else v).map Val.real) :=
  C122_inverse _ two_thirds_not_integral.1 two_thirds_not_integral.2 (by norm_num)

end TI
