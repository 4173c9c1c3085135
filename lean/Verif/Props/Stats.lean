import Verif.Model.Stats
import Verif.Spec.Misc
import Verif.Proofs.Edges
import Mathlib.Algebra.Order.BigOperators.Group.List
import Mathlib.Analysis.SpecialFunctions.Trigonometric.Bounds

/-!
# describe and pixels_per_degree: C83, C84
-/

namespace TI
open Tensor Spec

/-! ## C83: describe -/

theorem sorting_dataSorted (l : List ℝ) : IsSorting (dataSorted l) l :=
  ⟨List.perm_insertionSort _ _, List.pairwise_insertionSort _ _⟩

theorem sorting_unique {s s' l l' : List ℝ} (h : IsSorting s l) (h' : IsSorting s' l') (hp : l.Perm l') : s = s' :=
  (h.1.trans (hp.trans h'.1.symm)).eq_of_pairwise (fun a b _ _ h1 h2 => le_antisymm h1 h2) h.2 h'.2

theorem sorted_mono {s : List ℝ} (h : s.Pairwise (· ≤ ·)) {i j : Nat} (hij : i ≤ j) (hj : j < s.length) : s.getD i 0 ≤ s.getD j 0 := by
  have hi : i < s.length := by omega
  rw [List.getD_eq_getElem?_getD, List.getD_eq_getElem?_getD, List.getElem?_eq_getElem hi, List.getElem?_eq_getElem hj]
  simp only [Option.getD_some]
  rcases Nat.lt_or_eq_of_le hij with h1 | rfl
  · exact List.pairwise_iff_getElem.1 h i j hi hj h1
  · exact le_refl _

theorem interpolated_bounds {s : List ℝ} (h : s.Pairwise (· ≤ ·)) {r : ℝ} (h0 : 0 ≤ r) (hr : ⌈r⌉₊ < s.length) :
    s.getD ⌊r⌋₊ 0 ≤ interpolated s r ∧ interpolated s r ≤ s.getD ⌈r⌉₊ 0 := by
  have h1 : s.getD ⌊r⌋₊ 0 ≤ s.getD ⌈r⌉₊ 0 := sorted_mono h (Nat.floor_le_ceil r) hr
  have h2 : (⌊r⌋₊ : ℝ) ≤ r := Nat.floor_le h0
  have h3 : r < ⌊r⌋₊ + 1 := Nat.lt_floor_add_one r
  simp only [interpolated]
  constructor
  · nlinarith [mul_nonneg (sub_nonneg.2 h2) (sub_nonneg.2 h1)]
  · nlinarith [mul_nonneg (show 0 ≤ 1 - (r - ⌊r⌋₊) by linarith) (sub_nonneg.2 h1)]

theorem interpolated_mono {s : List ℝ} (h : s.Pairwise (· ≤ ·)) {r r' : ℝ} (h0 : 0 ≤ r) (hrr : r ≤ r') (hr : ⌈r'⌉₊ < s.length) :
    interpolated s r ≤ interpolated s r' := by
  have hr0 : ⌈r⌉₊ < s.length := lt_of_le_of_lt (Nat.ceil_mono hrr) hr
  have hb := interpolated_bounds h h0 hr0
  have hb' := interpolated_bounds h (h0.trans hrr) hr
  rcases Nat.lt_or_eq_of_le (Nat.floor_mono hrr) with hf | hf
  · have : ⌈r⌉₊ ≤ ⌊r'⌋₊ := (Nat.ceil_le_floor_add_one r).trans hf
    exact hb.2.trans ((sorted_mono h this (lt_of_le_of_lt (Nat.floor_le_ceil r') hr)).trans hb'.1)
  · by_cases hc : ⌈r⌉₊ = ⌊r⌋₊
    · calc interpolated s r ≤ s.getD ⌈r⌉₊ 0 := hb.2
        _ = s.getD ⌊r'⌋₊ 0 := by rw [hc, hf]
        _ ≤ _ := hb'.1
    · have h1 : ⌈r⌉₊ = ⌊r⌋₊ + 1 := by
        have := Nat.ceil_le_floor_add_one r
        have := Nat.floor_le_ceil r
        omega
      have h2 : ⌈r'⌉₊ = ⌊r⌋₊ + 1 := by
        have h3 := Nat.ceil_le_floor_add_one r'
        have h4 := Nat.ceil_mono hrr
        rw [← hf] at h3
        omega
      have h3 : s.getD ⌊r⌋₊ 0 ≤ s.getD (⌊r⌋₊ + 1) 0 := sorted_mono h (by omega) (by rw [← h2]; exact hr)
      simp only [interpolated, ← hf, h1, h2]
      nlinarith [mul_nonneg (sub_nonneg.2 hrr) (sub_nonneg.2 h3)]

theorem foldl_min_le : ∀ (l : List ℝ) (a : ℝ), (l.foldl min a ∈ a :: l) ∧ ∀ v ∈ a :: l, l.foldl min a ≤ v
  | [], a => by simp
  | b :: l, a => by
    obtain ⟨h1, h2⟩ := foldl_min_le l (min a b)
    simp only [List.foldl_cons]
    constructor
    · rcases List.mem_cons.1 h1 with h | h
      · rw [h]
        rcases min_choice a b with e | e <;> rw [e] <;> simp
      · simp [h]
    · intro v hv
      have hm := h2 (min a b) (by simp)
      rcases List.mem_cons.1 hv with rfl | hv
      · exact hm.trans (min_le_left _ _)
      · rcases List.mem_cons.1 hv with rfl | hv
        · exact hm.trans (min_le_right _ _)
        · exact h2 v (by simp [hv])

theorem foldl_max_ge : ∀ (l : List ℝ) (a : ℝ), (l.foldl max a ∈ a :: l) ∧ ∀ v ∈ a :: l, v ≤ l.foldl max a
  | [], a => by simp
  | b :: l, a => by
    obtain ⟨h1, h2⟩ := foldl_max_ge l (max a b)
    simp only [List.foldl_cons]
    constructor
    · rcases List.mem_cons.1 h1 with h | h
      · rw [h]
        rcases max_choice a b with e | e <;> rw [e] <;> simp
      · simp [h]
    · intro v hv
      have hm := h2 (max a b) (by simp)
      rcases List.mem_cons.1 hv with rfl | hv
      · exact (le_max_left _ _).trans hm
      · rcases List.mem_cons.1 hv with rfl | hv
        · exact (le_max_right _ _).trans hm
        · exact h2 v (by simp [hv])

/-- **C83.** `describe` of a tensor with entries: the minimum and maximum are entries and bound all entries; the quantiles are
interpolations in the sorted entries; the mean and the standard deviation (for at least two entries) are the usual ones. -/
theorem C83_describe (x : Tensor ℝ) (hne : x.data ≠ []) {s : List ℝ} (hs : IsSorting s x.data) :
    ∃ d, describe x = .ok d ∧
      (d.min ∈ x.data ∧ ∀ v ∈ x.data, d.min ≤ v) ∧ (d.max ∈ x.data ∧ ∀ v ∈ x.data, v ≤ d.max) ∧
      d.q25 = interpolated s (1 / 4 * (s.length - 1)) ∧ d.q50 = interpolated s (1 / 2 * (s.length - 1)) ∧
      d.q75 = interpolated s (3 / 4 * (s.length - 1)) ∧
      d.mean * x.data.length = x.data.sum ∧
      (x.data.length = 1 → d.std = .bad) ∧
      (2 ≤ x.data.length → ∃ σ, d.std = .real σ ∧ 0 ≤ σ ∧
        σ ^ 2 * (x.data.length - 1) = (x.data.map fun v => (v - d.mean) ^ 2).sum) := by
  cases hx : x.data with
  | nil => exact absurd hx hne
  | cons a l =>
    rw [hx] at hs
    have hq : ∀ q, dataQuantile (a :: l) q = interpolated s (q * (s.length - 1)) := by
      intro q
      have : dataSorted (a :: l) = s := sorting_unique (sorting_dataSorted (a :: l)) hs (List.Perm.refl _)
      have hlen : s.length = (a :: l).length := hs.1.length_eq
      simp only [dataQuantile, this, interpolated, hlen]
    have he : describe x = .ok { mean := dataMean (a :: l), std := dataStd (a :: l), min := l.foldl min a, q25 := dataQuantile (a :: l) (1 / 4), q50 := dataQuantile (a :: l) (1 / 2), q75 := dataQuantile (a :: l) (3 / 4), max := l.foldl max a } := by
      simp only [describe, hx]
    refine ⟨_, he, foldl_min_le l a, foldl_max_ge l a, hq _, hq _, hq _, ?_, ?_, ?_⟩
    · simp only [dataMean]
      rw [div_mul_cancel₀]
      have : 0 < (a :: l).length := by simp
      positivity
    · intro h
      simp only [dataStd, h, if_true]
    · intro h
      have h1 : (a :: l).length ≠ 1 := by omega
      refine ⟨_, show dataStd (a :: l) = _ from if_neg h1, Real.sqrt_nonneg _, ?_⟩
      have h2 : (0 : ℝ) < ((a :: l).length : ℝ) - 1 := by
        have : (2 : ℝ) ≤ ((a :: l).length : ℝ) := by exact_mod_cast h
        linarith
      rw [Real.sq_sqrt, div_mul_cancel₀ _ h2.ne']
      apply div_nonneg _ h2.le
      apply List.sum_nonneg
      intro v hv
      obtain ⟨w, _, rfl⟩ := List.mem_map.1 hv
      positivity

/-- **C83**: no entries are an error. -/
theorem C83_empty (x : Tensor ℝ) (h : x.data = []) : describe x = .error .runtime := by
  simp only [describe, h]

/-- **C83**: the seven numbers are ordered. -/
theorem C83_ordered (x : Tensor ℝ) {d : Description} (h : describe x = .ok d) :
    d.min ≤ d.q25 ∧ d.q25 ≤ d.q50 ∧ d.q50 ≤ d.q75 ∧ d.q75 ≤ d.max ∧ d.min ≤ d.mean ∧ d.mean ≤ d.max := by
  have hne : x.data ≠ [] := by
    intro h0
    rw [C83_empty x h0] at h
    cases h
  have hs := sorting_dataSorted x.data
  obtain ⟨d', e, ⟨_, h1⟩, ⟨_, h2⟩, q1, q2, q3, hm, _⟩ := C83_describe x hne hs
  rw [h] at e
  cases e
  set s := dataSorted x.data
  have hlen : s.length = x.data.length := hs.1.length_eq
  have hpos : 0 < s.length := by rw [hlen]; exact List.length_pos_of_ne_nil hne
  have hn : (0 : ℝ) ≤ (s.length : ℝ) - 1 := by
    have : (1 : ℝ) ≤ (s.length : ℝ) := by exact_mod_cast hpos
    linarith
  have hceil : ∀ q : ℝ, q ≤ 1 → ⌈q * ((s.length : ℝ) - 1)⌉₊ < s.length := by
    intro q hq
    have : ⌈q * ((s.length : ℝ) - 1)⌉₊ ≤ s.length - 1 := by
      rw [Nat.ceil_le]
      have : ((s.length - 1 : Nat) : ℝ) = (s.length : ℝ) - 1 := by
        rw [Nat.cast_sub hpos]; simp
      rw [this]
      nlinarith
    omega
  have hmem : ∀ i < s.length, s.getD i 0 ∈ x.data := by
    intro i hi
    apply hs.1.subset
    simp [hi]
  have hsum : ∀ (l : List ℝ) (lo hi : ℝ), (∀ v ∈ l, lo ≤ v) → (∀ v ∈ l, v ≤ hi) → lo * l.length ≤ l.sum ∧ l.sum ≤ hi * l.length := by
    intro l lo hi
    induction l with
    | nil => simp
    | cons a l ih =>
      intro h1 h2
      have := ih (fun v hv => h1 v (by simp [hv])) (fun v hv => h2 v (by simp [hv]))
      have ha := h1 a (by simp)
      have hb := h2 a (by simp)
      simp only [List.length_cons, List.sum_cons]
      push_cast
      constructor <;> linarith [this.1, this.2]
  have hd := hsum x.data d.min d.max h1 h2
  have hlpos : (0 : ℝ) < (x.data.length : ℝ) := by rw [← hlen]; exact_mod_cast hpos
  rw [← hm] at hd
  refine ⟨?_, ?_, ?_, ?_, le_of_mul_le_mul_right hd.1 hlpos, le_of_mul_le_mul_right hd.2 hlpos⟩
  · rw [q1]
    have hc := hceil (1 / 4) (by norm_num)
    refine le_trans (h1 _ (hmem _ (lt_of_le_of_lt (Nat.floor_le_ceil _) hc))) (interpolated_bounds hs.2 (by nlinarith) hc).1
  · rw [q1, q2]
    exact interpolated_mono hs.2 (by nlinarith) (by nlinarith) (hceil _ (by norm_num))
  · rw [q2, q3]
    exact interpolated_mono hs.2 (by nlinarith) (by nlinarith) (hceil _ (by norm_num))
  · rw [q3]
    have hc := hceil (3 / 4) (by norm_num)
    exact le_trans (interpolated_bounds hs.2 (by nlinarith) hc).2 (h2 _ (hmem _ hc))

theorem dataMean_perm {l l' : List ℝ} (h : l.Perm l') : dataMean l = dataMean l' := by
  simp only [dataMean, h.sum_eq, h.length_eq]

/-- **C83**: the order of the entries and the shape do not matter. -/
theorem C83_permutation (x y : Tensor ℝ) (h : x.data.Perm y.data) : describe x = describe y := by
  cases hx : x.data with
  | nil =>
    rw [hx] at h
    rw [C83_empty x hx, C83_empty y h.symm.eq_nil]
  | cons a l =>
    cases hy : y.data with
    | nil => rw [hx, hy] at h; exact absurd h.eq_nil (by simp)
    | cons b m =>
      rw [hx, hy] at h
      have hmean := dataMean_perm h
      have hstd : dataStd (a :: l) = dataStd (b :: m) := by
        simp only [dataStd, hmean, h.length_eq]
        rw [(h.map fun v => (v - dataMean (b :: m)) ^ 2).sum_eq]
      have hq : ∀ q, dataQuantile (a :: l) q = dataQuantile (b :: m) q := by
        intro q
        simp only [dataQuantile, sorting_unique (sorting_dataSorted (a :: l)) (sorting_dataSorted (b :: m)) h, h.length_eq]
      have hmin : l.foldl min a = m.foldl min b := by
        obtain ⟨h1, h2⟩ := foldl_min_le l a
        obtain ⟨h3, h4⟩ := foldl_min_le m b
        exact le_antisymm (h2 _ (h.mem_iff.2 h3)) (h4 _ (h.mem_iff.1 h1))
      have hmax : l.foldl max a = m.foldl max b := by
        obtain ⟨h1, h2⟩ := foldl_max_ge l a
        obtain ⟨h3, h4⟩ := foldl_max_ge m b
        exact le_antisymm (h4 _ (h.mem_iff.1 h1)) (h2 _ (h.mem_iff.2 h3))
      simp only [describe, hx, hy, hmean, hstd, hq, hmin, hmax]

/-! ## C84: pixels per degree -/

section
variable {d h w v : ℝ}

theorem floatDiv_ok {a b : ℝ} (hb : b ≠ 0) : floatDiv a b = .ok (a / b) := if_neg hb

/-- the display height as computed -/
noncomputable def heightMm (d h w : ℝ) : ℝ := (d ^ 2 / (1 + (w / h) ^ 2)) ^ (1 / 2 : ℝ)

theorem heightMm_sqrt (d h w : ℝ) : heightMm d h w = Real.sqrt (d ^ 2 / (1 + (w / h) ^ 2)) := by
  rw [heightMm, ← Real.sqrt_eq_rpow]

theorem heightMm_spec (d h w : ℝ) : IsHeight d h w (heightMm d h w) := by
  have hpos : (0 : ℝ) < 1 + (w / h) ^ 2 := by positivity
  rw [heightMm_sqrt]
  refine ⟨Real.sqrt_nonneg _, ?_⟩
  rw [mul_pow, Real.sq_sqrt (by positivity)]
  field_simp

theorem height_unique {d h w a b : ℝ} (ha : IsHeight d h w a) (hb : IsHeight d h w b) : a = b := by
  have hpos : (0 : ℝ) < 1 + (w / h) ^ 2 := by positivity
  have : a ^ 2 = b ^ 2 := by
    have h1 : a ^ 2 * (1 + (w / h) ^ 2) = b ^ 2 * (1 + (w / h) ^ 2) := by
      have := ha.2.trans hb.2.symm
      nlinarith
    exact mul_right_cancel₀ hpos.ne' h1
  exact (sq_eq_sq₀ ha.1 hb.1).1 this

theorem heightMm_pos (hd : d ≠ 0) (h w : ℝ) : 0 < heightMm d h w := by
  rw [heightMm_sqrt]
  apply Real.sqrt_pos.2
  positivity

theorem ppd_eq (hh : h ≠ 0) (hv : v ≠ 0) (hd : d ≠ 0) :
    pixelsPerDegree d h w v = .ok (h / (2 * Real.arctan (1 / 2 * heightMm d h w / (v * 1000)) * (180 / Real.pi))) := by
  have hpos : (0 : ℝ) < 1 + (w / h) ^ 2 := by positivity
  have ht : 1 / 2 * heightMm d h w / (v * 1000) ≠ 0 := by
    have := heightMm_pos hd h w
    have hv' : v * 1000 ≠ 0 := by simpa using hv
    exact div_ne_zero (by positivity) hv'
  have hat : Real.arctan (1 / 2 * heightMm d h w / (v * 1000)) ≠ 0 := by
    intro h0
    exact ht (Real.arctan_eq_zero_iff.1 h0)
  simp only [pixelsPerDegree, bind, Except.bind]
  rw [floatDiv_ok hh]
  simp only
  rw [floatDiv_ok hpos.ne']
  simp only
  rw [show (d ^ 2 / (1 + (w / h) ^ 2)) ^ (1 / 2 : ℝ) = heightMm d h w from rfl, floatDiv_ok (by simpa using hv)]
  simp only
  rw [floatDiv_ok]
  exact mul_ne_zero (mul_ne_zero two_ne_zero hat) (div_ne_zero (by norm_num) Real.pi_ne_zero)

/-- **C84.** For a display with positive diagonal, resolution and distance, the number of pixels per degree is positive, and the visual
angle `height / ppd` (in degrees) is the one under which the display height, obtained from the diagonal by Pythagoras, is seen:
the tangent of half the angle is half the height over the distance (in mm). -/
theorem C84_geometry (hd : 0 < d) (hh : 0 < h) (hv : 0 < v) {H : ℝ} (hH : IsHeight d h w H) :
    ∃ p, pixelsPerDegree d h w v = .ok p ∧ 0 < p ∧ h / p < 180 ∧ Real.tan (h / p / 2 * (Real.pi / 180)) * (v * 1000) = H / 2 := by
  have hHe : heightMm d h w = H := height_unique (heightMm_spec d h w) hH
  have hHp : 0 < H := by rw [← hHe]; exact heightMm_pos hd.ne' h w
  set t := 1 / 2 * H / (v * 1000) with ht
  have htp : 0 < t := by positivity
  have hap : 0 < Real.arctan t := Real.arctan_pos.2 htp
  have hpi := Real.pi_pos
  have hdeg : 0 < 2 * Real.arctan t * (180 / Real.pi) := by positivity
  refine ⟨_, by rw [ppd_eq hh.ne' hv.ne' hd.ne', hHe], div_pos hh hdeg, ?_, ?_⟩
  · rw [div_div_cancel₀ hh.ne']
    have := Real.arctan_lt_pi_div_two t
    have h2 : 2 * Real.arctan t < Real.pi := by linarith
    calc 2 * Real.arctan t * (180 / Real.pi) < Real.pi * (180 / Real.pi) := by
          apply mul_lt_mul_of_pos_right h2; positivity
      _ = 180 := by field_simp
  · rw [div_div_cancel₀ hh.ne']
    have : 2 * Real.arctan t * (180 / Real.pi) / 2 * (Real.pi / 180) = Real.arctan t := by field_simp
    rw [this, Real.tan_arctan, ht]
    field_simp

/-- **C84**: the resolution scales the result. -/
theorem C84_scaling (hd : 0 < d) (hh : 0 < h) (hv : 0 < v) {c : ℝ} (hc : 0 < c) {p : ℝ} (hp : pixelsPerDegree d h w v = .ok p) :
    pixelsPerDegree d (c * h) (c * w) v = .ok (c * p) := by
  rw [ppd_eq hh.ne' hv.ne' hd.ne'] at hp
  rw [ppd_eq (mul_pos hc hh).ne' hv.ne' hd.ne']
  have : heightMm d (c * h) (c * w) = heightMm d h w := by
    rw [heightMm, heightMm, mul_div_mul_left _ _ hc.ne']
  rw [this]
  cases hp
  congr 1
  rw [mul_div_assoc]

/-- **C84**: from further away a degree covers more pixels. -/
theorem C84_distance (hd : 0 < d) (hh : 0 < h) (hv : 0 < v) {v' : ℝ} (hvv : v < v') {p p' : ℝ} (hp : pixelsPerDegree d h w v = .ok p)
    (hp' : pixelsPerDegree d h w v' = .ok p') : p < p' := by
  rw [ppd_eq hh.ne' hv.ne' hd.ne'] at hp
  rw [ppd_eq hh.ne' (by linarith) hd.ne'] at hp'
  cases hp
  cases hp'
  have hH := heightMm_pos hd.ne' h w
  have hpi := Real.pi_pos
  have ht : 1 / 2 * heightMm d h w / (v' * 1000) < 1 / 2 * heightMm d h w / (v * 1000) := by
    apply div_lt_div_of_pos_left (by positivity) (by positivity)
    linarith
  have hlt := Real.arctan_strictMono ht
  have hpos : 0 < Real.arctan (1 / 2 * heightMm d h w / (v' * 1000)) := by
    apply Real.arctan_pos.2
    have : 0 < v' := by linarith
    positivity
  apply div_lt_div_of_pos_left hh (by positivity)
  apply mul_lt_mul_of_pos_right _ (by positivity)
  linarith

/-- **C84**: a zero height, distance or diagonal raises ZeroDivisionError. -/
theorem C84_zero (h0 : h = 0 ∨ v = 0 ∨ d = 0) : pixelsPerDegree d h w v = .error .zeroDivision := by
  by_cases hh : h = 0
  · simp [pixelsPerDegree, floatDiv, hh, bind, Except.bind]
  have hpos : (0 : ℝ) < 1 + (w / h) ^ 2 := by positivity
  simp only [pixelsPerDegree, bind, Except.bind]
  rw [floatDiv_ok hh]
  simp only
  rw [floatDiv_ok hpos.ne']
  simp only
  by_cases hv : v = 0
  · simp [floatDiv, hv]
  · have hd : d = 0 := by tauto
    rw [floatDiv_ok (by simpa using hv)]
    simp [hd, floatDiv]

end

/-! ## concrete cases -/

/-- C83: four numbers -/
example : ∃ d, describe (Tensor.vec [3, 1, 4, 2]) = .ok d ∧ d.q25 = interpolated [1, 2, 3, 4] (1 / 4 * (([1, 2, 3, 4] : List ℝ).length - 1)) ∧ d.min ≤ d.q25 := by
  have hs : IsSorting [1, 2, 3, 4] (Tensor.vec [(3 : ℝ), 1, 4, 2]).data := by
    refine ⟨?_, by norm_num⟩
    have : ([1, 2, 3, 4] : List ℝ).Perm [3, 1, 4, 2] :=
      ((List.Perm.swap 2 1 [3, 4]).trans ((List.Perm.cons 2 (List.Perm.swap 3 1 [4])).trans ((List.Perm.swap 3 2 [1, 4])))).trans
        (List.Perm.cons 3 ((List.Perm.swap 1 2 [4]).trans (List.Perm.cons 1 (List.Perm.swap 4 2 []))))
    exact this
  obtain ⟨d, h1, _, _, h2, _⟩ := C83_describe (Tensor.vec [3, 1, 4, 2]) (by simp [Tensor.vec]) hs
  exact ⟨d, h1, h2, (C83_ordered _ h1).1⟩

/-- C84: a 5 by 4 aspect ratio, the height is found with Pythagoras -/
example : ∃ p, pixelsPerDegree 500 900 1200 (1 / 2) = .ok p ∧ 0 < p ∧ Real.tan (900 / p / 2 * (Real.pi / 180)) * (1 / 2 * 1000) = 300 / 2 := by
  obtain ⟨p, h1, h2, _, h3⟩ := C84_geometry (d := 500) (h := 900) (w := 1200) (v := 1 / 2) (H := 300) (by norm_num) (by norm_num) (by norm_num)
    ⟨by norm_num, by norm_num⟩
  exact ⟨p, h1, h2, h3⟩

/-- **C84**, the companion stub `hdrvdp3` accepts exactly images of one shape. -/
theorem C84_hdrvdp3 {α : Type} (x y : Tensor α) : (hdrvdp3 x y = .ok () ↔ x.shape = y.shape) ∧ (hdrvdp3 x y = .error .assertion ↔ x.shape ≠ y.shape) := by
  unfold hdrvdp3
  split <;> rename_i h <;> simp [h]

end TI
