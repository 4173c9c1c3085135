import Verif.Props.Stats

/-!
# describe of changed data: C121
-/

namespace TI
open Tensor Spec

/-- a standard deviation times a number, NaN stays -/
def Spec.scaledVal (c : ℝ) : Val → Val
  | .real r => .real (c * r)
  | .bad => .bad

/-! ## sorting and interpolation -/

theorem sorted_map {f : ℝ → ℝ} (hf : Monotone f) (l : List ℝ) : dataSorted (l.map f) = (dataSorted l).map f := by
  have hs := sorting_dataSorted l
  refine sorting_unique (sorting_dataSorted (l.map f)) (l' := l.map f) ⟨hs.1.map f, ?_⟩ (List.Perm.refl _)
  rw [List.pairwise_map]
  exact hs.2.imp fun h => hf h

theorem sorted_map_anti {f : ℝ → ℝ} (hf : Antitone f) (l : List ℝ) : dataSorted (l.map f) = ((dataSorted l).map f).reverse := by
  have hs := sorting_dataSorted l
  refine sorting_unique (sorting_dataSorted (l.map f)) (l' := l.map f) ⟨(List.reverse_perm _).trans (hs.1.map f), ?_⟩ (List.Perm.refl _)
  rw [List.pairwise_reverse, List.pairwise_map]
  exact hs.2.imp fun h => hf h

theorem dataSorted_length (l : List ℝ) : (dataSorted l).length = l.length := (sorting_dataSorted l).1.length_eq

theorem quantile_interpolated (l : List ℝ) (q : ℝ) : dataQuantile l q = interpolated (dataSorted l) (q * ((l.length : ℝ) - 1)) := rfl

theorem ceil_rank {n : Nat} (hn : 0 < n) {q : ℝ} (hq : q ≤ 1) : ⌈q * ((n : ℝ) - 1)⌉₊ < n := by
  have h1 : (1 : ℝ) ≤ (n : ℝ) := by exact_mod_cast hn
  have : ⌈q * ((n : ℝ) - 1)⌉₊ ≤ n - 1 := by
    rw [Nat.ceil_le, Nat.cast_sub hn, Nat.cast_one]
    nlinarith
  omega

theorem getD_map_lt {s : List ℝ} {i : Nat} (hi : i < s.length) (f : ℝ → ℝ) : (s.map f).getD i 0 = f (s.getD i 0) := by
  simp [List.getD_eq_getElem?_getD, hi]

theorem getD_reverse_lt {s : List ℝ} {i : Nat} (hi : i < s.length) : s.reverse.getD i 0 = s.getD (s.length - 1 - i) 0 := by
  rw [List.getD_eq_getElem?_getD, List.getD_eq_getElem?_getD, List.getElem?_reverse hi]

theorem interpolated_affine {s : List ℝ} {r a b : ℝ} (hr : ⌈r⌉₊ < s.length) :
    interpolated (s.map fun v => a * v + b) r = a * interpolated s r + b := by
  have h1 : ⌊r⌋₊ < s.length := lt_of_le_of_lt (Nat.floor_le_ceil r) hr
  simp only [interpolated, getD_map_lt hr, getD_map_lt h1]
  ring

theorem interpolated_reverse {s : List ℝ} {r : ℝ} (h0 : 0 ≤ r) (hr : r ≤ (s.length : ℝ) - 1) :
    interpolated s.reverse r = interpolated s ((s.length : ℝ) - 1 - r) := by
  have hn : 0 < s.length := by
    rcases Nat.eq_zero_or_pos s.length with h | h
    · rw [h] at hr; norm_num at hr; linarith
    · exact h
  have hc : ⌈r⌉₊ ≤ s.length - 1 := by
    rw [Nat.ceil_le, Nat.cast_sub hn, Nat.cast_one]
    exact hr
  have h1 := Nat.floor_le h0
  have h2 := Nat.lt_floor_add_one r
  have h3 := Nat.floor_le_ceil r
  have h4 := Nat.ceil_le_floor_add_one r
  have h5 := Nat.le_ceil r
  have cast : ∀ i : Nat, i ≤ s.length - 1 → (((s.length - 1 - i : Nat)) : ℝ) = (s.length : ℝ) - 1 - i := by
    intro i hi
    rw [Nat.cast_sub hi, Nat.cast_sub hn, Nat.cast_one]
  have hfl : ⌊(s.length : ℝ) - 1 - r⌋₊ = s.length - 1 - ⌈r⌉₊ := by
    rw [Nat.floor_eq_iff (by linarith), cast _ hc]
    have := Nat.ceil_lt_add_one h0
    constructor <;> linarith
  have hce : ⌈(s.length : ℝ) - 1 - r⌉₊ = s.length - 1 - ⌊r⌋₊ := by
    have e := cast ⌊r⌋₊ (h3.trans hc)
    apply le_antisymm
    · rw [Nat.ceil_le, e]; linarith
    · have h := Nat.le_ceil ((s.length : ℝ) - 1 - r)
      have : ((s.length - 1 - ⌊r⌋₊ : Nat) : ℝ) < (⌈(s.length : ℝ) - 1 - r⌉₊ : ℝ) + 1 := by rw [e]; linarith
      have : s.length - 1 - ⌊r⌋₊ < ⌈(s.length : ℝ) - 1 - r⌉₊ + 1 := by exact_mod_cast this
      omega
  simp only [interpolated, hfl, hce]
  rw [getD_reverse_lt (by omega), getD_reverse_lt (by omega), cast _ hc]
  by_cases hcf : ⌈r⌉₊ = ⌊r⌋₊
  · rw [hcf]; ring
  · have h6 : ⌈r⌉₊ = ⌊r⌋₊ + 1 := by omega
    have h7 : ((⌈r⌉₊ : Nat) : ℝ) = (⌊r⌋₊ : ℝ) + 1 := by rw [h6]; push_cast; ring
    rw [h7]; ring

theorem dataMean_affine {l : List ℝ} (hl : l ≠ []) (a b : ℝ) : dataMean (l.map fun v => a * v + b) = a * dataMean l + b := by
  have h : (l.map fun v => a * v + b).sum = a * l.sum + b * l.length := by
    clear hl
    induction l with
    | nil => simp
    | cons c l ih => simp only [List.map_cons, List.sum_cons, ih, List.length_cons]; push_cast; ring
  have hp : (0 : ℝ) < l.length := by exact_mod_cast List.length_pos_of_ne_nil hl
  rw [dataMean, dataMean, h, List.length_map]
  field_simp

theorem std_affine {l : List ℝ} (hl : l ≠ []) (a b : ℝ) : dataStd (l.map fun v => a * v + b) = scaledVal |a| (dataStd l) := by
  rw [dataStd, dataStd, List.length_map]
  split_ifs
  · rfl
  · rw [scaledVal, dataMean_affine hl, List.map_map]
    have : (l.map ((fun v => (v - (a * dataMean l + b)) ^ 2) ∘ fun v => a * v + b)).sum = a ^ 2 * (l.map fun v => (v - dataMean l) ^ 2).sum := by
      rw [← List.sum_map_mul_left]
      congr 1
      apply List.map_congr_left
      intro v _
      simp only [Function.comp]
      ring
    rw [this, mul_div_assoc, Real.sqrt_mul (sq_nonneg a), Real.sqrt_sq_eq_abs]

theorem foldl_min_mono_map {f : ℝ → ℝ} (hf : Monotone f) : ∀ (l : List ℝ) (a : ℝ), (l.map f).foldl min (f a) = f (l.foldl min a)
  | [], _ => rfl
  | b :: l, a => by
    rw [List.map_cons, List.foldl_cons, List.foldl_cons, ← foldl_min_mono_map hf l, hf.map_min]

theorem foldl_max_mono_map {f : ℝ → ℝ} (hf : Monotone f) : ∀ (l : List ℝ) (a : ℝ), (l.map f).foldl max (f a) = f (l.foldl max a)
  | [], _ => rfl
  | b :: l, a => by
    rw [List.map_cons, List.foldl_cons, List.foldl_cons, ← foldl_max_mono_map hf l, hf.map_max]

theorem foldl_min_anti {f : ℝ → ℝ} (hf : Antitone f) : ∀ (l : List ℝ) (a : ℝ), (l.map f).foldl min (f a) = f (l.foldl max a)
  | [], _ => rfl
  | b :: l, a => by
    rw [List.map_cons, List.foldl_cons, List.foldl_cons, ← foldl_min_anti hf l, hf.map_max]

theorem foldl_max_anti {f : ℝ → ℝ} (hf : Antitone f) : ∀ (l : List ℝ) (a : ℝ), (l.map f).foldl max (f a) = f (l.foldl min a)
  | [], _ => rfl
  | b :: l, a => by
    rw [List.map_cons, List.foldl_cons, List.foldl_cons, ← foldl_max_anti hf l, hf.map_min]

theorem describe_data {x : Tensor ℝ} {d : Description} (h : describe x = .ok d) : ∃ a l, x.data = a :: l ∧
    d = { mean := dataMean (a :: l), std := dataStd (a :: l), min := l.foldl min a, q25 := dataQuantile (a :: l) (1 / 4),
          q50 := dataQuantile (a :: l) (1 / 2), q75 := dataQuantile (a :: l) (3 / 4), max := l.foldl max a } := by
  cases hx : x.data with
  | nil => simp [describe, hx] at h
  | cons a l =>
    simp only [describe, hx] at h
    cases h
    exact ⟨a, l, rfl, rfl⟩

/-- **C121.** `describe` of a brighter image, or one with more contrast: the mean and all order statistics change like the entries, the
standard deviation is scaled. -/
theorem C121_affine {x : Tensor ℝ} {d : Description} (h : describe x = .ok d) {a : ℝ} (ha : 0 ≤ a) (b : ℝ) :
    describe (x.map fun v => a * v + b) =
      .ok { mean := a * d.mean + b, std := scaledVal a d.std, min := a * d.min + b, q25 := a * d.q25 + b,
            q50 := a * d.q50 + b, q75 := a * d.q75 + b, max := a * d.max + b } := by
  obtain ⟨c, l, hx, rfl⟩ := describe_data h
  have hm : Monotone fun v : ℝ => a * v + b := fun v w hvw => by
    have := mul_le_mul_of_nonneg_left hvw ha
    simp only; linarith
  have hd : (x.map fun v => a * v + b).data = (a * c + b) :: l.map fun v => a * v + b := by
    rw [show (x.map fun v => a * v + b).data = x.data.map fun v => a * v + b from rfl, hx, List.map_cons]
  have hq : ∀ q : ℝ, q ≤ 1 → dataQuantile ((a * c + b) :: l.map fun v => a * v + b) q = a * dataQuantile (c :: l) q + b := by
    intro q hq
    rw [quantile_interpolated, quantile_interpolated, ← List.map_cons (f := fun v => a * v + b), sorted_map hm, List.length_map]
    apply interpolated_affine
    rw [dataSorted_length]
    exact ceil_rank (by simp) hq
  simp only [describe, hd]
  rw [hq _ (by norm_num), hq _ (by norm_num), hq _ (by norm_num), ← List.map_cons (f := fun v => a * v + b), dataMean_affine (by simp), std_affine (by simp), abs_of_nonneg ha,
    foldl_min_mono_map hm, foldl_max_mono_map hm]

/-- **C121.** `describe` of a negative image: the mean changes like the entries, the order statistics swap roles. -/
theorem C121_negative {x : Tensor ℝ} {d : Description} (h : describe x = .ok d) {a : ℝ} (ha : a ≤ 0) (b : ℝ) :
    describe (x.map fun v => a * v + b) =
      .ok { mean := a * d.mean + b, std := scaledVal (-a) d.std, min := a * d.max + b, q25 := a * d.q75 + b,
            q50 := a * d.q50 + b, q75 := a * d.q25 + b, max := a * d.min + b } := by
  obtain ⟨c, l, hx, rfl⟩ := describe_data h
  have hm : Antitone fun v : ℝ => a * v + b := fun v w hvw => by
    have := mul_le_mul_of_nonpos_left hvw ha
    simp only; linarith
  have hd : (x.map fun v => a * v + b).data = (a * c + b) :: l.map fun v => a * v + b := by
    rw [show (x.map fun v => a * v + b).data = x.data.map fun v => a * v + b from rfl, hx, List.map_cons]
  have hq : ∀ q q' : ℝ, 0 ≤ q → q ≤ 1 → q' = 1 - q → dataQuantile ((a * c + b) :: l.map fun v => a * v + b) q = a * dataQuantile (c :: l) q' + b := by
    intro q q' h0 hq he
    have h1 : (0 : ℝ) ≤ ((c :: l).length : ℝ) - 1 := by simp
    rw [quantile_interpolated, quantile_interpolated, ← List.map_cons (f := fun v => a * v + b), sorted_map_anti hm, List.length_map,
      interpolated_reverse (by positivity) (by rw [List.length_map, dataSorted_length]; nlinarith), List.length_map, dataSorted_length,
      show ((c :: l).length : ℝ) - 1 - q * (((c :: l).length : ℝ) - 1) = q' * (((c :: l).length : ℝ) - 1) by rw [he]; ring]
    apply interpolated_affine
    rw [dataSorted_length]
    exact ceil_rank (by simp) (by linarith)
  simp only [describe, hd]
  rw [hq (1 / 4) (3 / 4) (by norm_num) (by norm_num) (by norm_num), hq (1 / 2) (1 / 2) (by norm_num) (by norm_num) (by norm_num),
    hq (3 / 4) (1 / 4) (by norm_num) (by norm_num) (by norm_num), ← List.map_cons (f := fun v => a * v + b), dataMean_affine (by simp), std_affine (by simp), abs_of_nonpos ha,
    foldl_min_anti hm, foldl_max_anti hm]

/-- **C121.** All entries equal: so are the seven numbers, and the standard deviation of two or more entries is zero. -/
theorem C121_constant {x : Tensor ℝ} (hne : x.data ≠ []) {c : ℝ} (hc : ∀ v ∈ x.data, v = c) : ∃ d, describe x = .ok d ∧
    d.mean = c ∧ d.min = c ∧ d.q25 = c ∧ d.q50 = c ∧ d.q75 = c ∧ d.max = c ∧ (2 ≤ x.data.length → d.std = .real 0) := by
  obtain ⟨d, hd, hmin, hmax, -, -, -, -, -, hstd⟩ := C83_describe x hne (sorting_dataSorted x.data)
  have h1 := hc _ hmin.1
  have h2 := hc _ hmax.1
  obtain ⟨o1, o2, o3, o4, o5, o6⟩ := C83_ordered x hd
  have hmean : d.mean = c := by linarith
  refine ⟨d, hd, hmean, h1, by linarith, by linarith, by linarith, h2, ?_⟩
  intro h
  obtain ⟨σ, e, _, hσ⟩ := hstd h
  have hz : (x.data.map fun v => (v - d.mean) ^ 2).sum = 0 := by
    apply List.sum_eq_zero
    intro v hv
    obtain ⟨w, hw, rfl⟩ := List.mem_map.1 hv
    rw [hc w hw, hmean]; ring
  have hl : (0 : ℝ) < (x.data.length : ℝ) - 1 := by
    have : (2 : ℝ) ≤ (x.data.length : ℝ) := by exact_mod_cast h
    linarith
  rw [hz] at hσ
  have : σ = 0 := by
    rcases mul_eq_zero.1 hσ with h | h
    · exact pow_eq_zero_iff (two_ne_zero) |>.1 h
    · linarith
  rw [e, this]

/-- **C121.** The standard deviation is zero only for equal entries. -/
theorem C121_std_zero {x : Tensor ℝ} {d : Description} (h : describe x = .ok d) (hs : d.std = .real 0) : ∀ v ∈ x.data, v = d.mean := by
  have hne : x.data ≠ [] := by
    intro h0
    rw [C83_empty x h0] at h
    cases h
  obtain ⟨d', e, -, -, -, -, -, -, h1, h2⟩ := C83_describe x hne (sorting_dataSorted x.data)
  rw [h] at e
  cases e
  have hl : 2 ≤ x.data.length := by
    by_contra hlt
    have hpos := List.length_pos_of_ne_nil hne
    have := h1 (by omega)
    rw [hs] at this
    cases this
  obtain ⟨σ, e, _, hσ⟩ := h2 hl
  rw [hs] at e
  cases e
  intro v hv
  have hz : (x.data.map fun v => (v - d.mean) ^ 2).sum = 0 := by rw [← hσ]; ring
  have hle : (v - d.mean) ^ 2 ≤ (x.data.map fun v => (v - d.mean) ^ 2).sum := by
    apply List.single_le_sum
    · intro w hw
      obtain ⟨u, _, rfl⟩ := List.mem_map.1 hw
      exact sq_nonneg _
    · exact List.mem_map.2 ⟨v, hv, rfl⟩
  have : (v - d.mean) ^ 2 = 0 := le_antisymm (hz ▸ hle) (sq_nonneg _)
  have := pow_eq_zero_iff (two_ne_zero) |>.1 this
  linarith

/-! ## brighter entries -/

theorem orderedInsert_sorted {c : ℝ} {s : List ℝ} (h : (c :: s).Pairwise (· ≤ ·)) : s.orderedInsert (· ≤ ·) c = c :: s := by
  cases s with
  | nil => rfl
  | cons d s =>
    rw [List.orderedInsert_cons, if_pos]
    exact (List.pairwise_cons.1 h).1 d (by simp)

theorem orderedInsert_le : ∀ {s t : List ℝ} {a b : ℝ}, s.Pairwise (· ≤ ·) → t.Pairwise (· ≤ ·) → List.Forall₂ (· ≤ ·) s t → a ≤ b →
    List.Forall₂ (· ≤ ·) (s.orderedInsert (· ≤ ·) a) (t.orderedInsert (· ≤ ·) b)
  | [], _, _, _, _, _, h, hab => by
    cases h
    exact .cons hab .nil
  | c :: s, t, a, b, hs, ht, h, hab => by
    cases h with
    | @cons _ d _ t hcd hst =>
      have hs' := (List.pairwise_cons.1 hs).2
      have ht' := (List.pairwise_cons.1 ht).2
      rw [List.orderedInsert_cons, List.orderedInsert_cons]
      split_ifs with h1 h2 h2
      · exact .cons hab (.cons hcd hst)
      · refine .cons (h1.trans hcd) ?_
        rw [← orderedInsert_sorted hs]
        exact orderedInsert_le hs' ht' hst (hcd.trans (not_le.1 h2).le)
      · refine .cons ((not_le.1 h1).le.trans hab) ?_
        rw [← orderedInsert_sorted ht]
        exact orderedInsert_le hs' ht' hst (hab.trans h2)
      · exact .cons hcd (orderedInsert_le hs' ht' hst hab)

theorem sorted_le {l m : List ℝ} (h : List.Forall₂ (· ≤ ·) l m) : List.Forall₂ (· ≤ ·) (dataSorted l) (dataSorted m) := by
  induction h with
  | nil => exact .nil
  | @cons a b l m hab _ ih => exact orderedInsert_le (List.pairwise_insertionSort _ _) (List.pairwise_insertionSort _ _) ih hab

theorem forall₂_getD {s t : List ℝ} (h : List.Forall₂ (· ≤ ·) s t) (i : Nat) : s.getD i 0 ≤ t.getD i 0 := by
  induction h generalizing i with
  | nil => simp
  | cons hab _ ih =>
    cases i with
    | zero => simpa using hab
    | succ i => simpa using ih i

theorem interpolated_le {s t : List ℝ} (h : List.Forall₂ (· ≤ ·) s t) {r : ℝ} (hr : 0 ≤ r) : interpolated s r ≤ interpolated t r := by
  have h1 := forall₂_getD h ⌊r⌋₊
  have h2 := forall₂_getD h ⌈r⌉₊
  have h3 := Nat.floor_le hr
  have h4 := Nat.lt_floor_add_one r
  simp only [interpolated]
  nlinarith [mul_nonneg (sub_nonneg.2 h3) (sub_nonneg.2 h2), mul_nonneg (show 0 ≤ 1 - (r - ⌊r⌋₊) by linarith) (sub_nonneg.2 h1)]

theorem forall₂_sum {s t : List ℝ} (h : List.Forall₂ (· ≤ ·) s t) : s.sum ≤ t.sum := by
  induction h with
  | nil => simp
  | cons hab _ ih => simp only [List.sum_cons]; linarith

theorem data_min_mono {l m : List ℝ} (h : List.Forall₂ (· ≤ ·) l m) : ∀ {a b : ℝ}, a ≤ b → l.foldl min a ≤ m.foldl min b := by
  induction h with
  | nil => intro a b hab; exact hab
  | cons hab _ ih => intro c d hcd; exact ih (min_le_min hcd hab)

theorem data_max_mono {l m : List ℝ} (h : List.Forall₂ (· ≤ ·) l m) : ∀ {a b : ℝ}, a ≤ b → l.foldl max a ≤ m.foldl max b := by
  induction h with
  | nil => intro a b hab; exact hab
  | cons hab _ ih => intro c d hcd; exact ih (max_le_max hcd hab)

/-- **C121.** If no entry is larger than its partner in another image, then neither are the mean, the minimum, the quartiles and the maximum. -/
theorem C121_monotone {x y : Tensor ℝ} {d e : Description} (hx : describe x = .ok d) (hy : describe y = .ok e) (hs : x.shape = y.shape)
    (h : ∀ ix, InB x.shape ix → x.get ix ≤ y.get ix) :
    d.mean ≤ e.mean ∧ d.min ≤ e.min ∧ d.q25 ≤ e.q25 ∧ d.q50 ≤ e.q50 ∧ d.q75 ≤ e.q75 ∧ d.max ≤ e.max := by
  have hd : List.Forall₂ (· ≤ ·) x.data y.data := by
    rw [data_eq_map_get x, data_eq_map_get y, ← hs, List.forall₂_map_left_iff, List.forall₂_map_right_iff, List.forall₂_same]
    intro ix hix
    exact h ix (mem_indices.1 hix)
  obtain ⟨a, l, e1, rfl⟩ := describe_data hx
  obtain ⟨b, m, e2, rfl⟩ := describe_data hy
  rw [e1, e2] at hd
  have hlen := hd.length_eq
  have h1 : (0 : ℝ) ≤ ((b :: m).length : ℝ) - 1 := by simp
  have hq : ∀ q : ℝ, 0 ≤ q → dataQuantile (a :: l) q ≤ dataQuantile (b :: m) q := by
    intro q h0
    rw [quantile_interpolated, quantile_interpolated, hlen]
    exact interpolated_le (sorted_le hd) (by positivity)
  refine ⟨?_, ?_, hq _ (by norm_num), hq _ (by norm_num), hq _ (by norm_num), ?_⟩
  · simp only [dataMean, hlen]
    exact div_le_div_of_nonneg_right (forall₂_sum hd) (by positivity)
  · cases hd with
    | cons hab hr => exact data_min_mono hr hab
  · cases hd with
    | cons hab hr => exact data_max_mono hr hab

/-- **C121.** The standard deviation is at most what the range allows: half the range, up to the factor of Bessel's correction. -/
theorem C121_std_range {x : Tensor ℝ} {d : Description} (h : describe x = .ok d) {σ : ℝ} (hs : d.std = .real σ) :
    σ ^ 2 * (x.data.length - 1) ≤ x.data.length * ((d.max - d.min) / 2) ^ 2 := by
  have hne : x.data ≠ [] := by
    intro h0
    rw [C83_empty x h0] at h
    cases h
  obtain ⟨d', e, hmin, hmax, -, -, -, hm, h1, h2⟩ := C83_describe x hne (sorting_dataSorted x.data)
  rw [h] at e
  cases e
  have hl : 2 ≤ x.data.length := by
    by_contra hlt
    have hpos := List.length_pos_of_ne_nil hne
    have := h1 (by omega)
    rw [hs] at this
    cases this
  obtain ⟨σ', e, _, hσ⟩ := h2 hl
  rw [hs] at e
  cases e
  rw [hσ]
  have key : ∀ (l : List ℝ) (μ c : ℝ), (l.map fun v => (v - μ) ^ 2).sum = (l.map fun v => (v - c) ^ 2).sum - 2 * (μ - c) * (l.sum - l.length * c) + l.length * (μ - c) ^ 2 := by
    intro l μ c
    induction l with
    | nil => simp
    | cons a l ih => simp only [List.map_cons, List.sum_cons, ih, List.length_cons]; push_cast; ring
  have bound : ∀ l : List ℝ, (∀ v ∈ l, d.min ≤ v ∧ v ≤ d.max) → (l.map fun v => (v - (d.min + d.max) / 2) ^ 2).sum ≤ l.length * ((d.max - d.min) / 2) ^ 2 := by
    intro l
    induction l with
    | nil => simp
    | cons a l ih =>
      intro hb
      have := ih fun v hv => hb v (by simp [hv])
      have ha := hb a (by simp)
      simp only [List.map_cons, List.sum_cons, List.length_cons]
      push_cast
      nlinarith
  have hb := bound x.data fun v hv => ⟨hmin.2 v hv, hmax.2 v hv⟩
  rw [key x.data d.mean ((d.min + d.max) / 2), ← hm]
  have hn : (0 : ℝ) ≤ (x.data.length : ℝ) := Nat.cast_nonneg _
  nlinarith [mul_nonneg hn (sq_nonneg (d.mean - (d.min + d.max) / 2))]

/-- the mean and quartiles of `1 - v` -/
example : ∃ d e, describe (Tensor.vec [3, 1, 4, 2]) = .ok d ∧ describe ((Tensor.vec [3, 1, 4, 2]).map fun v => (-1) * v + 1) = .ok e ∧ e.q25 = -1 * d.q75 + 1 ∧
    e.min = -1 * d.max + 1 := by
  obtain ⟨d, h, -⟩ := C83_describe (Tensor.vec [3, 1, 4, 2]) (by simp [Tensor.vec]) (sorting_dataSorted _)
  exact ⟨d, _, h, C121_negative h (by norm_num) 1, rfl, rfl⟩

end TI
