import Verif.Proofs.MsOne

/-!
# MS-SSIM is one for equal images only (C109)
-/

set_option linter.unusedSectionVars false

namespace TI
open Tensor Spec

variable {s : SSIM ℝ} {pool : SepPool ℝ} {a : PoolArgs ℝ} {m : Nat} {gp : Option (PadArgs ℝ)} {x y1 y2 : Tensor ℝ} {ax rax : Axes}
  {axes raxes : List Nat} {p q : Option (Padder ℝ)} {k1 k2 eps : ℝ} {sc cr up : Bool} {ws : List ℝ}

/-- a mean of numbers that are at most `c` is `c` only if all are -/
theorem mean_eq_top {c : ℝ} {l : List ℝ} (hne : l ≠ []) (h : ∀ v ∈ l, v ≤ c) (h1 : Spec.mean l = c) : ∀ v ∈ l, v = c := by
  have hlen : (0 : ℝ) < (l.length : ℝ) := by exact_mod_cast List.length_pos_iff.2 hne
  have hsum : (l.map fun v => c - v).sum = 0 := by
    rw [Spec.mean, div_eq_iff hlen.ne'] at h1
    have : ∀ l : List ℝ, (l.map fun v => c - v).sum = c * (l.length : ℝ) - l.sum := by
      intro l
      induction l with
      | nil => simp
      | cons a l ih => simp only [List.map_cons, List.sum_cons, ih, List.length_cons]; push_cast; ring
    rw [this, h1, sub_self]
  intro v hv
  have h2 : c - v ≤ (l.map fun v => c - v).sum := by
    apply List.single_le_sum
    · intro b hb
      obtain ⟨u, hu, rfl⟩ := List.mem_map.1 hb
      exact sub_nonneg.2 (h u hu)
    · exact List.mem_map.2 ⟨v, hv, rfl⟩
  rw [hsum] at h2
  exact le_antisymm (h v hv) (by linarith)

/-- means of numbers that are at most `c` are `c` exactly if all the numbers are -/
theorem meanOver_eq_top {c : ℝ} (hx : ∀ ix, InB x.shape ix → x.get ix ≤ c)
    (hpos : ∀ k < x.ndim, k ∈ reducedAxes x.ndim raxes → 0 < x.shape.getD k 0) :
    (∀ jx, InB (meanOver x raxes).shape jx → (meanOver x raxes).get jx = c) ↔ ∀ ix, InB x.shape ix → x.get ix = c := by
  constructor
  · intro h ix hix
    have hjx : InB (onKept (reducedAxes x.ndim raxes) x.shape) (onKept (reducedAxes x.ndim raxes) ix) := onKept_inB hix
    have h1 := h _ hjx
    rw [meanOver, get_ofFn hjx] at h1
    refine mean_eq_top ?_ ?_ h1 _ (List.mem_map.2 ⟨ix, mem_collected.2 ⟨hix, rfl⟩, rfl⟩)
    · simpa using collected_ne hpos hjx
    · intro v hv
      obtain ⟨jx, hj, rfl⟩ := List.mem_map.1 hv
      exact hx jx (mem_collected.1 hj).1
  · exact fun h => meanOver_constant h hpos

/-- a product of numbers between 0 and 1 is 1 only if all are -/
theorem prod_eq_one_of_le : ∀ {l : List ℝ}, (∀ v ∈ l, 0 ≤ v ∧ v ≤ 1) → l.prod = 1 → ∀ v ∈ l, v = 1
  | [], _, _, _, h => by simp at h
  | b :: l, hl, h, v, hv => by
    have hP : ∀ {l : List ℝ}, (∀ v ∈ l, 0 ≤ v ∧ v ≤ 1) → 0 ≤ l.prod ∧ l.prod ≤ 1 := by
      intro l
      induction l with
      | nil => intro _; simp
      | cons c l ih =>
        intro h
        obtain ⟨h1, h2⟩ := h c (by simp)
        obtain ⟨h3, h4⟩ := ih fun v hv => h v (by simp [hv])
        rw [List.prod_cons]
        exact ⟨mul_nonneg h1 h3, mul_le_one₀ h2 h3 h4⟩
    obtain ⟨h1, h2⟩ := hl b (by simp)
    obtain ⟨h3, h4⟩ := hP (l := l) fun v hv => hl v (by simp [hv])
    rw [List.prod_cons] at h
    have hb : b = 1 := by nlinarith
    rcases List.mem_cons.1 hv with rfl | hv
    · exact hb
    · rw [hb, one_mul] at h
      exact prod_eq_one_of_le (fun v hv => hl v (by simp [hv])) h v hv

/-- the scores of the first and of the last level are 1 everywhere only if the images are equal -/
theorem levels_equal {g : Given (List ℝ)} {L : Nat} (h : MsAt g gp cr (L + 1) y1 axes p) (hp : MsPossible g gp cr axes k1 k2)
    (hw : PositiveKernels g axes) (hl : ∀ i < axes.length, 2 ≤ (g.entry [] i).length) (hN : sc = true → windowSize g axes.length ≠ 1)
    (h12 : y2.shape = y1.shape)
    (hfirst : ∀ jx, InB (onesAt axes y1.shape) jx →
      (levelScore k1 k2 (covFactor sc (windowSize g axes.length)) (scoreBlur g gp cr axes) axes false y1 y2).get jx = 1)
    (hlast : ∀ jx, InB (onesAt axes y1.shape) jx → (levelScore k1 k2 (covFactor sc (windowSize g axes.length)) (scoreBlur g gp cr axes) axes true
      (atLevel axes (L + 1) y1) (atLevel axes (L + 1) y2)).get jx = 1) : y1 = y2 := by
  have hat : MsAt g gp cr (0 + (L + 1)) y1 axes p := by rw [Nat.zero_add]; exact h
  have hlev := MsAt.level (L + 1) hat
  have hlev12 : (atLevel axes (L + 1) y2).shape = (atLevel axes (L + 1) y1).shape := atLevel_shape_congr (L + 1) h12
  have hkeep : ∀ gp', (cr = true → gp' = none) → (cr = false → gp' = gp) → KeepsMoments gp' axes := by
    intro gp' e1 e2
    cases cr with
    | true => rw [e1 rfl]; intro g hg; cases hg
    | false => rw [e2 rfl]; exact hp.keeps rfl
  -- the first level
  have hconst : ∀ a ∈ axes, ConstAlong a (lincomb 1 y1 (-1) y2) := by
    obtain ⟨gp', p', e, hb, e1, e2⟩ := h.scoreCall
    have hk := hkeep gp' e1 e2
    have hs := (h.map_shape (y2 := y2) (ssimIndex (k1 ^ 2) (k2 ^ 2) (covFactor sc (windowSize g axes.length)))).2
    rw [e] at hfirst hs
    refine csMap_eq_one (sc := sc) hb (fun _ => h.poolOps) hp.average hw hl hk h12 hp.k2_ne hN ?_
    refine meanKept_eq_one (axes := axes) (fun ix hix => (csMap_between hb hp.average hk h12 hp.k2_ne _ ix hix).2) ?_
    intro jx hjx
    exact hfirst jx (by rw [← hs]; exact hjx)
  -- the last level
  have hsame : atLevel axes (L + 1) y1 = atLevel axes (L + 1) y2 := by
    obtain ⟨gp', p', e, hb, e1, e2⟩ := hlev.scoreCall
    have hk := hkeep gp' e1 e2
    have hs := (hlev.map_shape (y2 := atLevel axes (L + 1) y2) (ssimIndex (k1 ^ 2) (k2 ^ 2) (covFactor sc (windowSize g axes.length)))).2
    rw [e] at hlast hs
    rw [onesAt_level (L + 1) hat] at hs
    refine (ssimMap_eq_one (sc := sc) hb hp.average hw hk hlev12 hp.k1_ne hp.k2_ne hN).1 ?_
    refine meanKept_eq_one (axes := axes) (fun ix hix => (ssimMap_between hb hp.average hk hlev12 hp.k1_ne hp.k2_ne _ ix hix).2) ?_
    intro jx hjx
    exact hlast jx (by rw [← hs]; exact hjx)
  apply ext_get h12.symm
  intro ix hix
  have hzero : (lincomb 1 y1 (-1) y2).get ix = 0 := by
    rw [← zeroed_const (axes := axes) (fun a ha => ⟨hconst a ha, h.pos ha⟩) hix]
    have hz : InB (atLevel axes (L + 1) y1).shape (zeroed axes ix) := by
      apply inB_of_onesAt (axes := axes)
      · rw [onesAt_level (L + 1) hat]
        exact zeroed_inB hix
      · exact fun a ha => hlev.pos ha
    have e := atLevel_lincomb (c := 1) (d := -1) (L + 1) hat h12
    have hz' : InB (atLevel axes (L + 1) (lincomb 1 y1 (-1) y2)).shape (zeroed axes ix) := by rw [e]; exact hz
    rw [← (atLevel_const (axes := axes) (L + 1) (u := lincomb 1 y1 (-1) y2) h.lt hconst _ hz').2, e, lincomb_get hz, hsame]
    ring
  rw [lincomb_get hix] at hzero
  linarith

/-- **C109.** MS-SSIM detects every difference: for averaging kernels with at least two entries, all of them positive, weights that are not
negative and positive for the first and the last level, and `0 < eps < 1`, the product form is 1 exactly if the images are equal. -/
theorem C109_one_iff_equal (hi : SSIM.init pool false k1 k2 sc cr = .ok s) (hb : Built pool a m) (hm : a.kernel.isMany = true → axes.length = m)
    (hw : 2 ≤ ws.length) (h : MsCall a.kernel gp cr ws.length y1 ax axes p) (hN : sc = true → windowSize a.kernel axes.length ≠ 1)
    (h12 : y2.shape = y1.shape) (hr : axesOf y1.ndim rax = some raxes) (hrn : raxes.Nodup) (hp : MsPossible a.kernel gp cr axes k1 k2)
    (hk : PositiveKernels a.kernel axes) (hl : ∀ i < axes.length, 2 ≤ (a.kernel.entry [] i).length)
    (heps0 : 0 < eps) (heps : eps < 1) (hws : ∀ w ∈ ws, 0 ≤ w) (hw0 : 0 < ws.getD 0 0) (hw1 : 0 < ws.getD (ws.length - 1) 0)
    (hpos : ∀ k ∈ reducedAxes y1.ndim raxes, 0 < y1.shape.getD k 0) (junk : List Nat → ℝ) :
    ∃ q t, (⟨s, ws, true, eps⟩ : MsSsim).forward junk y1 y2 ax rax p = (q, .ok t) ∧ ((∀ jx, InB t.shape jx → t.get jx = 1) ↔ y1 = y2) := by
  refine ⟨_, _, C80_formula hi hb hm hw h hN h12 hr hrn true eps junk, ?_⟩
  set v : Nat → List Nat → ℝ := fun i jx => (levelScore k1 k2 (covFactor sc (windowSize a.kernel axes.length)) (scoreBlur a.kernel gp cr axes) axes
    (decide (i + 1 = ws.length)) (atLevel axes i y1) (atLevel axes i y2)).get jx with hv
  have hv1 : ∀ i < ws.length, ∀ jx, InB (onesAt axes y1.shape) jx → v i jx ≤ 1 := fun i hi' jx hjx => (msLevel_score h hp h12 hi' hjx _).2
  have hget : ∀ jx, InB (onesAt axes y1.shape) jx → (msMap true eps k1 k2 (covFactor sc (windowSize a.kernel axes.length))
      (scoreBlur a.kernel gp cr axes) axes ws y1 y2).get jx = ((List.range ws.length).map fun i => max (v i jx) eps ^ ws.getD i 0).prod := by
    intro jx hjx
    rw [msMap, get_ofFn hjx, msTotal, if_pos rfl]
    rfl
  have hfac : ∀ jx, InB (onesAt axes y1.shape) jx → ∀ u ∈ (List.range ws.length).map fun i => max (v i jx) eps ^ ws.getD i 0, 0 ≤ u ∧ u ≤ 1 := by
    intro jx hjx u hu
    obtain ⟨i, hi', rfl⟩ := List.mem_map.1 hu
    have hi' := List.mem_range.1 hi'
    have h0 : 0 ≤ max (v i jx) eps := heps0.le.trans (le_max_right _ _)
    exact ⟨Real.rpow_nonneg h0 _, Real.rpow_le_one h0 (max_le (hv1 i hi' jx hjx) heps.le) (hws _ (by simp [hi']))⟩
  have hle : ∀ ix, InB (onesAt axes y1.shape) ix → (msMap true eps k1 k2 (covFactor sc (windowSize a.kernel axes.length))
      (scoreBlur a.kernel gp cr axes) axes ws y1 y2).get ix ≤ 1 := by
    intro ix hix
    rw [hget ix hix]
    have : ∀ {l : List ℝ}, (∀ v ∈ l, 0 ≤ v ∧ v ≤ 1) → 0 ≤ l.prod ∧ l.prod ≤ 1 := by
      intro l
      induction l with
      | nil => intro _; simp
      | cons c l ih =>
        intro h
        obtain ⟨h1, h2⟩ := h c (by simp)
        obtain ⟨h3, h4⟩ := ih fun v hv => h v (by simp [hv])
        rw [List.prod_cons]
        exact ⟨mul_nonneg h1 h3, mul_le_one₀ h2 h3 h4⟩
    exact (this (hfac ix hix)).2
  rw [meanOver_eq_one hle (onesAt_pos rfl hpos)]
  constructor
  · intro hone
    have hone' : ∀ jx, InB (onesAt axes y1.shape) jx → ∀ i < ws.length, 0 < ws.getD i 0 → v i jx = 1 := by
      intro jx hjx i hi' hwi
      have h1 := hone jx hjx
      rw [hget jx hjx] at h1
      have h2 := prod_eq_one_of_le (hfac jx hjx) h1 _ (List.mem_map.2 ⟨i, List.mem_range.2 hi', rfl⟩)
      have h0 : 0 ≤ max (v i jx) eps := heps0.le.trans (le_max_right _ _)
      have h3 : max (v i jx) eps = 1 := by
        rcases lt_or_eq_of_le (max_le (hv1 i hi' jx hjx) heps.le) with h4 | h4
        · exact absurd h2 (Real.rpow_lt_one h0 h4 hwi).ne
        · exact h4
      rcases max_choice (v i jx) eps with h4 | h4
      · rw [← h4, h3]
      · rw [h4] at h3
        exact absurd h3 heps.ne
    obtain ⟨L, hL⟩ : ∃ L, ws.length = L + 2 := ⟨ws.length - 2, by omega⟩
    have h' : MsCall a.kernel gp cr (L + 1 + 1) y1 ax axes p := by rw [hL] at h; exact h
    refine levels_equal (sc := sc) h'.at hp hk hl hN h12 ?_ ?_
    · intro jx hjx
      have := hone' jx hjx 0 (by omega) hw0
      simp only [hv, hL, show ¬ (0 + 1 = L + 2) by omega, decide_false] at this
      exact this
    · intro jx hjx
      have := hone' jx hjx (L + 1) (by omega) (by rw [hL] at hw1; exact hw1)
      simp only [hv, hL, decide_true] at this
      exact this
  · rintro rfl ix hix
    rw [hget ix hix]
    apply List.prod_eq_one
    intro u hu
    obtain ⟨i, hi', rfl⟩ := List.mem_map.1 hu
    rw [show v i ix = 1 from msLevel_self h hp (List.mem_range.1 hi') hix _, max_eq_left heps.le, Real.one_rpow]

/-- **C109**, sum form: the score is the sum of the weights exactly if the images are equal. -/
theorem C109_sum (hi : SSIM.init pool false k1 k2 sc cr = .ok s) (hb : Built pool a m) (hm : a.kernel.isMany = true → axes.length = m)
    (hw : 2 ≤ ws.length) (h : MsCall a.kernel gp cr ws.length y1 ax axes p) (hN : sc = true → windowSize a.kernel axes.length ≠ 1)
    (h12 : y2.shape = y1.shape) (hr : axesOf y1.ndim rax = some raxes) (hrn : raxes.Nodup) (hp : MsPossible a.kernel gp cr axes k1 k2)
    (hk : PositiveKernels a.kernel axes) (hl : ∀ i < axes.length, 2 ≤ (a.kernel.entry [] i).length)
    (hws : ∀ w ∈ ws, 0 ≤ w) (hw0 : 0 < ws.getD 0 0) (hw1 : 0 < ws.getD (ws.length - 1) 0)
    (hpos : ∀ k ∈ reducedAxes y1.ndim raxes, 0 < y1.shape.getD k 0) (junk : List Nat → ℝ) :
    ∃ q t, (⟨s, ws, false, eps⟩ : MsSsim).forward junk y1 y2 ax rax p = (q, .ok t) ∧ ((∀ jx, InB t.shape jx → t.get jx = ws.sum) ↔ y1 = y2) := by
  refine ⟨_, _, C80_formula hi hb hm hw h hN h12 hr hrn false eps junk, ?_⟩
  set v : Nat → List Nat → ℝ := fun i jx => (levelScore k1 k2 (covFactor sc (windowSize a.kernel axes.length)) (scoreBlur a.kernel gp cr axes) axes
    (decide (i + 1 = ws.length)) (atLevel axes i y1) (atLevel axes i y2)).get jx with hv
  have hv1 : ∀ i < ws.length, ∀ jx, InB (onesAt axes y1.shape) jx → v i jx ≤ 1 := fun i hi' jx hjx => (msLevel_score h hp h12 hi' hjx _).2
  have hget : ∀ jx, InB (onesAt axes y1.shape) jx → (msMap false eps k1 k2 (covFactor sc (windowSize a.kernel axes.length))
      (scoreBlur a.kernel gp cr axes) axes ws y1 y2).get jx = ws.sum - ((List.range ws.length).map fun i => ws.getD i 0 * (1 - v i jx)).sum := by
    intro jx hjx
    rw [msMap, get_ofFn hjx, msTotal, if_neg (by simp), sum_split_sub (fun i => ws.getD i 0) (fun _ => 1) (fun i => v i jx)]
    simp only [mul_one]
    rw [sum_range_getD, sub_sub_cancel]
    congr 1
    apply List.map_congr_left
    intro i _
    rw [msLevel, msTerm, if_neg (by simp), mul_comm]
  have hnn : ∀ jx, InB (onesAt axes y1.shape) jx → ∀ u ∈ (List.range ws.length).map fun i => ws.getD i 0 * (1 - v i jx), 0 ≤ u := by
    intro jx hjx u hu
    obtain ⟨i, hi', rfl⟩ := List.mem_map.1 hu
    have hi' := List.mem_range.1 hi'
    exact mul_nonneg (hws _ (by simp [hi'])) (sub_nonneg.2 (hv1 i hi' jx hjx))
  have hle : ∀ ix, InB (onesAt axes y1.shape) ix → (msMap false eps k1 k2 (covFactor sc (windowSize a.kernel axes.length))
      (scoreBlur a.kernel gp cr axes) axes ws y1 y2).get ix ≤ ws.sum := by
    intro ix hix
    rw [hget ix hix]
    have := List.sum_nonneg (hnn ix hix)
    linarith
  rw [meanOver_eq_top hle (onesAt_pos rfl hpos)]
  constructor
  · intro hone
    have hone' : ∀ jx, InB (onesAt axes y1.shape) jx → ∀ i < ws.length, 0 < ws.getD i 0 → v i jx = 1 := by
      intro jx hjx i hi' hwi
      have h1 := hone jx hjx
      rw [hget jx hjx] at h1
      have h2 := List.single_le_sum (hnn jx hjx) _ (List.mem_map.2 ⟨i, List.mem_range.2 hi', rfl⟩)
      have h3 := hv1 i hi' jx hjx
      have h4 : ws.getD i 0 * (1 - v i jx) ≤ 0 := by linarith
      nlinarith
    obtain ⟨L, hL⟩ : ∃ L, ws.length = L + 2 := ⟨ws.length - 2, by omega⟩
    have h' : MsCall a.kernel gp cr (L + 1 + 1) y1 ax axes p := by rw [hL] at h; exact h
    refine levels_equal (sc := sc) h'.at hp hk hl hN h12 ?_ ?_
    · intro jx hjx
      have := hone' jx hjx 0 (by omega) hw0
      simp only [hv, hL, show ¬ (0 + 1 = L + 2) by omega, decide_false] at this
      exact this
    · intro jx hjx
      have := hone' jx hjx (L + 1) (by omega) (by rw [hL] at hw1; exact hw1)
      simp only [hv, hL, decide_true] at this
      exact this
  · rintro rfl ix hix
    rw [hget ix hix]
    have : ∀ u ∈ (List.range ws.length).map fun i => ws.getD i 0 * (1 - v i ix), u = 0 := by
      intro u hu
      obtain ⟨i, hi', rfl⟩ := List.mem_map.1 hu
      rw [show v i ix = 1 from msLevel_self h hp (List.mem_range.1 hi') hix _, sub_self, mul_zero]
    rw [List.sum_eq_zero this, sub_zero]

/-- **C109** for `MS_SSIM()` -/
theorem C109_gaussian (sc cr : Bool) {x y : Tensor ℝ} (hax : axesOf x.ndim ax = some axes) (hne : axes ≠ []) (hnd : axes.Nodup)
    (hsz : ∀ k ∈ axes, 176 < x.shape.getD k 0) (hxy : y.shape = x.shape) (hr : axesOf x.ndim rax = some raxes) (hrn : raxes.Nodup)
    (hk1 : k1 ≠ 0) (hk2 : k2 ≠ 0) (heps0 : 0 < eps) (heps : eps < 1) (hpos : ∀ k ∈ reducedAxes x.ndim raxes, 0 < x.shape.getD k 0)
    (junk : List Nat → ℝ) :
    ∃ s, SSIM.initGaussian k1 k2 sc cr = .ok s ∧
      (∃ q t, (⟨s, MsSsim.defaultWeights, true, eps⟩ : MsSsim).forward junk x y ax rax none = (q, .ok t) ∧
        ((∀ jx, InB t.shape jx → t.get jx = 1) ↔ x = y)) ∧
      ∃ q t, (⟨s, MsSsim.defaultWeights, false, eps⟩ : MsSsim).forward junk x y ax rax none = (q, .ok t) ∧
        ((∀ jx, InB t.shape jx → t.get jx = MsSsim.defaultWeights.sum) ↔ x = y) := by
  obtain ⟨s, pool, w, h1, h2, h3, h4, h5, h6⟩ := ssim_gaussian k1 k2 sc cr
  have hl : MsSsim.defaultWeights.length = 5 := by simp [MsSsim.defaultWeights]
  have hcall : MsCall (.one w) none cr MsSsim.defaultWeights.length x ax axes none := by
    apply msCall_one (by rintro rfl; simp at h5) hax hne hnd
    intro k hk
    have := hsz k hk
    rw [hl, h5]
    omega
  have hp : MsPossible (.one w) none cr axes k1 k2 := ⟨averages_one h4 axes, (fun _ g hg => by cases hg), hk1, hk2⟩
  have hN : sc = true → windowSize (.one w) axes.length ≠ 1 := fun _ => windowSize_ne_one (by omega) (by simpa using hne)
  have hk : PositiveKernels (.one w) axes := fun _ _ => ⟨by intro h; have h' : w = [] := h; simp [h'] at h5, h6⟩
  have hl2 : ∀ i < axes.length, 2 ≤ ((Given.one w).entry [] i).length := fun _ _ => by change 2 ≤ w.length; omega
  have hws : ∀ v ∈ MsSsim.defaultWeights, 0 ≤ v := by
    intro v hv
    simp only [MsSsim.defaultWeights, List.mem_cons, List.not_mem_nil, or_false] at hv
    rcases hv with rfl | rfl | rfl | rfl | rfl <;> norm_num
  have hw0 : 0 < MsSsim.defaultWeights.getD 0 0 := by simp only [MsSsim.defaultWeights, List.getD_cons_zero]; norm_num
  have hw1 : 0 < MsSsim.defaultWeights.getD (MsSsim.defaultWeights.length - 1) 0 := by
    rw [hl]; change (0 : ℝ) < 0.1333; norm_num
  exact ⟨s, h1, C109_one_iff_equal h2 h3 (by intro h; cases h) (by rw [hl]; omega) hcall hN hxy hr hrn hp hk hl2 heps0 heps hws hw0 hw1 hpos junk,
    C109_sum h2 h3 (by intro h; cases h) (by rw [hl]; omega) hcall hN hxy hr hrn hp hk hl2 hws hw0 hw1 hpos junk⟩

/-! ### kernels of length one

With a kernel of length one the comparison of contrast and structure is blind, and the images are compared at the last level only. -/

theorem poolSeq_unit : ∀ {ops : List (PoolOp ℝ)} {x : Tensor ℝ}, (∀ o ∈ ops, o.kernel = [1] ∧ o.stride = 1 ∧ o.axis < x.ndim ∧ 0 < x.shape.getD o.axis 0) →
    poolSeq x ops = x
  | [], _, _ => rfl
  | o :: ops, x, h => by
    obtain ⟨h1, h2, h3, h4⟩ := h o (by simp)
    have hk : o.kernel ≠ [] := by rw [h1]; simp
    have hs : (slide x o).shape = x.shape := by
      rw [slide_shape, if_neg hk, h1, h2, List.length_singleton, windowCount_one (by omega) (by omega), Nat.sub_add_cancel (by omega), set_getD_self]
    have e : slide x o = x := by
      apply ext_get hs
      intro ix hix
      rw [slide_get hk hix, h1, h2, List.length_singleton, List.range_one, List.map_singleton, List.sum_singleton]
      simp only [List.getD_cons_zero, one_mul, mul_one, Nat.add_zero, set_getD_self]
    change poolSeq (slide x o) ops = x
    rw [e]
    exact poolSeq_unit fun o' ho' => h o' (by simp [ho'])

/-- **C109**: the kernels need at least two entries.  With the kernel `[1]` two images get the score 1 as soon as they agree after all
halvings. -/
theorem C109_single_entry (hi : SSIM.init pool false k1 k2 false cr = .ok s) (hb : Built pool ⟨.one [1], .one none⟩ m)
    (hw : 2 ≤ ws.length) (h : MsCall (.one [1]) none cr ws.length y1 ax axes p)
    (h12 : y2.shape = y1.shape) (hr : axesOf y1.ndim rax = some raxes) (hrn : raxes.Nodup) (hk1 : k1 ≠ 0) (hk2 : k2 ≠ 0) (heps : eps ≤ 1)
    (hpos : ∀ k ∈ reducedAxes y1.ndim raxes, 0 < y1.shape.getD k 0) (hlast : atLevel axes (ws.length - 1) y1 = atLevel axes (ws.length - 1) y2)
    (junk : List Nat → ℝ) :
    ∃ q t, (⟨s, ws, true, eps⟩ : MsSsim).forward junk y1 y2 ax rax p = (q, .ok t) ∧ ∀ jx, InB t.shape jx → t.get jx = 1 := by
  have hp : MsPossible (.one [1]) none cr axes k1 k2 := ⟨averages_one ⟨by simp, by simp⟩ axes, (fun _ g hg => by cases hg), hk1, hk2⟩
  have hN : false = true → windowSize (Given.one [(1 : ℝ)]) axes.length ≠ 1 := by intro h; cases h
  obtain ⟨q, t, e, ht⟩ := C61_self_partial hi hb (by intro h; cases h) hw h hN hr hrn hp heps hpos junk
  refine ⟨_, _, C80_formula hi hb (by intro h; cases h) hw h hN h12 hr hrn true eps junk, ?_⟩
  rw [C80_formula hi hb (by intro h; cases h) hw h hN rfl hr hrn true eps junk] at e
  obtain ⟨L, hL⟩ : ∃ L, ws.length = L + 1 := ⟨ws.length - 1, by omega⟩
  have hat : MsAt (.one [1]) none cr L y1 axes p := by rw [hL] at h; exact h.at
  have hb : ∀ {r : Nat} {y z : Tensor ℝ}, MsAt (.one [1]) none cr r y axes p → z.shape = y.shape → scoreBlur (.one [1]) none cr axes z = z := by
    intro r y z hy hz
    have : scoreBlur (.one [1]) none cr axes z = valid (.one [1]) axes z := by rw [scoreBlur]; split_ifs <;> rfl
    rw [this]
    apply poolSeq_unit
    intro o ho
    obtain ⟨i, hi', rfl⟩ := mem_ops.1 ho
    have hm : axes.getD i 0 ∈ axes := by simp [hi']
    refine ⟨rfl, rfl, ?_, ?_⟩
    · rw [ndim, hz]; exact hy.lt _ hm
    · rw [hz]; exact hy.pos hm
  have hmap : msMap true eps k1 k2 (covFactor false (windowSize (Given.one [(1 : ℝ)]) axes.length)) (scoreBlur (.one [1]) none cr axes) axes ws y1 y2 =
      msMap true eps k1 k2 (covFactor false (windowSize (Given.one [(1 : ℝ)]) axes.length)) (scoreBlur (.one [1]) none cr axes) axes ws y1 y1 := by
    apply ofFn_congr
    intro jx _
    congr 1
    apply List.map_congr_left
    intro i hi'
    have hi' := List.mem_range.1 hi'
    rw [msLevel, msLevel]
    by_cases hil : i + 1 = ws.length
    · rw [show i = ws.length - 1 by omega, hlast]
    · obtain ⟨r, hr'⟩ : ∃ r, L = r + i := ⟨L - i, by omega⟩
      have hai : MsAt (.one [1]) none cr r (atLevel axes i y1) axes p := by rw [hr'] at hat; exact MsAt.level i hat
      have hsh : (atLevel axes i y2).shape = (atLevel axes i y1).shape := atLevel_shape_congr i h12
      congr 2
      rw [levelScore, levelScore]
      congr 1
      simp only [hil, decide_false, Bool.false_eq_true, if_false]
      rw [csMap, csMap]
      apply ofFn_congr
      intro ix hix
      rw [hb hai rfl] at hix
      have hix2 : InB (atLevel axes i y2).shape ix := by rw [hsh]; exact hix
      rw [hb hai rfl, hb hai hsh, hb hai (show (times _ _).shape = _ from rfl), hb hai (show (times (atLevel axes i y2) _).shape = _ from hsh),
        hb hai (show (times (atLevel axes i y1) _).shape = _ from rfl), times, times, times, get_ofFn hix, get_ofFn hix2, get_ofFn hix, csIndex, csIndex]
      have hc : k2 ^ 2 ≠ 0 := pow_ne_zero 2 hk2
      rw [div_eq_div_iff] <;> ring_nf <;> exact hc
  rw [hmap]
  have e2 := congrArg Prod.snd e
  cases e2
  exact ht

namespace MsOneExample

/-- 0, 1, 0, 1 -/
noncomputable def even : Tensor ℝ := Tensor.ofFn [4] fun ix => if ix.getD 0 0 % 2 = 0 then 0 else 1

/-- 1, 0, 1, 0 -/
noncomputable def odd : Tensor ℝ := Tensor.ofFn [4] fun ix => if ix.getD 0 0 % 2 = 0 then 1 else 0

theorem agree : atLevel [0] 1 even = atLevel [0] 1 odd := by
  change slide even ⟨0, [1 / 2, 1 / 2], 2⟩ = slide odd ⟨0, [1 / 2, 1 / 2], 2⟩
  have hs : (slide even ⟨0, [1 / 2, 1 / 2], 2⟩).shape = [2] := rfl
  apply ext_get (x := slide even _) (y := slide odd _) rfl
  intro ix hix
  have hix' : InB (slide odd ⟨0, [1 / 2, 1 / 2], 2⟩).shape ix := hix
  have hm : ix ∈ indices [2] := by rw [hs] at hix; exact mem_indices.2 hix
  rw [slide_get (by simp) hix, slide_get (by simp) hix']
  have : ix = [0] ∨ ix = [1] := by
    rw [show indices [2] = [[0], [1]] by decide] at hm
    simpa using hm
  rcases this with rfl | rfl <;>
  simp [List.range_succ, even, odd, get_ofFn (show InB [4] [0] by decide), get_ofFn (show InB [4] [1] by decide),
    get_ofFn (show InB [4] [2] by decide), get_ofFn (show InB [4] [3] by decide)]

theorem differ : even ≠ odd := by
  intro h
  have := congrArg (fun t => t.get [0]) h
  simp [even, odd, get_ofFn (show InB [4] [0] by decide)] at this

end MsOneExample

open MsOneExample in
/-- **C109** is false for a kernel of length one: `MS_SSIM(weights=[1/2, 1/2], blur=SeparablePoolNd([1]))` cannot tell 0, 1, 0, 1 from 1, 0, 1, 0. -/
theorem C109_single_entry_false (cr : Bool) (junk : List Nat → ℝ) : ∃ pool s, SepPool.init ((Given.one [(1 : ℝ)]).toPy PoolArgs.pyKernel) ((Given.one none).toPy PoolArgs.pyStride) = .ok pool ∧
    SSIM.init pool false (1 / 100) (3 / 100) false cr = .ok s ∧ even ≠ odd ∧
    ∃ q t, (⟨s, [1 / 2, 1 / 2], true, 1 / 1000⟩ : MsSsim).forward junk even odd (.int 0) .none none = (q, .ok t) ∧ ∀ jx, InB t.shape jx → t.get jx = 1 := by
  obtain ⟨pool, h1, h2⟩ := C30_constructor (g := (⟨.one [1], .one none⟩ : PoolArgs ℝ)) (m := 1) (by decide) ⟨trivial, trivial⟩
    (by intro s hs; simp [Given.values] at hs; simp [hs])
  obtain ⟨f, hf, _⟩ := h2.poolIs.1.toFilter
  have hi : SSIM.init pool false (1 / 100) (3 / 100) false cr = .ok ⟨f, false, 1 / 100, 3 / 100, false, cr⟩ := by simp only [SSIM.init, hf, ok_bind]
  refine ⟨pool, _, h1, hi, differ, C109_single_entry (y1 := even) (y2 := odd) (ws := [1 / 2, 1 / 2]) (eps := 1 / 1000) hi h2 (by simp) (axes := [0]) (msCall_one (by simp) rfl (by decide) (by decide) ?_) rfl rfl ?_
    (by norm_num) (by norm_num) (by norm_num) ?_ agree junk⟩
  · intro k hk
    rw [List.mem_singleton.1 hk]
    decide
  · decide
  · decide

/-! ## a concrete case meeting the hypotheses -/

/-- C109: two batches of two one-channel images of 200 x 177 pixels -/
example (x y : Tensor ℝ) (hx : x.shape = [2, 1, 200, 177]) (hy : y.shape = [2, 1, 200, 177]) (junk : List Nat → ℝ) :
    ∃ s, SSIM.initGaussian (1 / 100) (3 / 100) true true = .ok s ∧
      (∃ q t, (⟨s, MsSsim.defaultWeights, true, 1 / 100000000⟩ : MsSsim).forward junk x y (.slice (.from 2)) (.slice (.from 1)) none = (q, .ok t) ∧
        ((∀ jx, InB t.shape jx → t.get jx = 1) ↔ x = y)) ∧
      ∃ q t, (⟨s, MsSsim.defaultWeights, false, 1 / 100000000⟩ : MsSsim).forward junk x y (.slice (.from 2)) (.slice (.from 1)) none = (q, .ok t) ∧
        ((∀ jx, InB t.shape jx → t.get jx = MsSsim.defaultWeights.sum) ↔ x = y) :=
  C109_gaussian true true (axes := [2, 3]) (raxes := [1, 2, 3]) (by rw [ndim, hx]; rfl) (by decide) (by decide) (by rw [hx]; decide) (by rw [hx, hy])
    (by rw [ndim, hx]; rfl) (by decide) (by norm_num) (by norm_num) (by norm_num) (by norm_num) (by rw [ndim, hx]; decide) junk

end TI
