import Verif.Proofs.SsimOne

/-!
# SSIM is one for equal images only (C88)
-/

set_option linter.unusedSectionVars false

namespace TI
open Tensor Spec

section
variable {α : Type} [Field α] [LinearOrder α] [IsStrictOrderedRing α]

variable {s : SSIM α} {pool : SepPool α} {a : PoolArgs α} {m : Nat} {gp : Option (PadArgs α)} {x y1 y2 : Tensor α} {ax rax : Axes}
  {axes raxes : List Nat} {p q : Option (Padder α)} {k1 k2 : α} {sc cr : Bool}

/-- all kernels have entries, and all of them are positive -/
def Spec.PositiveKernels (g : Given (List α)) (axes : List Nat) : Prop :=
  ∀ i < axes.length, g.entry [] i ≠ [] ∧ ∀ v ∈ g.entry [] i, 0 < v

theorem windowSize_pos {g : Given (List α)} (hw : PositiveKernels g axes) : 0 < windowSize g axes.length := by
  rw [windowSize]
  apply List.prod_pos
  intro n hn
  obtain ⟨i, hi, rfl⟩ := List.mem_map.1 hn
  exact List.length_pos_iff.2 (hw i (List.mem_range.1 hi)).1

theorem covFactor_pos {n : Nat} (hn : 0 < n) (h1 : sc = true → n ≠ 1) : (0 : α) < covFactor sc n := by
  cases sc with
  | false => simp [covFactor]
  | true =>
    have h2 : (1 : α) < (n : α) := by
      have := h1 rfl
      have : 1 < n := by omega
      exact_mod_cast this
    rw [covFactor, if_pos rfl]
    exact div_pos (by linarith) (by linarith)

/-- the blurred moments allow no difference anywhere only if the images are equal -/
theorem blurred_apart {g : Given (List α)} (h : BlurCall g gp y1 ax axes p) (hw : PositiveKernels g axes) (hk : KeepsMoments gp axes)
    (h12 : y2.shape = y1.shape) (h0 : ∀ ix, InB (blurred g gp axes y1).shape ix →
      (blurred g gp axes (times y1 y1)).get ix + (blurred g gp axes (times y2 y2)).get ix - 2 * (blurred g gp axes (times y1 y2)).get ix = 0) :
    y1 = y2 := by
  have hw' : ∀ o ∈ (PoolArgs.filter g).ops axes, ∀ v ∈ o.kernel, 0 < v := by
    intro o ho
    obtain ⟨i, hi, rfl⟩ := List.mem_map.1 ho
    exact (hw i (List.mem_range.1 hi)).2
  have hst : ∀ o ∈ (PoolArgs.filter g).ops axes, o.stride = 1 := by
    intro o ho
    obtain ⟨i, hi, rfl⟩ := List.mem_map.1 ho
    rfl
  have hpt := possibleAt_times h12.symm
  have key : ∀ ix, InB y1.shape ix → (times y1 y1).get ix + (times y2 y2).get ix - 2 * (times y1 y2).get ix = 0 := by
    cases gp with
    | none => exact poolSeq_apart hpt h.2.2 hst hw' h0
    | some gp =>
      have hc := h.2
      have hnd : ((sameOps (PoolArgs.filter g) gp y1.shape axes).map Prod.fst).Nodup := by rw [sameOps_fst]; exact hc.nodup
      simp only [blurred, filtered, h12, times_shape] at h0
      have hpp : PossibleAt (padSeq y1 (sameOps (PoolArgs.filter g) gp y1.shape axes)) (padSeq y2 (sameOps (PoolArgs.filter g) gp y1.shape axes))
          (padSeq (times y1 y1) (sameOps (PoolArgs.filter g) gp y1.shape axes)) (padSeq (times y2 y2) (sameOps (PoolArgs.filter g) gp y1.shape axes))
          (padSeq (times y1 y2) (sameOps (PoolArgs.filter g) gp y1.shape axes)) := by
        refine padSeq_possible hnd hc.lt ?_ ?_ hpt
        · intro o ho
          obtain ⟨i, hi, rfl⟩ := sameOps_mem ho
          exact hc.pos _ (by simp [hi])
        · intro o ho
          obtain ⟨i, hi, rfl⟩ := sameOps_mem ho
          have := hk gp rfl i hi
          simpa only [AxisPad.KeepsMoments, sameSetting, PadArgs.entry] using this
      have h1 := poolSeq_apart hpp hc.poolOps.fitting hst hw' h0
      have hcr := fun t : Tensor α => fun ht : t.shape = y1.shape => padSeq_cropOf hc.opsOK hnd t (fun o ho => by
        rw [ndim, ht]; exact hc.lt o ho)
      intro ix hix
      have h2 := h1 (embed _ ix) ((hcr y1 rfl).inB hix)
      rw [(hcr (times y1 y1) rfl).get ix hix, (hcr (times y2 y2) h12).get ix (by rw [times_shape, h12]; exact hix),
        (hcr (times y1 y2) rfl).get ix hix] at h2
      exact h2
  apply ext_get h12.symm
  intro ix hix
  have h2 := key ix hix
  rw [times, times, times, get_ofFn hix, get_ofFn hix, get_ofFn (by rw [h12]; exact hix)] at h2
  have : (y1.get ix - y2.get ix) ^ 2 = 0 := by linear_combination h2
  exact sub_eq_zero.1 (pow_eq_zero_iff two_ne_zero |>.1 this)

/-- the map is 1 everywhere exactly if the images are equal -/
theorem ssimMap_eq_one {g : Given (List α)} (h : BlurCall g gp y1 ax axes p) (hav : Averages g axes) (hw : PositiveKernels g axes)
    (hk : KeepsMoments gp axes) (h12 : y2.shape = y1.shape) (hk1 : k1 ≠ 0) (hk2 : k2 ≠ 0) (hN : sc = true → windowSize g axes.length ≠ 1) :
    (∀ ix, InB (ssimMap k1 k2 (covFactor sc (windowSize g axes.length)) (blurred g gp axes) y1 y2).shape ix →
      (ssimMap k1 k2 (covFactor sc (windowSize g axes.length)) (blurred g gp axes) y1 y2).get ix = 1) ↔ y1 = y2 := by
  constructor
  · intro h1
    refine blurred_apart h hw hk h12 fun ix hix => ?_
    have h2 := h1 ix hix
    rw [ssimMap, get_ofFn hix] at h2
    exact (ssimIndex_eq_one (by positivity) (by positivity) (covFactor_pos (windowSize_pos hw) hN)
      ((blurred_possible h hav hk h12).possible ix hix)).1 h2
  · rintro rfl
    exact ssimMap_self h hav hk hk1 hk2 _

/-- means of numbers that are at most 1 are 1 exactly if all the numbers are -/
theorem meanOver_eq_one (hx : ∀ ix, InB x.shape ix → x.get ix ≤ 1) (hpos : ∀ k < x.ndim, k ∈ reducedAxes x.ndim raxes → 0 < x.shape.getD k 0) :
    (∀ jx, InB (meanOver x raxes).shape jx → (meanOver x raxes).get jx = 1) ↔ ∀ ix, InB x.shape ix → x.get ix = 1 := by
  constructor
  · intro h ix hix
    have hjx : InB (onKept (reducedAxes x.ndim raxes) x.shape) (onKept (reducedAxes x.ndim raxes) ix) := onKept_inB hix
    have h1 := h _ hjx
    rw [meanOver, get_ofFn hjx] at h1
    refine mean_eq_one ?_ ?_ h1 _ (List.mem_map.2 ⟨ix, mem_collected.2 ⟨hix, rfl⟩, rfl⟩)
    · simpa using collected_ne hpos hjx
    · intro v hv
      obtain ⟨jx, hj, rfl⟩ := List.mem_map.1 hv
      exact hx jx (mem_collected.1 hj).1
  · exact fun h => meanOver_constant h hpos

/-- **C88.** SSIM detects every difference: for averaging kernels with positive weights the score is 1 exactly if the images are equal,
and so is the map.  Without a padder or with a padder that fills with samples, means of samples or constants between 0 and 1, and without
cropping. -/
theorem C88_one_iff_equal (hi : SSIM.init pool false k1 k2 sc cr = .ok s) (hb : Built pool a m) (hm : a.kernel.isMany = true → axes.length = m)
    (h : BlurCall a.kernel gp y1 ax axes p) (hN : sc = true → windowSize a.kernel axes.length ≠ 1) (h12 : y2.shape = y1.shape)
    (hr : axesOf y1.ndim rax = some raxes) (hrn : raxes.Nodup) (hc : cr = false ∨ gp = none) (hav : Averages a.kernel axes)
    (hw : PositiveKernels a.kernel axes) (hk : KeepsMoments gp axes) (hk1 : k1 ≠ 0) (hk2 : k2 ≠ 0)
    (hpos : ∀ k ∈ reducedAxes y1.ndim raxes, 0 < y1.shape.getD k 0) (junk : List Nat → α) :
    ∃ q score full, s.forward junk y1 y2 ax rax p = (q, .ok (score, full)) ∧ ((∀ ix, InB full.shape ix → full.get ix = 1) ↔ y1 = y2) ∧
      ((∀ jx, InB score.shape jx → score.get jx = 1) ↔ y1 = y2) := by
  have hmap := ssimMap_eq_one h hav hw hk h12 hk1 hk2 hN
  refine ⟨_, _, _, C79_formula hi hb hm h hN h12 hr hrn hc junk, hmap, ?_⟩
  rw [← hmap]
  exact meanOver_eq_one (fun ix hix => (ssimMap_between (sc := sc) h hav hk h12 hk1 hk2 (windowSize a.kernel axes.length) ix hix).2) (ssimMap_pos h hpos)

/-- **C88** with cropping, for all known padding modes (except `periodize` on an axis of odd size): the cropped score is 1
exactly if the images are equal. -/
theorem C88_cropped {gp : PadArgs α} (hi : SSIM.init pool false k1 k2 sc true = .ok s) (hb : Built pool a m)
    (hm : a.kernel.isMany = true → axes.length = m) (hc : KnownCall (PoolArgs.filter a.kernel) gp y1 ax axes) {p : Padder α} (hp : Holds p gp)
    (hper : ∀ i < axes.length, (gp.mode.entry .unknown i).isPeriodize = false ∨ y1.shape.getD (axes.getD i 0) 0 % 2 = 0)
    (hk : ∀ i < axes.length, (a.kernel.entry [] i).length ≤ y1.shape.getD (axes.getD i 0) 0)
    (hN : sc = true → windowSize a.kernel axes.length ≠ 1) (h12 : y2.shape = y1.shape) (hr : axesOf y1.ndim rax = some raxes)
    (hrn : raxes.Nodup) (hav : Averages a.kernel axes) (hw : PositiveKernels a.kernel axes) (hk1 : k1 ≠ 0) (hk2 : k2 ≠ 0)
    (hpos : ∀ k ∈ reducedAxes y1.ndim raxes, 0 < y1.shape.getD k 0) (junk : List Nat → α) :
    ∃ q score full, s.forward junk y1 y2 ax rax (some p) = (q, .ok (score, full)) ∧
      ((∀ jx, InB score.shape jx → score.get jx = 1) ↔ y1 = y2) := by
  obtain ⟨q, full, h1, _⟩ := C60_cropped_score_partial hi hb hm hc hp hper hk hN h12 hr hrn junk
  have h : BlurCall a.kernel none y1 ax axes none := ⟨rfl, hc.axes_eq, fitting_of_sizes hc.toSameReq hk⟩
  have hkm : KeepsMoments (α := α) none axes := by intro g hg; cases hg
  refine ⟨q, _, full, h1, ?_⟩
  rw [← ssimMap_eq_one h hav hw hkm h12 hk1 hk2 hN]
  exact meanOver_eq_one (fun ix hix => (ssimMap_between (sc := sc) h hav hkm h12 hk1 hk2 (windowSize a.kernel axes.length) ix hix).2) (ssimMap_pos h hpos)

end

section
variable {α : Type} [Field α] [LinearOrder α] [IsStrictOrderedRing α] {axes raxes : List Nat} {ax rax : Axes}

theorem ssim_one_iff {s : SSIM α} {pool : SepPool α} {w : List α} {k1 k2 : α} {sc cr : Bool} (hi : SSIM.init pool false k1 k2 sc cr = .ok s)
    (hb : Built pool ⟨.one w, .one none⟩ 1) (hw : IsAverage w) (hwp : ∀ v ∈ w, 0 < v) (hl : 1 < w.length) {x y : Tensor α}
    (hax : axesOf x.ndim ax = some axes) (hne : axes ≠ []) (hnd : axes.Nodup) (hsz : ∀ k ∈ axes, w.length ≤ x.shape.getD k 0)
    (hxy : y.shape = x.shape) (hr : axesOf x.ndim rax = some raxes)
    (hrn : raxes.Nodup) (hk1 : k1 ≠ 0) (hk2 : k2 ≠ 0) (hpos : ∀ k ∈ reducedAxes x.ndim raxes, 0 < x.shape.getD k 0) (junk : List Nat → α) :
    ∃ q score full, s.forward junk x y ax rax none = (q, .ok (score, full)) ∧ ((∀ ix, InB full.shape ix → full.get ix = 1) ↔ x = y) ∧
      ((∀ jx, InB score.shape jx → score.get jx = 1) ↔ x = y) :=
  C88_one_iff_equal hi hb (by intro h; cases h) (blurCall_one hax hnd hsz)
    (fun _ => windowSize_ne_one hl (by simpa using hne)) hxy hr hrn (Or.inr rfl) (averages_one hw axes)
    (fun _ _ => ⟨by intro h; have h' : w = [] := h; simp [h'] at hl, hwp⟩) (by intro g hg; cases hg) hk1 hk2 hpos junk

/-- **C88** for `SSIM()` -/
theorem C88_gaussian {k1 k2 : ℝ} (sc cr : Bool) {x y : Tensor ℝ} (hax : axesOf x.ndim ax = some axes) (hne : axes ≠ []) (hnd : axes.Nodup)
    (hsz : ∀ k ∈ axes, 11 ≤ x.shape.getD k 0) (hxy : y.shape = x.shape) (hr : axesOf x.ndim rax = some raxes) (hrn : raxes.Nodup)
    (hk1 : k1 ≠ 0) (hk2 : k2 ≠ 0) (hpos : ∀ k ∈ reducedAxes x.ndim raxes, 0 < x.shape.getD k 0) (junk : List Nat → ℝ) :
    ∃ s, SSIM.initGaussian k1 k2 sc cr = .ok s ∧ ∃ q score full, s.forward junk x y ax rax none = (q, .ok (score, full)) ∧
      ((∀ ix, InB full.shape ix → full.get ix = 1) ↔ x = y) ∧ ((∀ jx, InB score.shape jx → score.get jx = 1) ↔ x = y) := by
  obtain ⟨s, pool, w, h1, h2, h3, h4, h5, h6⟩ := ssim_gaussian k1 k2 sc cr
  exact ⟨s, h1, ssim_one_iff h2 h3 h4 h6 (by omega) hax hne hnd (by rw [h5]; exact hsz) hxy hr hrn hk1 hk2 hpos junk⟩

/-- **C88** for `SSIM(blur="mean")` -/
theorem C88_mean {k1 k2 : α} (sc cr : Bool) {x y : Tensor α} (hax : axesOf x.ndim ax = some axes) (hne : axes ≠ []) (hnd : axes.Nodup)
    (hsz : ∀ k ∈ axes, 11 ≤ x.shape.getD k 0) (hxy : y.shape = x.shape) (hr : axesOf x.ndim rax = some raxes) (hrn : raxes.Nodup)
    (hk1 : k1 ≠ 0) (hk2 : k2 ≠ 0) (hpos : ∀ k ∈ reducedAxes x.ndim raxes, 0 < x.shape.getD k 0) (junk : List Nat → α) :
    ∃ s, SSIM.initMean k1 k2 sc cr = .ok s ∧ ∃ q score full, s.forward junk x y ax rax none = (q, .ok (score, full)) ∧
      ((∀ ix, InB full.shape ix → full.get ix = 1) ↔ x = y) ∧ ((∀ jx, InB score.shape jx → score.get jx = 1) ↔ x = y) := by
  obtain ⟨s, pool, w, h1, h2, h3, h4, h5, h6⟩ := ssim_mean k1 k2 sc cr
  exact ⟨s, h1, ssim_one_iff h2 h3 h4 h6 (by omega) hax hne hnd (by rw [h5]; exact hsz) hxy hr hrn hk1 hk2 hpos junk⟩

end

/-- C88: `SSIM()` on two batches of shape (2, 3, 16, 20), one score per image -/
example (x y : Tensor ℝ) (hx : x.shape = [2, 3, 16, 20]) (hy : y.shape = [2, 3, 16, 20]) (junk : List Nat → ℝ) :
    ∃ s, SSIM.initGaussian (1 / 100) (3 / 100) true false = .ok s ∧ ∃ q score full,
      s.forward junk x y (.seq [2, 3]) (.seq [1, 2, 3]) none = (q, .ok (score, full)) ∧
      ((∀ ix, InB full.shape ix → full.get ix = 1) ↔ x = y) ∧ ((∀ jx, InB score.shape jx → score.get jx = 1) ↔ x = y) := by
  have hn : x.ndim = 4 := by simp [ndim, hx]
  refine C88_gaussian (axes := [2, 3]) (raxes := [1, 2, 3]) true false (by rw [hn]; rfl) (by simp) (by decide) ?_ (by rw [hx, hy]) (by rw [hn]; rfl)
    (by decide) (by norm_num) (by norm_num) ?_ junk
  · intro k hk
    rw [hx]
    simp only [List.mem_cons, List.not_mem_nil, or_false] at hk
    rcases hk with rfl | rfl <;> decide
  · intro k hk
    rw [hx]
    rw [hn] at hk
    simp only [reducedAxes, List.cons_ne_nil, if_false, List.mem_cons, List.not_mem_nil, or_false] at hk
    rcases hk with rfl | rfl | rfl <;> decide

end TI
