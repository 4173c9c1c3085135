import Verif.Proofs.SsimExclude

/-!
# SSIM with averages over original samples only: C58, C59, C60, C79, C88

`SSIM(AvgPoolNd(size, count_include_pad=False).to(padder))`: no padded value enters the averages, so that the statements that fail for
some padders hold on the whole map here.
-/

set_option linter.unusedSectionVars false

namespace TI
open Tensor Spec

section
variable {α : Type} [Field α] [LinearOrder α] [IsStrictOrderedRing α]
variable {s : SSIM α} {pool : SepPool α} {size : Given Nat} {st : Given (Option Nat)} {gp : PadArgs α} {m : Nat} {x y1 y2 : Tensor α} {ax rax : Axes}
  {axes raxes : List Nat} {k1 k2 : α} {sc cr : Bool} {p : Padder α}

theorem size_isMany (hm : size.isMany = true → axes.length = m) : (size.map (avgKernel (α := α))).isMany = true → axes.length = m := by
  rw [given_isMany_map]; exact hm

theorem exclude_averages (hc : ExcludeCall size gp x ax axes) : Averages (size.map (avgKernel (α := α))) axes := by
  intro i hi _
  rw [show (size.map (avgKernel (α := α))).entry [] i = _ from filter_kernel (α := α) size axes i]
  exact avgKernel_isAverage (hc.size_pos i hi)

theorem exclude_positive (hc : ExcludeCall size gp x ax axes) : PositiveKernels (size.map (avgKernel (α := α))) axes := by
  intro i hi
  rw [show (size.map (avgKernel (α := α))).entry [] i = _ from filter_kernel (α := α) size axes i]
  have h0 := hc.size_pos i hi
  refine ⟨by rw [← List.length_pos_iff, avgKernel_length]; exact h0, ?_⟩
  intro v hv
  rw [avgKernel] at hv
  rw [List.eq_of_mem_replicate hv]
  positivity

theorem exclude_full (hs : SsimExcl s (size.map avgKernel) m k1 k2 sc cr) (hm : (size.map (avgKernel (α := α))).isMany = true → axes.length = m)
    (hc : ExcludeCall size gp y1 ax axes) (hp : Holds p gp) (hN : sc = true → windowSize (size.map (avgKernel (α := α))) axes.length ≠ 1)
    (h12 : y2.shape = y1.shape) (junk : List Nat → α) :
    s.ssimFull junk y1 y2 (castV axes) (some p) = (padderAfter (size.map avgKernel) (some gp) y1.shape axes,
      .ok (ssimMap k1 k2 (covFactor sc (windowSize (size.map (avgKernel (α := α))) axes.length)) (localMean (size.map avgKernel) axes) y1 y2)) := by
  have e : s.scaleFactor (castV axes) = .ok (covFactor sc (windowSize (size.map (avgKernel (α := α))) axes.length)) :=
    scaleFactor_eq (s := { s with exclude := false }) hs.base hm hN
  rw [SSIM.ssimFull_eq (exclude_steady hs hm hc junk) ⟨p, rfl, hp⟩ rfl h12 e, show s.k1 = k1 from hs.base.k1_eq, show s.k2 = k2 from hs.base.k2_eq]
  rfl

/-- **C79** for averages over original samples: without cropping SSIM returns the map of the SSIM indices of the local means of both
images, their squares and their product, and its means over the reduced axes. -/
theorem C79_exclude (hi : SSIM.init pool true k1 k2 sc false = .ok s) (hb : Built pool (avgArgs α size st) m)
    (hm : size.isMany = true → axes.length = m) (hc : ExcludeCall size gp y1 ax axes) (hp : Holds p gp)
    (hN : sc = true → windowSize (size.map (avgKernel (α := α))) axes.length ≠ 1) (h12 : y2.shape = y1.shape)
    (hr : axesOf y1.ndim rax = some raxes) (hrn : raxes.Nodup) (junk : List Nat → α) :
    s.forward junk y1 y2 ax rax (some p) = (padderAfter (size.map avgKernel) (some gp) y1.shape axes,
      .ok (meanOver (ssimMap k1 k2 (covFactor sc (windowSize (size.map (avgKernel (α := α))) axes.length)) (localMean (size.map avgKernel) axes) y1 y2) raxes,
        ssimMap k1 k2 (covFactor sc (windowSize (size.map (avgKernel (α := α))) axes.length)) (localMean (size.map avgKernel) axes) y1 y2)) := by
  have hs := ssimExcl hi hb
  have hm' := size_isMany (α := α) hm
  simp only [SSIM.forward]
  rw [if_neg (by rw [h12]; simp), (checkAxes_spec hc.axes_eq).1, Run.lift_bind, (checkAxes_spec hr).1, Run.lift_bind,
    Run.bind_ok (exclude_full hs hm' hc hp hN h12 junk)]
  generalize hM : ssimMap k1 k2 (covFactor sc (windowSize (size.map (avgKernel (α := α))) axes.length)) (localMean (size.map avgKernel) axes) y1 y2 = M
  have hn : M.ndim = y1.ndim := by rw [← hM]; rfl
  have hcrop : s.cropBorder M (castV axes) (padderAfter (size.map avgKernel) (some gp) y1.shape axes) =
      (padderAfter (size.map avgKernel) (some gp) y1.shape axes, .ok M) := by
    simp only [SSIM.cropBorder, show s.crop = false from hs.base.crop]
    rfl
  have hred : s.reduce M (castV axes) (castV raxes) (padderAfter (size.map avgKernel) (some gp) y1.shape axes) =
      (padderAfter (size.map avgKernel) (some gp) y1.shape axes, .ok (meanOver M raxes)) := by
    simp only [SSIM.reduce]
    rw [Run.bind_ok hcrop, meanDims_eq (by rw [hn]; exact (checkAxes_spec hr).2) hrn]
    rfl
  rw [Run.bind_ok hred]
  rfl

/-- **C60** for averages over original samples: the cropped score is the mean of the map without padding. -/
theorem C60_exclude_partial (hi : SSIM.init pool true k1 k2 sc true = .ok s) (hb : Built pool (avgArgs α size st) m)
    (hm : size.isMany = true → axes.length = m) (hc : ExcludeCall size gp y1 ax axes) (hp : Holds p gp)
    (hk : ∀ i < axes.length, size.entry 0 i ≤ y1.shape.getD (axes.getD i 0) 0)
    (hN : sc = true → windowSize (size.map (avgKernel (α := α))) axes.length ≠ 1) (h12 : y2.shape = y1.shape)
    (hr : axesOf y1.ndim rax = some raxes) (hrn : raxes.Nodup) (junk : List Nat → α) :
    s.forward junk y1 y2 ax rax (some p) = (padderAfter (size.map avgKernel) (some gp) y1.shape axes,
      .ok (meanOver (ssimMap k1 k2 (covFactor sc (windowSize (size.map (avgKernel (α := α))) axes.length)) (valid (size.map avgKernel) axes) y1 y2) raxes,
        ssimMap k1 k2 (covFactor sc (windowSize (size.map (avgKernel (α := α))) axes.length)) (localMean (size.map avgKernel) axes) y1 y2)) := by
  have hs := ssimExcl hi hb
  have hm' := size_isMany (α := α) hm
  set f := covFactor (α := α) sc (windowSize (size.map (avgKernel (α := α))) axes.length) with hf
  have hkl : ∀ i < axes.length, ((size.map (avgKernel (α := α))).entry [] i).length ≤ y1.shape.getD (axes.getD i 0) 0 := by
    intro i hi
    rw [show (size.map (avgKernel (α := α))).entry [] i = _ from filter_kernel (α := α) size axes i, avgKernel_length]
    exact hk i hi
  have hcb : s.cropBorder (ssimMap k1 k2 f (localMean (size.map avgKernel) axes) y1 y2) (castV axes)
      (padderAfter (size.map avgKernel) (some gp) y1.shape axes) =
      (padderAfter (size.map avgKernel) (some gp) y1.shape axes, .ok (ssimMap k1 k2 f (valid (size.map avgKernel) axes) y1 y2)) := by
    refine crop_pointMap_of hs.base hc.toSameReq hkl h12 (b := localMean (size.map avgKernel) axes) rfl ?_ (ssimIndex (k1 ^ 2) (k2 ^ 2) f)
    intro x hx
    have := localMean_cropOf hs.base.pool hm' (hc.congr hx) (by rw [hx]; exact hk)
    rwa [hx] at this
  have hvn : (ssimMap k1 k2 f (valid (size.map avgKernel) axes) y1 y2).ndim = y1.ndim := poolSeq_ndim _ _
  simp only [SSIM.forward]
  rw [if_neg (by rw [h12]; simp), (checkAxes_spec hc.axes_eq).1, Run.lift_bind, (checkAxes_spec hr).1, Run.lift_bind,
    Run.bind_ok (exclude_full hs hm' hc hp hN h12 junk)]
  have hred : s.reduce (ssimMap k1 k2 f (localMean (size.map avgKernel) axes) y1 y2) (castV axes)
      (castV raxes) (padderAfter (size.map avgKernel) (some gp) y1.shape axes) = (padderAfter (size.map avgKernel) (some gp) y1.shape axes,
        .ok (meanOver (ssimMap k1 k2 f (valid (size.map avgKernel) axes) y1 y2) raxes)) := by
    simp only [SSIM.reduce]
    rw [Run.bind_ok hcb, meanDims_eq (by rw [hvn]; exact (checkAxes_spec hr).2) hrn]
    rfl
  rw [Run.bind_ok hred]
  rfl

/-! ## values -/

theorem exclude_between (hs : SsimExcl s (size.map avgKernel) m k1 k2 sc cr) (hm : (size.map (avgKernel (α := α))).isMany = true → axes.length = m)
    (hc : ExcludeCall size gp y1 ax axes) (hp : Holds p gp) (h12 : y2.shape = y1.shape) (hk1 : k1 ≠ 0) (hk2 : k2 ≠ 0) (n : Nat) :
    Between (-1) 1 (ssimMap k1 k2 (covFactor sc n) (localMean (size.map avgKernel) axes) y1 y2) := by
  intro ix hix
  have hix' : InB (localMean (size.map (avgKernel (α := α))) axes y1).shape ix := hix
  rw [ssimMap, get_ofFn hix']
  exact ssimIndex_bounds (by positivity) (by positivity) (covFactor_nonneg sc n) ((localMean_possible hs.base.pool hm hc h12 hp).possible ix hix')

theorem exclude_self (hs : SsimExcl s (size.map avgKernel) m k1 k2 sc cr) (hm : (size.map (avgKernel (α := α))).isMany = true → axes.length = m)
    (hc : ExcludeCall size gp x ax axes) (hp : Holds p gp) (hk1 : k1 ≠ 0) (hk2 : k2 ≠ 0) (n : Nat) :
    ∀ ix, InB (ssimMap k1 k2 (covFactor sc n) (localMean (size.map avgKernel) axes) x x).shape ix →
      (ssimMap k1 k2 (covFactor sc n) (localMean (size.map avgKernel) axes) x x).get ix = 1 := by
  intro ix hix
  have hix' : InB (localMean (size.map (avgKernel (α := α))) axes x).shape ix := hix
  rw [ssimMap, get_ofFn hix']
  exact ssimIndex_self (by positivity) (by positivity) (covFactor_nonneg sc n) ((localMean_possible hs.base.pool hm hc rfl hp).possible ix hix').var1

/-- the map is 1 everywhere exactly if the images are equal -/
theorem exclude_eq_one (hs : SsimExcl s (size.map avgKernel) m k1 k2 sc cr) (hm : (size.map (avgKernel (α := α))).isMany = true → axes.length = m)
    (hc : ExcludeCall size gp y1 ax axes) (hp : Holds p gp) (h12 : y2.shape = y1.shape) (hk1 : k1 ≠ 0) (hk2 : k2 ≠ 0)
    (hN : sc = true → windowSize (size.map (avgKernel (α := α))) axes.length ≠ 1) :
    (∀ ix, InB y1.shape ix →
      (ssimMap k1 k2 (covFactor sc (windowSize (size.map (avgKernel (α := α))) axes.length)) (localMean (size.map avgKernel) axes) y1 y2).get ix = 1) ↔
      y1 = y2 := by
  constructor
  · intro h1
    apply ext_get h12.symm
    intro ix hix
    have h2 := h1 ix hix
    rw [ssimMap, get_ofFn (show InB (localMean (size.map (avgKernel (α := α))) axes y1).shape ix from hix)] at h2
    have h3 := (ssimIndex_eq_one (by positivity) (by positivity) (covFactor_pos (windowSize_pos (exclude_positive hc)) hN)
      ((localMean_possible hs.base.pool hm hc h12 hp).possible ix hix)).1 h2
    simp only [localMean, times_shape, h12] at h3
    rw [get_ofFn hix, get_ofFn hix, get_ofFn hix] at h3
    have hself := self_seen hc hix
    generalize hL : seen y1.shape ((PoolArgs.filter (size.map (avgKernel (α := α)))).ops axes) ix = L at h3 hself
    have hLin : ∀ jx ∈ L, InB y1.shape jx := fun jx hj => by rw [← hL] at hj; exact (mem_seen.1 hj).1
    have hl : (L.length : α) ≠ 0 := by
      have : 0 < L.length := List.length_pos_iff.2 (by intro h0; rw [h0] at hself; cases hself)
      exact_mod_cast this.ne'
    have hsum : (L.map fun jx => (y1.get jx - y2.get jx) ^ 2).sum = 0 := by
      have e : (L.map fun jx => (y1.get jx - y2.get jx) ^ 2).sum =
          (L.map (times y1 y1).get).sum + (L.map (times y2 y2).get).sum - 2 * (L.map (times y1 y2).get).sum := by
        clear h3 hself hl hL
        induction L with
        | nil => simp
        | cons jx L ih =>
          have hj := hLin jx (by simp)
          have ih := ih fun q hq => hLin q (by simp [hq])
          have e1 : (times y1 y1).get jx = y1.get jx * y1.get jx := get_ofFn hj
          have e2 : (times y2 y2).get jx = y2.get jx * y2.get jx := get_ofFn (by rw [h12]; exact hj)
          have e3 : (times y1 y2).get jx = y1.get jx * y2.get jx := get_ofFn hj
          simp only [List.map_cons, List.sum_cons, ih, e1, e2, e3]
          ring
      rw [e]
      simp only [mean, List.length_map] at h3
      field_simp at h3
      linear_combination h3
    have h0 : (y1.get ix - y2.get ix) ^ 2 = 0 := by
      refine le_antisymm ?_ (sq_nonneg _)
      rw [← hsum]
      exact List.single_le_sum (by
        intro v hv
        obtain ⟨jx, _, rfl⟩ := List.mem_map.1 hv
        exact sq_nonneg _) _ (List.mem_map.2 ⟨ix, hself, rfl⟩)
    exact sub_eq_zero.1 (pow_eq_zero_iff two_ne_zero |>.1 h0)
  · rintro rfl
    exact exclude_self hs hm hc hp hk1 hk2 _

theorem exclude_map_pos {f : α} (hpos : ∀ k ∈ reducedAxes y1.ndim raxes, 0 < y1.shape.getD k 0) :
    ∀ k < (ssimMap k1 k2 f (localMean (size.map avgKernel) axes) y1 y2).ndim,
      k ∈ reducedAxes (ssimMap k1 k2 f (localMean (size.map avgKernel) axes) y1 y2).ndim raxes →
      0 < (ssimMap k1 k2 f (localMean (size.map avgKernel) axes) y1 y2).shape.getD k 0 := fun k _ hk => hpos k hk

/-- **C58** for averages over original samples, without cropping: map and score of an image with itself are 1. -/
theorem C58_exclude_partial (hi : SSIM.init pool true k1 k2 sc false = .ok s) (hb : Built pool (avgArgs α size st) m)
    (hm : size.isMany = true → axes.length = m) (hc : ExcludeCall size gp x ax axes) (hp : Holds p gp)
    (hN : sc = true → windowSize (size.map (avgKernel (α := α))) axes.length ≠ 1)
    (hr : axesOf x.ndim rax = some raxes) (hrn : raxes.Nodup) (hk1 : k1 ≠ 0) (hk2 : k2 ≠ 0)
    (hpos : ∀ k ∈ reducedAxes x.ndim raxes, 0 < x.shape.getD k 0) (junk : List Nat → α) :
    ∃ q score full, s.forward junk x x ax rax (some p) = (q, .ok (score, full)) ∧ (∀ ix, InB full.shape ix → full.get ix = 1) ∧
      ∀ jx, InB score.shape jx → score.get jx = 1 := by
  have hself := exclude_self (ssimExcl hi hb) (size_isMany hm) hc hp hk1 hk2 (windowSize (size.map (avgKernel (α := α))) axes.length)
  exact ⟨_, _, _, C79_exclude hi hb hm hc hp hN rfl hr hrn junk, hself, meanOver_constant hself (exclude_map_pos hpos)⟩

/-- **C58** for averages over original samples, with cropping: the map and the cropped score of an image with itself are 1. -/
theorem C58_exclude_cropped_partial (hi : SSIM.init pool true k1 k2 sc true = .ok s) (hb : Built pool (avgArgs α size st) m)
    (hm : size.isMany = true → axes.length = m) (hc : ExcludeCall size gp x ax axes) (hp : Holds p gp)
    (hk : ∀ i < axes.length, size.entry 0 i ≤ x.shape.getD (axes.getD i 0) 0)
    (hN : sc = true → windowSize (size.map (avgKernel (α := α))) axes.length ≠ 1)
    (hr : axesOf x.ndim rax = some raxes) (hrn : raxes.Nodup) (hk1 : k1 ≠ 0) (hk2 : k2 ≠ 0)
    (hpos : ∀ k ∈ reducedAxes x.ndim raxes, 0 < x.shape.getD k 0) (junk : List Nat → α) :
    ∃ q score full, s.forward junk x x ax rax (some p) = (q, .ok (score, full)) ∧ (∀ ix, InB full.shape ix → full.get ix = 1) ∧
      ∀ jx, InB score.shape jx → score.get jx = 1 := by
  have hself := exclude_self (ssimExcl hi hb) (size_isMany hm) hc hp hk1 hk2 (windowSize (size.map (avgKernel (α := α))) axes.length)
  have h : BlurCall (size.map avgKernel) none x ax axes none := ⟨rfl, hc.axes_eq, fitting_of_sizes hc.toSameReq (fun i hi => by
    rw [show (size.map (avgKernel (α := α))).entry [] i = _ from filter_kernel (α := α) size axes i, avgKernel_length]
    exact hk i hi)⟩
  have hkm : KeepsMoments (α := α) none axes := by intro g hg; cases hg
  exact ⟨_, _, _, C60_exclude_partial hi hb hm hc hp hk hN rfl hr hrn junk, hself,
    meanOver_constant (ssimMap_self h (exclude_averages hc) hkm hk1 hk2 _) (ssimMap_pos h hpos)⟩

/-- **C59** for averages over original samples, without cropping: all entries of the map and the scores lie between -1 and 1. -/
theorem C59_exclude_partial (hi : SSIM.init pool true k1 k2 sc false = .ok s) (hb : Built pool (avgArgs α size st) m)
    (hm : size.isMany = true → axes.length = m) (hc : ExcludeCall size gp y1 ax axes) (hp : Holds p gp)
    (hN : sc = true → windowSize (size.map (avgKernel (α := α))) axes.length ≠ 1) (h12 : y2.shape = y1.shape)
    (hr : axesOf y1.ndim rax = some raxes) (hrn : raxes.Nodup) (hk1 : k1 ≠ 0) (hk2 : k2 ≠ 0)
    (hpos : ∀ k ∈ reducedAxes y1.ndim raxes, 0 < y1.shape.getD k 0) (junk : List Nat → α) :
    ∃ q score full, s.forward junk y1 y2 ax rax (some p) = (q, .ok (score, full)) ∧ Between (-1) 1 full ∧ Between (-1) 1 score := by
  have hb2 := exclude_between (ssimExcl hi hb) (size_isMany hm) hc hp h12 hk1 hk2 (windowSize (size.map (avgKernel (α := α))) axes.length)
  exact ⟨_, _, _, C79_exclude hi hb hm hc hp hN h12 hr hrn junk, hb2, meanOver_between hb2 (exclude_map_pos hpos)⟩

/-- **C59** for averages over original samples, with cropping -/
theorem C59_exclude_cropped_partial (hi : SSIM.init pool true k1 k2 sc true = .ok s) (hb : Built pool (avgArgs α size st) m)
    (hm : size.isMany = true → axes.length = m) (hc : ExcludeCall size gp y1 ax axes) (hp : Holds p gp)
    (hk : ∀ i < axes.length, size.entry 0 i ≤ y1.shape.getD (axes.getD i 0) 0)
    (hN : sc = true → windowSize (size.map (avgKernel (α := α))) axes.length ≠ 1) (h12 : y2.shape = y1.shape)
    (hr : axesOf y1.ndim rax = some raxes) (hrn : raxes.Nodup) (hk1 : k1 ≠ 0) (hk2 : k2 ≠ 0)
    (hpos : ∀ k ∈ reducedAxes y1.ndim raxes, 0 < y1.shape.getD k 0) (junk : List Nat → α) :
    ∃ q score full, s.forward junk y1 y2 ax rax (some p) = (q, .ok (score, full)) ∧ Between (-1) 1 full ∧ Between (-1) 1 score := by
  have hb2 := exclude_between (ssimExcl hi hb) (size_isMany hm) hc hp h12 hk1 hk2 (windowSize (size.map (avgKernel (α := α))) axes.length)
  have h : BlurCall (size.map avgKernel) none y1 ax axes none := ⟨rfl, hc.axes_eq, fitting_of_sizes hc.toSameReq (fun i hi => by
    rw [show (size.map (avgKernel (α := α))).entry [] i = _ from filter_kernel (α := α) size axes i, avgKernel_length]
    exact hk i hi)⟩
  have hkm : KeepsMoments (α := α) none axes := by intro g hg; cases hg
  exact ⟨_, _, _, C60_exclude_partial hi hb hm hc hp hk hN h12 hr hrn junk, hb2,
    meanOver_between (ssimMap_between h (exclude_averages hc) hkm h12 hk1 hk2 _) (ssimMap_pos h hpos)⟩

/-- **C88** for averages over original samples, without cropping: the map, and the score, is 1 exactly if the images are equal. -/
theorem C88_exclude (hi : SSIM.init pool true k1 k2 sc false = .ok s) (hb : Built pool (avgArgs α size st) m)
    (hm : size.isMany = true → axes.length = m) (hc : ExcludeCall size gp y1 ax axes) (hp : Holds p gp)
    (hN : sc = true → windowSize (size.map (avgKernel (α := α))) axes.length ≠ 1) (h12 : y2.shape = y1.shape)
    (hr : axesOf y1.ndim rax = some raxes) (hrn : raxes.Nodup) (hk1 : k1 ≠ 0) (hk2 : k2 ≠ 0)
    (hpos : ∀ k ∈ reducedAxes y1.ndim raxes, 0 < y1.shape.getD k 0) (junk : List Nat → α) :
    ∃ q score full, s.forward junk y1 y2 ax rax (some p) = (q, .ok (score, full)) ∧ ((∀ ix, InB full.shape ix → full.get ix = 1) ↔ y1 = y2) ∧
      ((∀ jx, InB score.shape jx → score.get jx = 1) ↔ y1 = y2) := by
  have hs := ssimExcl hi hb
  have hmap := exclude_eq_one hs (size_isMany hm) hc hp h12 hk1 hk2 hN
  refine ⟨_, _, _, C79_exclude hi hb hm hc hp hN h12 hr hrn junk, hmap, ?_⟩
  rw [← hmap]
  exact meanOver_eq_one (fun ix hix => (exclude_between hs (size_isMany hm) hc hp h12 hk1 hk2 _ ix hix).2) (exclude_map_pos hpos)

end

namespace SsimExample

/-- `SSIM(AvgPoolNd(k, count_include_pad=False), padder, K1, K2, use_sample_covariance=False, crop_border)` -/
def runExclude (k : Int) (k1 k2 : ℚ) (crop : Bool) (y1 y2 : Tensor ℚ) (p : Option (Padder ℚ)) : Option (List ℚ × List ℚ) :=
  Except.toOption do
    let pool ← SepPool.avgInit (.leaf (some k)) (.leaf none)
    let s ← SSIM.init pool true k1 k2 false crop
    let r ← (s.forward (fun _ => 7) y1 y2 .none .none p).2
    .ok (r.1.data, r.2.data)

/-- zero filling for all axes -/
def zeroArgs : PadArgs ℚ := ⟨.one (0, 0), .one .constant, .one (0, 0), .one (0, 0), .one (none, none)⟩


/-- images `0 0 3` and `3 0 0`: on the border the window has two samples, and a padded zero is not counted.  The cropped score is the entry
in the middle, an image has score 1 with itself. -/
example : runExclude 3 1 1 true (sig [0, 0, 3]) (sig [3, 0, 0]) (some (zeroArgs.padder 1)) = some ([-1 / 5], [16 / 169, -1 / 5, 16 / 169]) ∧
    runExclude 3 1 1 false (sig [0, 0, 3]) (sig [3, 0, 0]) (some (zeroArgs.padder 1)) = some ([-3 / 845], [16 / 169, -1 / 5, 16 / 169]) ∧
    runExclude 3 1 1 false (sig [1, 0, 3]) (sig [1, 0, 3]) (some (zeroArgs.padder 1)) = some ([1], [1, 1, 1]) := by decide +kernel

theorem excludeCall_sig : ExcludeCall (.one 3) zeroArgs (sig [1, 2, 4, 9]) .none [0] where
  axes_eq := by decide
  ne := by decide
  nodup := by decide
  fits := by intro h; cases h
  rest := ⟨trivial, trivial, trivial, trivial⟩
  stride := by intro i _; exact Nat.one_pos
  pos := by decide
  valued := by
    intro o ho _
    obtain ⟨i, _, rfl⟩ := sameOps_mem ho
    exact ⟨by simp [sameSetting, AxisPad.rule?, zeroArgs, Given.entry], by simp [sameSetting, zeroArgs, Given.entry]⟩
  size_pos := by intro i _; exact Nat.succ_pos 2
  zero := by intro i _; exact ⟨rfl, rfl⟩
  order := Or.inl (by simp)

/-- C58, C59, C60, C79, C88: the hypotheses hold for `SSIM(AvgPoolNd(3, count_include_pad=False), zeros)` on four samples -/
example (y : Tensor ℚ) (hy : y.shape = [4]) (junk : List Nat → ℚ) : ∃ (pool : SepPool ℚ) (s : SSIM ℚ),
    SepPool.avgInit (.leaf (some 3)) (.leaf none) = .ok pool ∧ SSIM.init pool true (1 / 100) (3 / 100) true false = .ok s ∧
    ∃ q score full, s.forward junk (sig [1, 2, 4, 9]) y .none .none (some (zeroArgs.padder 1)) = (q, .ok (score, full)) ∧
      ((∀ ix, InB full.shape ix → full.get ix = 1) ↔ sig [1, 2, 4, 9] = y) ∧ ((∀ jx, InB score.shape jx → score.get jx = 1) ↔ sig [1, 2, 4, 9] = y) := by
  obtain ⟨pool, h1, h2, _⟩ := C34_average_kernels (α := ℚ) (size := .one 3) (st := .one none) (m := 1) (by decide) trivial trivial
    (by intro s hs; simp [Given.values] at hs; simp [hs])
  obtain ⟨f, hf, _⟩ := h2.poolIs.1.toFilter
  have hi : SSIM.init pool true (1 / 100) (3 / 100) true false = .ok (⟨f, true, 1 / 100, 3 / 100, true, false⟩ : SSIM ℚ) := by
    simp only [SSIM.init, hf, ok_bind]
  exact ⟨pool, _, h1, hi, C88_exclude (size := .one 3) (st := .one none) hi h2 (by intro h; cases h) excludeCall_sig (holds_padder _ 1)
    (fun _ => by decide) hy (raxes := [0]) (by decide) (by decide) (by norm_num) (by norm_num) (by decide) junk⟩

end SsimExample

end TI
