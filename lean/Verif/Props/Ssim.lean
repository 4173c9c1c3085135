import Verif.Proofs.SsimQuiet
import Verif.Props.Gaussian
import Verif.Props.PoolMore

/-!
# Properties of SSIM (C57, C58, C59, C60, C79)
-/

set_option linter.unusedSectionVars false

namespace TI
open Tensor Spec

section
variable {α : Type} [Field α] [LinearOrder α] [IsStrictOrderedRing α]

variable {s : SSIM α} {pool : SepPool α} {a : PoolArgs α} {m : Nat} {gp : Option (PadArgs α)} {x y1 y2 : Tensor α} {ax rax : Axes}
  {axes raxes : List Nat} {p q : Option (Padder α)} {k1 k2 : α} {sc cr : Bool}

/-! ## C57 -/

theorem ssim_forward_swap {junk : List Nat → α} {r : Tensor α × Tensor α} (h : s.forward junk y1 y2 ax rax p = (q, .ok r)) :
    s.forward junk y2 y1 ax rax p = (q, .ok r) := by
  simp only [SSIM.forward] at h ⊢
  split_ifs at h with hs
  · obtain ⟨_, h⟩ := Run.lift_apply_inv h
    cases h
  · rw [not_not] at hs
    rw [if_neg (by simp [hs]), ndim, ← hs]
    obtain ⟨c, e1, h⟩ := Run.lift_inv h
    obtain ⟨r', e2, h⟩ := Run.lift_inv h
    obtain ⟨p1, f, e3, h⟩ := Run.bind_inv h
    rw [ndim] at e1 e2
    rw [e1, Run.lift_bind, e2, Run.lift_bind, Run.bind_ok (SSIM.ssimFull_swap e3)]
    exact h

/-- **C57.** SSIM is symmetric: if a call succeeds, the call with the images exchanged returns the same score and the same map, and
leaves the padder in the same state.  For all blurs (also averages over original samples), padders, constants and axes. -/
theorem C57_symmetric (s : SSIM α) (junk : List Nat → α) (y1 y2 : Tensor α) (ax rax : Axes) (p q : Option (Padder α)) (r : Tensor α × Tensor α) :
    s.forward junk y1 y2 ax rax p = (q, .ok r) ↔ s.forward junk y2 y1 ax rax p = (q, .ok r) :=
  ⟨ssim_forward_swap, ssim_forward_swap⟩

/-- **C57**: images of different shapes are rejected, before the padder is touched. -/
theorem C57_rejects_shapes (s : SSIM α) (junk : List Nat → α) (h : y1.shape ≠ y2.shape) (ax rax : Axes) (p : Option (Padder α)) :
    s.forward junk y1 y2 ax rax p = (p, .error .assertion) := by
  simp only [SSIM.forward]
  rw [if_pos h]
  rfl

/-! ## C79: the formula -/

/-- **C79.** Without cropping (no padder, or `crop_border=False`) SSIM returns the map of SSIM indices of the blurred images, squares and
product, and its means over the reduced axes. -/
theorem C79_formula (hi : SSIM.init pool false k1 k2 sc cr = .ok s) (hb : Built pool a m) (hm : a.kernel.isMany = true → axes.length = m)
    (h : BlurCall a.kernel gp y1 ax axes p) (hN : sc = true → windowSize a.kernel axes.length ≠ 1) (h12 : y2.shape = y1.shape)
    (hr : axesOf y1.ndim rax = some raxes) (hrn : raxes.Nodup) (hc : cr = false ∨ gp = none) (junk : List Nat → α) :
    s.forward junk y1 y2 ax rax p = (padderAfter a.kernel gp y1.shape axes,
      .ok (meanOver (ssimMap k1 k2 (covFactor sc (windowSize a.kernel axes.length)) (blurred a.kernel gp axes) y1 y2) raxes,
        ssimMap k1 k2 (covFactor sc (windowSize a.kernel axes.length)) (blurred a.kernel gp axes) y1 y2)) :=
  ssim_forward_uncropped (ssimOf hi hb) hm h hN h12 hr hrn hc junk

/-- **C79**: without a padder the map is made of weighted window sums: the entry at a position is the SSIM index of the weighted sums,
over the window there, of both images, their squares and their product. -/
theorem C79_windows (hi : SSIM.init pool false k1 k2 sc cr = .ok s) (hb : Built pool a m) (hm : a.kernel.isMany = true → axes.length = m)
    (hax : axesOf y1.ndim ax = some axes) (hnd : axes.Nodup) (hk : ∀ i < axes.length, a.kernel.entry [] i ≠ [])
    (hsz : ∀ i < axes.length, (a.kernel.entry [] i).length ≤ y1.shape.getD (axes.getD i 0) 0)
    (hN : sc = true → windowSize a.kernel axes.length ≠ 1) (h12 : y2.shape = y1.shape)
    (hr : axesOf y1.ndim rax = some raxes) (hrn : raxes.Nodup) (junk : List Nat → α) :
    ∃ score full, s.forward junk y1 y2 ax rax none = (none, .ok (score, full)) ∧ score = meanOver full raxes ∧
      full.shape = (corrNd y1 ((PoolArgs.filter a.kernel).ops axes)).shape ∧ ∀ ix, InB full.shape ix →
        full.get ix = ssimIndex (k1 ^ 2) (k2 ^ 2) (covFactor sc (windowSize a.kernel axes.length))
          ((corrNd y1 ((PoolArgs.filter a.kernel).ops axes)).get ix) ((corrNd y2 ((PoolArgs.filter a.kernel).ops axes)).get ix)
          ((corrNd (times y1 y1) ((PoolArgs.filter a.kernel).ops axes)).get ix)
          ((corrNd (times y2 y2) ((PoolArgs.filter a.kernel).ops axes)).get ix)
          ((corrNd (times y1 y2) ((PoolArgs.filter a.kernel).ops axes)).get ix) := by
  have hpo : ∀ x : Tensor α, x.shape = y1.shape → PoolOps x ((PoolArgs.filter a.kernel).ops axes) := by
    intro x hx
    have hb' : PoolArgs.Valid (PoolArgs.filter a.kernel) := by
      intro t ht
      simp only [PoolArgs.filter, Given.values, List.mem_singleton] at ht
      rw [ht]; simp
    refine poolOps_of hb' ?_ hnd ?_ ?_
    · exact (ssimOf hi hb).pool.fits_axes (by rw [filter_isMany]; exact hm)
    · rw [ndim, hx]
      exact (checkAxes_spec hax).2
    · intro o ho
      obtain ⟨i, hi, rfl⟩ := List.mem_map.1 ho
      rw [hx]
      exact hsz i (List.mem_range.1 hi)
  have hker : ∀ o ∈ (PoolArgs.filter a.kernel).ops axes, o.kernel ≠ [] := by
    intro o ho
    obtain ⟨i, hi, rfl⟩ := List.mem_map.1 ho
    exact hk i (List.mem_range.1 hi)
  have e : ∀ x : Tensor α, x.shape = y1.shape → blurred a.kernel none axes x = corrNd x ((PoolArgs.filter a.kernel).ops axes) :=
    fun x hx => poolSeq_eq_corrNd (hpo x hx) hker
  refine ⟨_, _, C79_formula hi hb hm (gp := none) ⟨rfl, hax, (hpo y1 rfl).fitting⟩ hN h12 hr hrn (Or.inr rfl) junk, rfl, ?_, ?_⟩
  · rw [← e y1 rfl]; rfl
  · intro ix hix
    have hix' : InB (blurred a.kernel none axes y1).shape ix := hix
    rw [ssimMap, get_ofFn hix', e y1 rfl, e y2 h12, e (times y1 y1) rfl, e (times y2 y2) h12, e (times y1 y2) rfl]

/-! ## C60 -/

/-- a same-padded filter keeps the shape -/
theorem blur_shape_kept {gp : PadArgs α} {g : Given (List α)} (hc : SameCall (PoolArgs.filter g) gp x ax axes)
    (hper : ∀ i < axes.length, (gp.mode.entry .unknown i).isPeriodize = false ∨ x.shape.getD (axes.getD i 0) 0 % 2 = 0) :
    (filtered g gp x axes).shape = x.shape := filter_shape_kept hc.toSameReq hc.paddedShape hper

/-- `_crop_border` of a map: the same function of the images blurred without padding -/
theorem crop_pointMap {gp : PadArgs α} {g : Given (List α)} (hs : SsimOf s g m k1 k2 sc true)
    (hc : SameCall (PoolArgs.filter g) gp y1 ax axes)
    (hper : ∀ i < axes.length, (gp.mode.entry .unknown i).isPeriodize = false ∨ y1.shape.getD (axes.getD i 0) 0 % 2 = 0)
    (hk : ∀ i < axes.length, (g.entry [] i).length ≤ y1.shape.getD (axes.getD i 0) 0) (h12 : y2.shape = y1.shape)
    (F : α → α → α → α → α → α) :
    (pointMap F (blurred g (some gp) axes) y1 y2).shape = y1.shape ∧
    s.cropBorder (pointMap F (blurred g (some gp) axes) y1 y2) (castV axes) (padderAfter g (some gp) y1.shape axes) =
      (padderAfter g (some gp) y1.shape axes, .ok (pointMap F (valid g axes) y1 y2)) := by
  have hsh : (filtered g gp y1 axes).shape = y1.shape := blur_shape_kept hc hper
  refine ⟨hsh, crop_pointMap_of hs hc.toSameReq hk h12 hsh ?_ F⟩
  intro x hx
  have := filtered_cropOf (hc.congr hx) (fitting_of_sizes (hc.congr hx).toSameReq (by rw [hx]; exact hk))
  rwa [hx] at this

/-- **C60.** With `crop_border=True` and a same padder in any known modes (also the modes `"empty"` and `"zeros"`, which write nothing; except
`periodize` on an axis of odd size, see `C60_periodize_false`) the score is computed from the map without padding: it is the mean of the SSIM
map without padding.  The kernels must not be longer than the axes (otherwise there is no score without padding). -/
theorem C60_cropped_score_partial {gp : PadArgs α} (hi : SSIM.init pool false k1 k2 sc true = .ok s) (hb : Built pool a m)
    (hm : a.kernel.isMany = true → axes.length = m) (hc : KnownCall (PoolArgs.filter a.kernel) gp y1 ax axes) {p : Padder α} (hp : Holds p gp)
    (hper : ∀ i < axes.length, (gp.mode.entry .unknown i).isPeriodize = false ∨ y1.shape.getD (axes.getD i 0) 0 % 2 = 0)
    (hk : ∀ i < axes.length, (a.kernel.entry [] i).length ≤ y1.shape.getD (axes.getD i 0) 0)
    (hN : sc = true → windowSize a.kernel axes.length ≠ 1) (h12 : y2.shape = y1.shape)
    (hr : axesOf y1.ndim rax = some raxes) (hrn : raxes.Nodup) (junk : List Nat → α) :
    ∃ q full, s.forward junk y1 y2 ax rax (some p) = (q, .ok
      (meanOver (ssimMap k1 k2 (covFactor sc (windowSize a.kernel axes.length)) (valid a.kernel axes) y1 y2) raxes, full)) ∧
      full.shape = y1.shape := by
  have hs := ssimOf hi hb
  set f := covFactor (α := α) sc (windowSize a.kernel axes.length) with hf
  have hsh : (quietFiltered a.kernel gp junk axes y1).shape = y1.shape := quietFiltered_shape hc junk hper
  have hcb : s.cropBorder (ssimMap k1 k2 f (quietFiltered a.kernel gp junk axes) y1 y2) (castV axes) (padderAfter a.kernel (some gp) y1.shape axes) =
      (padderAfter a.kernel (some gp) y1.shape axes, .ok (ssimMap k1 k2 f (valid a.kernel axes) y1 y2)) := by
    refine crop_pointMap_of hs hc.toSameReq hk h12 hsh ?_ (ssimIndex (k1 ^ 2) (k2 ^ 2) f)
    intro x hx
    have := quietFiltered_cropOf (hc.congr hx) junk (fitting_of_sizes (hc.congr hx).toSameReq (by rw [hx]; exact hk))
    rwa [hx] at this
  have hvn : (ssimMap k1 k2 f (valid a.kernel axes) y1 y2).ndim = y1.ndim := poolSeq_ndim _ _
  have hfull : s.ssimFull junk y1 y2 (castV axes) (some p) = (padderAfter a.kernel (some gp) y1.shape axes,
      .ok (ssimMap k1 k2 f (quietFiltered a.kernel gp junk axes) y1 y2)) := by
    rw [SSIM.ssimFull_eq (quiet_steady hs hm hc junk hper) ⟨p, rfl, hp⟩ rfl h12 (scaleFactor_eq hs hm hN), hs.k1_eq, hs.k2_eq, ssimMap, hsh]
  refine ⟨padderAfter a.kernel (some gp) y1.shape axes, ssimMap k1 k2 f (quietFiltered a.kernel gp junk axes) y1 y2, ?_, hsh⟩
  simp only [SSIM.forward]
  rw [if_neg (by rw [h12]; simp), (checkAxes_spec hc.axes_eq).1, Run.lift_bind, (checkAxes_spec hr).1, Run.lift_bind, Run.bind_ok hfull]
  have hred : s.reduce (ssimMap k1 k2 f (quietFiltered a.kernel gp junk axes) y1 y2) (castV axes)
      (castV raxes) (padderAfter a.kernel (some gp) y1.shape axes) = (padderAfter a.kernel (some gp) y1.shape axes,
        .ok (meanOver (ssimMap k1 k2 f (valid a.kernel axes) y1 y2) raxes)) := by
    simp only [SSIM.reduce]
    rw [Run.bind_ok hcb, meanDims_eq (by rw [hvn]; exact (checkAxes_spec hr).2) hrn]
    rfl
  rw [Run.bind_ok hred]
  rfl

/-- **C60**: with `crop_border=True` the score with a same padder equals the score without any padding. -/
theorem C60_padding_irrelevant_partial {gp : PadArgs α} (hi : SSIM.init pool false k1 k2 sc true = .ok s) (hb : Built pool a m)
    (hm : a.kernel.isMany = true → axes.length = m) (hc : KnownCall (PoolArgs.filter a.kernel) gp y1 ax axes) {p : Padder α} (hp : Holds p gp)
    (hper : ∀ i < axes.length, (gp.mode.entry .unknown i).isPeriodize = false ∨ y1.shape.getD (axes.getD i 0) 0 % 2 = 0)
    (hk : ∀ i < axes.length, (a.kernel.entry [] i).length ≤ y1.shape.getD (axes.getD i 0) 0)
    (hN : sc = true → windowSize a.kernel axes.length ≠ 1) (h12 : y2.shape = y1.shape)
    (hr : axesOf y1.ndim rax = some raxes) (hrn : raxes.Nodup) (junk : List Nat → α) :
    ∃ score full full' q, s.forward junk y1 y2 ax rax (some p) = (q, .ok (score, full)) ∧
      s.forward junk y1 y2 ax rax none = (none, .ok (score, full')) := by
  obtain ⟨q, full, h1, _⟩ := C60_cropped_score_partial hi hb hm hc hp hper hk hN h12 hr hrn junk
  exact ⟨_, _, _, _, h1, C79_formula hi hb hm (gp := none) ⟨rfl, hc.axes_eq, fitting_of_sizes hc.toSameReq hk⟩ hN h12 hr hrn (Or.inr rfl) junk⟩

/-! ## C58, C59 -/

/-- the kernels of the content axes are averages -/
def Spec.Averages (g : Given (List α)) (axes : List Nat) : Prop := ∀ i < axes.length, g.entry [] i ≠ [] → IsAverage (g.entry [] i)

theorem blurred_possible {g : Given (List α)} (h : BlurCall g gp y1 ax axes p) (hav : Averages g axes) (hk : KeepsMoments gp axes)
    (h12 : y2.shape = y1.shape) :
    PossibleAt (blurred g gp axes y1) (blurred g gp axes y2) (blurred g gp axes (times y1 y1)) (blurred g gp axes (times y2 y2))
      (blurred g gp axes (times y1 y2)) := by
  have hav' : ∀ o ∈ (PoolArgs.filter g).ops axes, o.kernel ≠ [] → IsAverage o.kernel := by
    intro o ho hne
    obtain ⟨i, hi, rfl⟩ := List.mem_map.1 ho
    exact hav i (List.mem_range.1 hi) hne
  have hpt := possibleAt_times h12.symm
  cases gp with
  | none => exact poolSeq_possible hpt hav' h.2.2
  | some gp =>
    have hc := h.2
    have hnd : ((sameOps (PoolArgs.filter g) gp y1.shape axes).map Prod.fst).Nodup := by rw [sameOps_fst]; exact hc.nodup
    simp only [blurred, filtered, h12, times_shape]
    refine poolSeq_possible (padSeq_possible hnd hc.lt ?_ ?_ hpt) hav' hc.poolOps.fitting
    · intro o ho
      obtain ⟨i, hi, rfl⟩ := sameOps_mem ho
      exact hc.pos _ (by simp [hi])
    · intro o ho
      obtain ⟨i, hi, rfl⟩ := sameOps_mem ho
      have := hk gp rfl i hi
      simpa only [AxisPad.KeepsMoments, sameSetting, PadArgs.entry] using this

theorem ssimMap_between {g : Given (List α)} (h : BlurCall g gp y1 ax axes p) (hav : Averages g axes) (hk : KeepsMoments gp axes)
    (h12 : y2.shape = y1.shape) (hk1 : k1 ≠ 0) (hk2 : k2 ≠ 0) (n : Nat) :
    Between (-1) 1 (ssimMap k1 k2 (covFactor sc n) (blurred g gp axes) y1 y2) := by
  intro ix hix
  have hix' : InB (blurred g gp axes y1).shape ix := hix
  rw [ssimMap, get_ofFn hix']
  exact ssimIndex_bounds (by positivity) (by positivity) (covFactor_nonneg sc n) ((blurred_possible h hav hk h12).possible ix hix')

theorem csMap_between {g : Given (List α)} (h : BlurCall g gp y1 ax axes p) (hav : Averages g axes) (hk : KeepsMoments gp axes)
    (h12 : y2.shape = y1.shape) (hk2 : k2 ≠ 0) (n : Nat) :
    Between (-1) 1 (csMap k2 (covFactor sc n) (blurred g gp axes) y1 y2) := by
  intro ix hix
  have hix' : InB (blurred g gp axes y1).shape ix := hix
  rw [csMap, get_ofFn hix']
  exact csIndex_bounds (by positivity) (covFactor_nonneg sc n) ((blurred_possible h hav hk h12).possible ix hix')

theorem ssimMap_self {g : Given (List α)} (h : BlurCall g gp y1 ax axes p) (hav : Averages g axes) (hk : KeepsMoments gp axes)
    (hk1 : k1 ≠ 0) (hk2 : k2 ≠ 0) (n : Nat) : ∀ ix, InB (ssimMap k1 k2 (covFactor sc n) (blurred g gp axes) y1 y1).shape ix →
      (ssimMap k1 k2 (covFactor sc n) (blurred g gp axes) y1 y1).get ix = 1 := by
  intro ix hix
  have hix' : InB (blurred g gp axes y1).shape ix := hix
  rw [ssimMap, get_ofFn hix']
  exact ssimIndex_self (by positivity) (by positivity) (covFactor_nonneg sc n) ((blurred_possible h hav hk rfl).possible ix hix').var1

theorem csMap_self {g : Given (List α)} (h : BlurCall g gp y1 ax axes p) (hav : Averages g axes) (hk : KeepsMoments gp axes)
    (hk2 : k2 ≠ 0) (n : Nat) : ∀ ix, InB (csMap k2 (covFactor sc n) (blurred g gp axes) y1 y1).shape ix →
      (csMap k2 (covFactor sc n) (blurred g gp axes) y1 y1).get ix = 1 := by
  intro ix hix
  have hix' : InB (blurred g gp axes y1).shape ix := hix
  rw [csMap, get_ofFn hix']
  exact csIndex_self (by positivity) (covFactor_nonneg sc n) ((blurred_possible h hav hk rfl).possible ix hix').var1

/-- means of entries between bounds -/
theorem meanOver_between {lo hi : α} (hx : Between lo hi x) (hpos : ∀ k < x.ndim, k ∈ reducedAxes x.ndim raxes → 0 < x.shape.getD k 0) :
    Between lo hi (meanOver x raxes) := by
  intro jx hjx
  have hjx' : InB (onKept (reducedAxes x.ndim raxes) x.shape) jx := hjx
  rw [meanOver, get_ofFn hjx']
  apply mean_between
  · simpa using collected_ne hpos hjx'
  · intro v hv
    obtain ⟨ix, hix, rfl⟩ := List.mem_map.1 hv
    exact hx ix (mem_collected.1 hix).1

theorem meanOver_constant {c : α} (hx : ∀ ix, InB x.shape ix → x.get ix = c) (hpos : ∀ k < x.ndim, k ∈ reducedAxes x.ndim raxes → 0 < x.shape.getD k 0) :
    ∀ jx, InB (meanOver x raxes).shape jx → (meanOver x raxes).get jx = c := by
  intro jx hjx
  have h := meanOver_between (lo := c) (hi := c) (fun ix hix => ⟨(hx ix hix).ge, (hx ix hix).le⟩) hpos jx hjx
  exact le_antisymm h.2 h.1

theorem poolSeq_pos : ∀ {ops : List (PoolOp α)} {x : Tensor α}, Fitting x ops → (∀ o ∈ ops, o.kernel ≠ [] → o.stride ≠ 0) → ∀ k,
    0 < x.shape.getD k 0 → 0 < (poolSeq x ops).shape.getD k 0
  | [], _, _, _, _, hx => hx
  | o :: ops, x, hf, hst, k, hx => by
    have hf' : _ ∧ _ := hf
    change 0 < (poolSeq (slide x o) ops).shape.getD k 0
    apply poolSeq_pos hf'.2 (fun q hq => hst q (by simp [hq]))
    rw [slide_shape]
    split_ifs with hk
    · exact hx
    · obtain ⟨h1, h2, h3⟩ := hf'.1 hk
      by_cases hko : k = o.axis
      · subst hko
        rw [getD_set_self _ _ _ _ h1, windowCount_eq h2]
        have : 0 < o.kernel.length := List.length_pos_iff.2 hk
        rw [if_pos (by omega)]
        exact Nat.succ_pos _
      · rw [getD_set_ne _ _ _ _ _ hko]
        exact hx

theorem blurred_pos {g : Given (List α)} (h : BlurCall g gp y1 ax axes p) {k : Nat} (hk : 0 < y1.shape.getD k 0) :
    0 < (blurred g gp axes y1).shape.getD k 0 := by
  have hst : ∀ o ∈ (PoolArgs.filter g).ops axes, o.kernel ≠ [] → o.stride ≠ 0 := by
    intro o ho _
    obtain ⟨i, _, rfl⟩ := List.mem_map.1 ho
    exact Nat.one_ne_zero
  cases gp with
  | none => exact poolSeq_pos h.2.2 hst k hk
  | some gp =>
    have hc := h.2
    have hnd : ((sameOps (PoolArgs.filter g) gp y1.shape axes).map Prod.fst).Nodup := by rw [sameOps_fst]; exact hc.nodup
    apply poolSeq_pos hc.poolOps.fitting hst
    rw [padSeq_shape hc.opsOK hnd y1 hc.lt]
    cases settingAt (sameOps (PoolArgs.filter g) gp y1.shape axes) k with
    | none => exact hk
    | some t => simp only; omega

theorem ssimMap_pos {g : Given (List α)} (h : BlurCall g gp y1 ax axes p) {f : α}
    (hpos : ∀ k ∈ reducedAxes y1.ndim raxes, 0 < y1.shape.getD k 0) :
    ∀ k < (ssimMap k1 k2 f (blurred g gp axes) y1 y2).ndim, k ∈ reducedAxes (ssimMap k1 k2 f (blurred g gp axes) y1 y2).ndim raxes →
      0 < (ssimMap k1 k2 f (blurred g gp axes) y1 y2).shape.getD k 0 := by
  intro k _ hk
  rw [ssimMap_ndim h] at hk
  exact blurred_pos h (hpos k hk)

/-- **C58.** The SSIM map of an image with itself is 1 everywhere, and so is the score, for kernels that are averages, without a padder
or with a padder that fills with samples, means of samples or constants between 0 and 1, and without cropping.  (For other padders see
`C58_cropped_partial` for the cropped score and `C58_padding_false` for the map.) -/
theorem C58_self_partial (hi : SSIM.init pool false k1 k2 sc cr = .ok s) (hb : Built pool a m) (hm : a.kernel.isMany = true → axes.length = m)
    (h : BlurCall a.kernel gp x ax axes p) (hN : sc = true → windowSize a.kernel axes.length ≠ 1)
    (hr : axesOf x.ndim rax = some raxes) (hrn : raxes.Nodup) (hc : cr = false ∨ gp = none) (hav : Averages a.kernel axes)
    (hk : KeepsMoments gp axes) (hk1 : k1 ≠ 0) (hk2 : k2 ≠ 0) (hpos : ∀ k ∈ reducedAxes x.ndim raxes, 0 < x.shape.getD k 0) (junk : List Nat → α) :
    ∃ q score full, s.forward junk x x ax rax p = (q, .ok (score, full)) ∧ (∀ ix, InB full.shape ix → full.get ix = 1) ∧
      ∀ jx, InB score.shape jx → score.get jx = 1 := by
  refine ⟨_, _, _, C79_formula hi hb hm h hN rfl hr hrn hc junk, ssimMap_self h hav hk hk1 hk2 _, ?_⟩
  exact meanOver_constant (ssimMap_self h hav hk hk1 hk2 _) (ssimMap_pos h hpos)

/-- **C58** with cropping: the score of an image with itself is 1 for all known padding modes (except `periodize` on an
axis of odd size), if the kernels are not longer than the axes. -/
theorem C58_cropped_partial {gp : PadArgs α} (hi : SSIM.init pool false k1 k2 sc true = .ok s) (hb : Built pool a m)
    (hm : a.kernel.isMany = true → axes.length = m) (hc : KnownCall (PoolArgs.filter a.kernel) gp x ax axes) {p : Padder α} (hp : Holds p gp)
    (hper : ∀ i < axes.length, (gp.mode.entry .unknown i).isPeriodize = false ∨ x.shape.getD (axes.getD i 0) 0 % 2 = 0)
    (hk : ∀ i < axes.length, (a.kernel.entry [] i).length ≤ x.shape.getD (axes.getD i 0) 0)
    (hN : sc = true → windowSize a.kernel axes.length ≠ 1) (hr : axesOf x.ndim rax = some raxes) (hrn : raxes.Nodup)
    (hav : Averages a.kernel axes) (hk1 : k1 ≠ 0) (hk2 : k2 ≠ 0) (hpos : ∀ k ∈ reducedAxes x.ndim raxes, 0 < x.shape.getD k 0)
    (junk : List Nat → α) :
    ∃ q score full, s.forward junk x x ax rax (some p) = (q, .ok (score, full)) ∧ ∀ jx, InB score.shape jx → score.get jx = 1 := by
  obtain ⟨q, full, h1, _⟩ := C60_cropped_score_partial hi hb hm hc hp hper hk hN rfl hr hrn junk
  have h : BlurCall a.kernel none x ax axes none := ⟨rfl, hc.axes_eq, fitting_of_sizes hc.toSameReq hk⟩
  have hkm : KeepsMoments (α := α) none axes := by intro g hg; cases hg
  exact ⟨q, _, full, h1, meanOver_constant (ssimMap_self h hav hkm hk1 hk2 _) (ssimMap_pos h hpos)⟩

/-- **C58**, for all padders, kernels and constants: an entry of the map of an image with itself is 1 unless its denominator is 0. -/
theorem C58_map_any_padding_partial (hi : SSIM.init pool false k1 k2 sc cr = .ok s) (hb : Built pool a m)
    (hm : a.kernel.isMany = true → axes.length = m) (h : BlurCall a.kernel gp x ax axes p)
    (hN : sc = true → windowSize a.kernel axes.length ≠ 1) (junk : List Nat → α) :
    ∃ q full, s.ssimFull junk x x (castV axes) p = (q, .ok full) ∧ ∀ ix, InB full.shape ix → full.get ix = 1 ∨
      2 * (blurred a.kernel gp axes x).get ix ^ 2 + k1 ^ 2 = 0 ∨
      2 * (covFactor sc (windowSize a.kernel axes.length) *
        ((blurred a.kernel gp axes (times x x)).get ix - (blurred a.kernel gp axes x).get ix ^ 2)) + k2 ^ 2 = 0 := by
  refine ⟨_, _, ssimFull_call (ssimOf hi hb) hm h hN rfl junk, ?_⟩
  intro ix hix
  have hix' : InB (blurred a.kernel gp axes x).shape ix := hix
  rw [ssimMap, get_ofFn hix', ssimIndex]
  by_cases h1 : 2 * (blurred a.kernel gp axes x).get ix ^ 2 + k1 ^ 2 = 0
  · exact Or.inr (Or.inl h1)
  by_cases h2 : 2 * (covFactor sc (windowSize a.kernel axes.length) *
        ((blurred a.kernel gp axes (times x x)).get ix - (blurred a.kernel gp axes x).get ix ^ 2)) + k2 ^ 2 = 0
  · exact Or.inr (Or.inr h2)
  left
  rw [div_eq_one_iff_eq]
  · ring
  · apply mul_ne_zero
    · intro e; apply h1; rw [← e]; ring
    · intro e; apply h2; rw [← e]; ring

/-- **C59.** All entries of the SSIM map and of the score lie between -1 and 1, for kernels that are averages, without a padder or with a
padder that fills with samples, means of samples or constants between 0 and 1, and without cropping.  (For other padders see
`C59_cropped_partial` for the cropped score and `C59_padding_false` for the map.) -/
theorem C59_bounds_partial (hi : SSIM.init pool false k1 k2 sc cr = .ok s) (hb : Built pool a m) (hm : a.kernel.isMany = true → axes.length = m)
    (h : BlurCall a.kernel gp y1 ax axes p) (hN : sc = true → windowSize a.kernel axes.length ≠ 1) (h12 : y2.shape = y1.shape)
    (hr : axesOf y1.ndim rax = some raxes) (hrn : raxes.Nodup) (hc : cr = false ∨ gp = none) (hav : Averages a.kernel axes)
    (hk : KeepsMoments gp axes) (hk1 : k1 ≠ 0) (hk2 : k2 ≠ 0) (hpos : ∀ k ∈ reducedAxes y1.ndim raxes, 0 < y1.shape.getD k 0)
    (junk : List Nat → α) :
    ∃ q score full, s.forward junk y1 y2 ax rax p = (q, .ok (score, full)) ∧ (∀ ix, InB full.shape ix → -1 ≤ full.get ix ∧ full.get ix ≤ 1) ∧
      ∀ jx, InB score.shape jx → -1 ≤ score.get jx ∧ score.get jx ≤ 1 := by
  have hbt := ssimMap_between (sc := sc) h hav hk h12 hk1 hk2 (windowSize a.kernel axes.length)
  exact ⟨_, _, _, C79_formula hi hb hm h hN h12 hr hrn hc junk, hbt, meanOver_between hbt (ssimMap_pos h hpos)⟩

/-- **C59** with cropping: the score lies between -1 and 1 for all known padding modes (except `periodize` on an axis of
odd size), if the kernels are not longer than the axes. -/
theorem C59_cropped_partial {gp : PadArgs α} (hi : SSIM.init pool false k1 k2 sc true = .ok s) (hb : Built pool a m)
    (hm : a.kernel.isMany = true → axes.length = m) (hc : KnownCall (PoolArgs.filter a.kernel) gp y1 ax axes) {p : Padder α} (hp : Holds p gp)
    (hper : ∀ i < axes.length, (gp.mode.entry .unknown i).isPeriodize = false ∨ y1.shape.getD (axes.getD i 0) 0 % 2 = 0)
    (hk : ∀ i < axes.length, (a.kernel.entry [] i).length ≤ y1.shape.getD (axes.getD i 0) 0)
    (hN : sc = true → windowSize a.kernel axes.length ≠ 1) (h12 : y2.shape = y1.shape) (hr : axesOf y1.ndim rax = some raxes)
    (hrn : raxes.Nodup) (hav : Averages a.kernel axes) (hk1 : k1 ≠ 0) (hk2 : k2 ≠ 0)
    (hpos : ∀ k ∈ reducedAxes y1.ndim raxes, 0 < y1.shape.getD k 0) (junk : List Nat → α) :
    ∃ q score full, s.forward junk y1 y2 ax rax (some p) = (q, .ok (score, full)) ∧
      ∀ jx, InB score.shape jx → -1 ≤ score.get jx ∧ score.get jx ≤ 1 := by
  obtain ⟨q, full, h1, _⟩ := C60_cropped_score_partial hi hb hm hc hp hper hk hN h12 hr hrn junk
  have h : BlurCall a.kernel none y1 ax axes none := ⟨rfl, hc.axes_eq, fitting_of_sizes hc.toSameReq hk⟩
  have hkm : KeepsMoments (α := α) none axes := by intro g hg; cases hg
  exact ⟨q, _, full, h1, meanOver_between (ssimMap_between h hav hkm h12 hk1 hk2 _) (ssimMap_pos h hpos)⟩

end

/-! ## the default blurs -/

section
variable {α : Type} [Field α] [LinearOrder α] [IsStrictOrderedRing α] {axes raxes : List Nat} {ax rax : Axes}

theorem windowSize_one (w : List α) (n : Nat) : windowSize (.one w) n = w.length ^ n := by
  simp [windowSize, Given.entry]

theorem windowSize_ne_one {w : List α} (hw : 1 < w.length) {n : Nat} (hn : n ≠ 0) : windowSize (.one w) n ≠ 1 := by
  rw [windowSize_one]
  exact (Nat.one_lt_pow hn hw).ne'

theorem averages_one {w : List α} (hw : IsAverage w) (axes : List Nat) : Averages (.one w) axes := fun _ _ _ => hw

/-- one kernel for all axes, not longer than the axes, without a padder -/
theorem blurCall_one {w : List α} {x : Tensor α} (hax : axesOf x.ndim ax = some axes) (hnd : axes.Nodup)
    (hsz : ∀ k ∈ axes, w.length ≤ x.shape.getD k 0) : BlurCall (.one w) none x ax axes none := by
  refine ⟨rfl, hax, (poolOps_of (g := PoolArgs.filter (.one w)) ?_ ⟨trivial, trivial⟩ hnd (checkAxes_spec hax).2 ?_).fitting⟩
  · intro t ht
    simp only [PoolArgs.filter, Given.values, List.mem_singleton] at ht
    rw [ht]; simp
  · intro o ho
    obtain ⟨i, hi, rfl⟩ := mem_ops.1 ho
    exact hsz _ (by simp [PoolArgs.op, hi])

/-- `SSIM()` blurs with one average over 11 samples for all axes. -/
theorem ssim_gaussian (k1 k2 : ℝ) (sc cr : Bool) : ∃ s pool w, SSIM.initGaussian k1 k2 sc cr = .ok s ∧ SSIM.init pool false k1 k2 sc cr = .ok s ∧
    Built pool ⟨.one w, .one none⟩ 1 ∧ IsAverage w ∧ w.length = 11 ∧ ∀ v ∈ w, 0 < v := by
  obtain ⟨pool, h1, h2, h3⟩ := C34_gaussian_kernels (size := .one 11) (sigma := .one (3 / 2)) (order := .one 0) (st := .one none) (m := 1)
    (by decide) trivial trivial trivial trivial (by intro s hs; simp [Given.values] at hs; simp [hs])
    (by intro s hs; simp [Given.values] at hs; simp [hs])
  have hw : (gaussWeights 11 (3 / 2) 0).length = 11 := by simp [gaussWeights]
  have h1' : SepPool.gaussInit (.leaf 11) (.leaf (3 / 2)) (.leaf 0) (.leaf none) = .ok pool := h1
  obtain ⟨f, hf, _⟩ := h2.poolIs.1.toFilter
  refine ⟨⟨f, false, k1, k2, sc, cr⟩, pool, gaussWeights 11 (3 / 2) 0, ?_, ?_, h2, ?_, hw, ?_⟩
  · simp only [SSIM.initGaussian, h1', SSIM.init, hf, ok_bind]
  · simp only [SSIM.init, hf, ok_bind]
  · refine h3 (by intro o ho; simpa [Given.values] using ho) [0] rfl _ (List.mem_singleton.2 rfl) ?_
    intro e
    have e' : gaussWeights 11 (3 / 2) 0 = [] := e
    rw [e'] at hw; simp at hw
  · obtain ⟨w, e1, _, hpos, _⟩ := C37_probability_vector (σ := 3 / 2) (by norm_num) (k := 11) (by norm_num)
    have e2 := gaussianKernel_eq (σ := 3 / 2) (by norm_num) 11 0
    have e3 : w = gaussWeights 11 (3 / 2) 0 := Except.ok.inj (e1.symm.trans e2)
    rw [← e3]; exact hpos

/-- `SSIM(blur="mean")` blurs with one average over 11 samples for all axes. -/
theorem ssim_mean (k1 k2 : α) (sc cr : Bool) : ∃ s pool w, SSIM.initMean k1 k2 sc cr = .ok s ∧ SSIM.init pool false k1 k2 sc cr = .ok s ∧
    Built pool ⟨.one w, .one none⟩ 1 ∧ IsAverage w ∧ w.length = 11 ∧ ∀ v ∈ w, 0 < v := by
  obtain ⟨pool, h1, h2, _⟩ := C34_average_kernels (α := α) (size := .one 11) (st := .one none) (m := 1) (by decide) trivial trivial
    (by intro s hs; simp [Given.values] at hs; simp [hs])
  have h1' : SepPool.avgInit (.leaf (some 11)) (.leaf none) = .ok pool := h1
  obtain ⟨f, hf, _⟩ := h2.poolIs.1.toFilter
  refine ⟨⟨f, false, k1, k2, sc, cr⟩, pool, avgKernel 11, ?_, ?_, h2, avgKernel_isAverage (by decide), by simp [avgKernel], ?_⟩
  · simp only [SSIM.initMean, h1', SSIM.init, hf, ok_bind]
  · simp only [SSIM.init, hf, ok_bind]
  · intro v hv
    rw [avgKernel, List.mem_replicate] at hv
    rw [hv.2]
    positivity

/-- **C58** for one average of more than one sample, no padder, every covariance and cropping setting. -/
theorem ssim_one_self {s : SSIM α} {pool : SepPool α} {w : List α} {k1 k2 : α} {sc cr : Bool} (hi : SSIM.init pool false k1 k2 sc cr = .ok s)
    (hb : Built pool ⟨.one w, .one none⟩ 1) (hw : IsAverage w) (hl : 1 < w.length) {x : Tensor α} (hax : axesOf x.ndim ax = some axes)
    (hne : axes ≠ []) (hnd : axes.Nodup) (hsz : ∀ k ∈ axes, w.length ≤ x.shape.getD k 0) (hr : axesOf x.ndim rax = some raxes)
    (hrn : raxes.Nodup) (hk1 : k1 ≠ 0) (hk2 : k2 ≠ 0) (hpos : ∀ k ∈ reducedAxes x.ndim raxes, 0 < x.shape.getD k 0) (junk : List Nat → α) :
    ∃ q score full, s.forward junk x x ax rax none = (q, .ok (score, full)) ∧ (∀ ix, InB full.shape ix → full.get ix = 1) ∧
      ∀ jx, InB score.shape jx → score.get jx = 1 :=
  C58_self_partial hi hb (by intro h; cases h) (blurCall_one hax hnd hsz)
    (fun _ => windowSize_ne_one hl (by simpa using hne)) hr hrn (Or.inr rfl) (averages_one hw axes) (by intro g hg; cases hg) hk1 hk2 hpos junk

theorem ssim_one_bounds {s : SSIM α} {pool : SepPool α} {w : List α} {k1 k2 : α} {sc cr : Bool} (hi : SSIM.init pool false k1 k2 sc cr = .ok s)
    (hb : Built pool ⟨.one w, .one none⟩ 1) (hw : IsAverage w) (hl : 1 < w.length) {x y : Tensor α} (hax : axesOf x.ndim ax = some axes)
    (hne : axes ≠ []) (hnd : axes.Nodup) (hsz : ∀ k ∈ axes, w.length ≤ x.shape.getD k 0) (hxy : y.shape = x.shape) (hr : axesOf x.ndim rax = some raxes)
    (hrn : raxes.Nodup) (hk1 : k1 ≠ 0) (hk2 : k2 ≠ 0) (hpos : ∀ k ∈ reducedAxes x.ndim raxes, 0 < x.shape.getD k 0) (junk : List Nat → α) :
    ∃ q score full, s.forward junk x y ax rax none = (q, .ok (score, full)) ∧ (∀ ix, InB full.shape ix → -1 ≤ full.get ix ∧ full.get ix ≤ 1) ∧
      ∀ jx, InB score.shape jx → -1 ≤ score.get jx ∧ score.get jx ≤ 1 :=
  C59_bounds_partial hi hb (by intro h; cases h) (blurCall_one hax hnd hsz)
    (fun _ => windowSize_ne_one hl (by simpa using hne)) hxy hr hrn (Or.inr rfl) (averages_one hw axes) (by intro g hg; cases hg) hk1 hk2 hpos junk

/-- **C58** for `SSIM()`: every image whose content axes have at least 11 samples has similarity 1 with itself. -/
theorem C58_gaussian {k1 k2 : ℝ} (sc cr : Bool) {x : Tensor ℝ} (hax : axesOf x.ndim ax = some axes) (hne : axes ≠ []) (hnd : axes.Nodup)
    (hsz : ∀ k ∈ axes, 11 ≤ x.shape.getD k 0) (hr : axesOf x.ndim rax = some raxes) (hrn : raxes.Nodup) (hk1 : k1 ≠ 0) (hk2 : k2 ≠ 0)
    (hpos : ∀ k ∈ reducedAxes x.ndim raxes, 0 < x.shape.getD k 0) (junk : List Nat → ℝ) :
    ∃ s, SSIM.initGaussian k1 k2 sc cr = .ok s ∧ ∃ q score full, s.forward junk x x ax rax none = (q, .ok (score, full)) ∧
      (∀ ix, InB full.shape ix → full.get ix = 1) ∧ ∀ jx, InB score.shape jx → score.get jx = 1 := by
  obtain ⟨s, pool, w, h1, h2, h3, h4, h5, _⟩ := ssim_gaussian k1 k2 sc cr
  exact ⟨s, h1, ssim_one_self h2 h3 h4 (by omega) hax hne hnd (by rw [h5]; exact hsz) hr hrn hk1 hk2 hpos junk⟩

/-- **C58** for `SSIM(blur="mean")` -/
theorem C58_mean {k1 k2 : α} (sc cr : Bool) {x : Tensor α} (hax : axesOf x.ndim ax = some axes) (hne : axes ≠ []) (hnd : axes.Nodup)
    (hsz : ∀ k ∈ axes, 11 ≤ x.shape.getD k 0) (hr : axesOf x.ndim rax = some raxes) (hrn : raxes.Nodup) (hk1 : k1 ≠ 0) (hk2 : k2 ≠ 0)
    (hpos : ∀ k ∈ reducedAxes x.ndim raxes, 0 < x.shape.getD k 0) (junk : List Nat → α) :
    ∃ s, SSIM.initMean k1 k2 sc cr = .ok s ∧ ∃ q score full, s.forward junk x x ax rax none = (q, .ok (score, full)) ∧
      (∀ ix, InB full.shape ix → full.get ix = 1) ∧ ∀ jx, InB score.shape jx → score.get jx = 1 := by
  obtain ⟨s, pool, w, h1, h2, h3, h4, h5, _⟩ := ssim_mean k1 k2 sc cr
  exact ⟨s, h1, ssim_one_self h2 h3 h4 (by omega) hax hne hnd (by rw [h5]; exact hsz) hr hrn hk1 hk2 hpos junk⟩

/-- **C59** for `SSIM()` -/
theorem C59_gaussian {k1 k2 : ℝ} (sc cr : Bool) {x y : Tensor ℝ} (hax : axesOf x.ndim ax = some axes) (hne : axes ≠ []) (hnd : axes.Nodup)
    (hsz : ∀ k ∈ axes, 11 ≤ x.shape.getD k 0) (hxy : y.shape = x.shape) (hr : axesOf x.ndim rax = some raxes) (hrn : raxes.Nodup)
    (hk1 : k1 ≠ 0) (hk2 : k2 ≠ 0) (hpos : ∀ k ∈ reducedAxes x.ndim raxes, 0 < x.shape.getD k 0) (junk : List Nat → ℝ) :
    ∃ s, SSIM.initGaussian k1 k2 sc cr = .ok s ∧ ∃ q score full, s.forward junk x y ax rax none = (q, .ok (score, full)) ∧
      (∀ ix, InB full.shape ix → -1 ≤ full.get ix ∧ full.get ix ≤ 1) ∧ ∀ jx, InB score.shape jx → -1 ≤ score.get jx ∧ score.get jx ≤ 1 := by
  obtain ⟨s, pool, w, h1, h2, h3, h4, h5, _⟩ := ssim_gaussian k1 k2 sc cr
  exact ⟨s, h1, ssim_one_bounds h2 h3 h4 (by omega) hax hne hnd (by rw [h5]; exact hsz) hxy hr hrn hk1 hk2 hpos junk⟩

/-- **C59** for `SSIM(blur="mean")` -/
theorem C59_mean {k1 k2 : α} (sc cr : Bool) {x y : Tensor α} (hax : axesOf x.ndim ax = some axes) (hne : axes ≠ []) (hnd : axes.Nodup)
    (hsz : ∀ k ∈ axes, 11 ≤ x.shape.getD k 0) (hxy : y.shape = x.shape) (hr : axesOf x.ndim rax = some raxes) (hrn : raxes.Nodup)
    (hk1 : k1 ≠ 0) (hk2 : k2 ≠ 0) (hpos : ∀ k ∈ reducedAxes x.ndim raxes, 0 < x.shape.getD k 0) (junk : List Nat → α) :
    ∃ s, SSIM.initMean k1 k2 sc cr = .ok s ∧ ∃ q score full, s.forward junk x y ax rax none = (q, .ok (score, full)) ∧
      (∀ ix, InB full.shape ix → -1 ≤ full.get ix ∧ full.get ix ≤ 1) ∧ ∀ jx, InB score.shape jx → -1 ≤ score.get jx ∧ score.get jx ≤ 1 := by
  obtain ⟨s, pool, w, h1, h2, h3, h4, h5, _⟩ := ssim_mean k1 k2 sc cr
  exact ⟨s, h1, ssim_one_bounds h2 h3 h4 (by omega) hax hne hnd (by rw [h5]; exact hsz) hxy hr hrn hk1 hk2 hpos junk⟩

end

/-! ## where the properties fail, and concrete cases meeting the hypotheses -/

namespace SsimExample

/-- a signal -/
def sig (l : List ℚ) : Tensor ℚ := Tensor.ofFn [l.length] fun ix => l.getD (ix.getD 0 0) 0

/-- one mode for all axes; the constant is 4 -/
def args (mode : Mode ℚ) : PadArgs ℚ := ⟨.one (0, 0), .one mode, .one (4, 4), .one (0, 0), .one (none, none)⟩

/-- `SSIM(AvgPoolNd(k), padder, K1, K2, use_sample_covariance=False, crop_border)(y1, y2, None, None, full=True)`: the data of the score and
of the map -/
def run (k : Int) (k1 k2 : ℚ) (crop : Bool) (y1 y2 : Tensor ℚ) (p : Option (Padder ℚ)) : Option (List ℚ × List ℚ) :=
  Except.toOption do
    let pool ← SepPool.avgInit (.leaf (some k)) (.leaf none)
    let s ← SSIM.init pool false k1 k2 false crop
    let r ← (s.forward (fun _ => 7) y1 y2 .none .none p).2
    .ok (r.1.data, r.2.data)

/-- An average of three samples, images `0 0 3` and `3 0 0`: C57, C59, C79.  Means 1, squares 3, product 0: index
`(2 + 1) (-2 + 1) / ((2 + 1) (4 + 1))`. -/
example : run 3 1 1 true (sig [0, 0, 3]) (sig [3, 0, 0]) none = some ([-1 / 5], [-1 / 5]) ∧
    run 3 1 1 true (sig [3, 0, 0]) (sig [0, 0, 3]) none = some ([-1 / 5], [-1 / 5]) := by decide +kernel

/-- C58, C60: replicated borders, with cropping, an image with itself and another one -/
example : run 3 1 1 true (sig [1, 2, 4, 9]) (sig [1, 2, 4, 9]) (some ((args .replicate).padder 1)) = some ([1], [1, 1, 1, 1]) ∧
    run 3 1 1 true (sig [0, 0, 3]) (sig [3, 0, 0]) (some ((args .replicate).padder 1)) = some ([-1 / 5], [1 / 15, -1 / 5, 1 / 15]) := by decide +kernel

theorem sameCall_sig : SameCall (PoolArgs.filter (.one (avgKernel (α := ℚ) 3))) (args .replicate) (sig [1, 2, 4, 9]) .none [0] where
  axes_eq := by decide
  ne := by decide
  nodup := by decide
  fits := by intro h; cases h
  rest := ⟨trivial, trivial, trivial, trivial⟩
  stride := by intro i _; exact Nat.one_pos
  pos := by decide
  valued := by
    intro o ho _
    obtain ⟨i, _, rfl⟩ := sameOps_mem ho
    exact ⟨by simp [sameSetting, AxisPad.rule?, args, Given.entry], by simp [sameSetting, args, Given.entry]⟩

/-- C60, C58 with cropping: the hypotheses hold for `SSIM(AvgPoolNd(3), "replicate")` on four samples -/
example (y : Tensor ℚ) (hy : y.shape = [4]) (junk : List Nat → ℚ) : ∃ (pool : SepPool ℚ) (s : SSIM ℚ),
    SepPool.avgInit (.leaf (some 3)) (.leaf none) = .ok pool ∧ SSIM.init pool false (1 / 100) (3 / 100) true true = .ok s ∧
    ∃ score full full' q, s.forward junk (sig [1, 2, 4, 9]) y .none .none (some ((args .replicate).padder 1)) = (q, .ok (score, full)) ∧
      s.forward junk (sig [1, 2, 4, 9]) y .none .none none = (none, .ok (score, full')) := by
  obtain ⟨pool, h1, h2, _⟩ := C34_average_kernels (α := ℚ) (size := .one 3) (st := .one none) (m := 1) (by decide) trivial trivial
    (by intro s hs; simp [Given.values] at hs; simp [hs])
  obtain ⟨f, hf, _⟩ := h2.poolIs.1.toFilter
  have hi : SSIM.init pool false (1 / 100) (3 / 100) true true = .ok (⟨f, false, 1 / 100, 3 / 100, true, true⟩ : SSIM ℚ) := by
    simp only [SSIM.init, hf, ok_bind]
  refine ⟨pool, _, h1, hi, C60_padding_irrelevant_partial hi h2 (by intro h; cases h) sameCall_sig.knownCall (holds_padder _ 1) ?_ ?_ ?_ hy
    (raxes := [0]) (by decide) (by decide) junk⟩
  · intro i hi; exact Or.inr (by rw [Nat.lt_one_iff.1 hi]; decide)
  · intro i hi; rw [Nat.lt_one_iff.1 hi]; decide
  · intro _; decide

/-- C58, C59 for the default blur: the sizes of an 11 x 12 image are accepted -/
example (junk : List Nat → ℝ) : ∃ s, SSIM.initGaussian (1 / 100) (3 / 100) true true = .ok s ∧ ∃ q score full,
    s.forward junk (Tensor.ofFn [11, 12] fun ix => (ix.getD 0 0 : ℝ)) (Tensor.ofFn [11, 12] fun ix => (ix.getD 0 0 : ℝ)) .none .none none =
      (q, .ok (score, full)) ∧ (∀ ix, InB full.shape ix → full.get ix = 1) ∧ ∀ jx, InB score.shape jx → score.get jx = 1 :=
  C58_gaussian true true (axes := [0, 1]) (raxes := [0, 1]) rfl (by decide) (by decide) (by change ∀ k ∈ [0, 1], 11 ≤ [11, 12].getD k 0; decide)
    rfl (by decide) (by norm_num) (by norm_num) (by change ∀ k ∈ reducedAxes 2 [0, 1], 0 < [11, 12].getD k 0; decide) junk

end SsimExample

open SsimExample in
/-- **C58** is false for constant padding outside [0, 1]: the padder fills the image and its square with the same number, so that the
estimated variance can be negative.  Here the denominator is 0 (NaN in the program, 0 in the model). -/
theorem C58_padding_false : run 2 1 2 false (sig [0]) (sig [0]) (some ((args .constant).padder 1)) = some ([0], [0]) := by decide +kernel

open SsimExample in
/-- **C59** is false for constant padding outside [0, 1], with the default constants: an index above 1 -/
theorem C59_padding_false : ∃ v > 1, run 2 (1 / 100) (3 / 100) false (sig [0]) (sig [1]) (some ((args .constant).padder 1)) = some ([v], [v]) :=
  ⟨1999719997 / 1964294997, by norm_num, by decide +kernel⟩

open SsimExample in
/-- **C60** is false for `periodize` on an axis of odd size: the padded map has one entry more, which is not cropped. -/
theorem C60_periodize_false : ∃ u v f g, u ≠ v ∧ run 3 1 1 true (sig [1, 2, 4]) (sig [0, 3, 1]) (some ((args .periodize).padder 1)) = some ([u], f) ∧
    run 3 1 1 true (sig [1, 2, 4]) (sig [0, 3, 1]) none = some ([v], g) :=
  ⟨92707 / 2293075, 845 / 2738, [845 / 2738, 845 / 2738, -763 / 3350, 945 / 2726], [845 / 2738], by norm_num, by decide +kernel, by decide +kernel⟩

end TI
