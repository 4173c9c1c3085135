import Verif.Proofs.MsRun

/-!
# MS-SSIM: averages over original samples, and cropped borders with any known padder (C61, C80)
-/

set_option linter.unusedSectionVars false

namespace TI
open Tensor Spec

variable {s : SSIM ℝ} {pool : SepPool ℝ} {a : PoolArgs ℝ} {m : Nat} {size : Given Nat} {st : Given (Option Nat)} {gp : PadArgs ℝ} {x y1 y2 : Tensor ℝ}
  {ax rax : Axes} {axes raxes : List Nat} {p : Padder ℝ} {k1 k2 eps : ℝ} {sc cr up : Bool} {ws : List ℝ} {L : Nat}

/-! ## cropped borders -/

/-- An MS-SSIM call with `L` levels and a same padder in known modes (also `"empty"` and `"zeros"`); in the mode `periodize` the sides have
to stay even at all levels. -/
structure Spec.MsKnown (g : Given (List ℝ)) (gp : PadArgs ℝ) (L : Nat) (x : Tensor ℝ) (ax : Axes) (axes : List Nat) : Prop extends
    KnownCall (PoolArgs.filter g) gp x ax axes where
  filters : g.Fits axes.length
  kernel : ∀ i < axes.length, g.entry [] i ≠ []
  large : ∀ i < axes.length, (g.entry [] i).length * 2 ^ L < 2 * x.shape.getD (axes.getD i 0) 0
  even : ∀ i < axes.length, (gp.mode.entry .unknown i).isPeriodize = false ∨ 2 ^ L ∣ x.shape.getD (axes.getD i 0) 0

/-- the same without a padder -/
theorem Spec.MsKnown.unpadded {g : Given (List ℝ)} (h : MsKnown g gp L x ax axes) : MsCall g none true L x ax axes none where
  axes_eq := h.axes_eq
  ne := h.ne
  nodup := h.nodup
  fits := h.filters
  kernel := h.kernel
  large := h.large
  padder := rfl

/-- a level -/
structure KnownLevel (g : Given (List ℝ)) (gp : PadArgs ℝ) (axes : List Nat) (r : Nat) (x : Tensor ℝ) : Prop where
  call : KnownCall (PoolArgs.filter g) gp x (.seq (castV axes)) axes
  plain : MsAt g none true r x axes none
  even : ∀ i < axes.length, (gp.mode.entry .unknown i).isPeriodize = false ∨ 2 ^ (r + 1) ∣ x.shape.getD (axes.getD i 0) 0

theorem KnownLevel.even' {g : Given (List ℝ)} {r : Nat} (h : KnownLevel g gp axes r x) :
    ∀ i < axes.length, (gp.mode.entry .unknown i).isPeriodize = false ∨ x.shape.getD (axes.getD i 0) 0 % 2 = 0 := by
  intro i hi
  refine (h.even i hi).imp id fun hd => Nat.mod_eq_zero_of_dvd ?_
  exact (Dvd.intro_left (2 ^ r) (pow_succ 2 r).symm).trans hd

theorem KnownLevel.next {g : Given (List ℝ)} {r : Nat} (h : KnownLevel g gp axes (r + 1) x) : KnownLevel g gp axes r (halved axes x) where
  call :=
    { axes_eq := by rw [halved_ndim]; exact h.call.axes_eq
      ne := h.call.ne
      nodup := h.call.nodup
      fits := h.call.fits
      rest := h.call.rest
      stride := h.call.stride
      pos := fun a ha => h.plain.next.pos ha
      known := by rw [sameOps_filter g gp _ x.shape]; exact h.call.known
      zerosLast := by rw [sameOps_filter g gp _ x.shape]; exact h.call.zerosLast }
  plain := h.plain.next
  even := by
    intro i hi
    refine (h.even i hi).imp id fun hd => ?_
    have hm : axes.getD i 0 ∈ axes := by simp [hi]
    rw [halved_size h.plain.nodup h.plain.lt h.plain.two_le, if_pos hm]
    obtain ⟨c, hc⟩ := hd
    refine ⟨c, ?_⟩
    rw [hc, pow_succ]
    have : 2 ^ (r + 1) * 2 * c = 2 * (2 ^ (r + 1) * c) := by ring
    rw [this, Nat.mul_div_cancel_left _ (by norm_num)]

theorem knownRun {g : Given (List ℝ)} (hs : SsimOf s g m k1 k2 sc true) (hm : g.isMany = true → axes.length = m)
    (hN : sc = true → windowSize g axes.length ≠ 1) (hne : axes ≠ []) (hnd : axes.Nodup) (junk : List Nat → ℝ) :
    LevelRun s junk axes k1 k2 (covFactor sc (windowSize g axes.length)) (fun p => ∃ p', p = some p' ∧ Holds p' gp)
      (fun S => padderAfter g (some gp) S axes) (valid g axes) (KnownLevel g gp axes) where
  ne := hne
  nodup := hnd
  lt := fun h => h.plain.lt
  two_le := fun h => h.plain.two_le
  next := fun h => h.next
  congr := fun h hs => ⟨h.call.congr hs, h.plain.congr hs, by rw [hs]; exact h.even⟩
  post := fun S => ⟨_, rfl, holds_withWidths _ _ _⟩
  cs := by
    intro r y1 y2 p h h12 hP
    have hsh : (quietFiltered g gp junk axes y1).shape = y1.shape := quietFiltered_shape h.call junk h.even'
    refine ⟨csMap k2 (covFactor sc (windowSize g axes.length)) (quietFiltered g gp junk axes) y1 y2, ?_, ?_⟩
    · rw [SSIM.csFull_eq (quiet_steady hs hm h.call junk h.even') hP rfl h12 (scaleFactor_eq hs hm hN), hs.k2_eq, csMap, hsh]
    · refine crop_pointMap_of hs h.call.toSameReq (fun i hi => h.plain.size hi) h12 hsh ?_ (csIndex (k2 ^ 2) _)
      intro x hx
      have := quietFiltered_cropOf (h.call.congr hx) junk (fitting_of_sizes (h.call.congr hx).toSameReq (by rw [hx]; exact fun i hi => h.plain.size hi))
      rwa [hx] at this
  ssim := by
    intro r y1 y2 p h h12 hP
    have hsh : (quietFiltered g gp junk axes y1).shape = y1.shape := quietFiltered_shape h.call junk h.even'
    refine ⟨ssimMap k1 k2 (covFactor sc (windowSize g axes.length)) (quietFiltered g gp junk axes) y1 y2, ?_, ?_⟩
    · rw [SSIM.ssimFull_eq (quiet_steady hs hm h.call junk h.even') hP rfl h12 (scaleFactor_eq hs hm hN), hs.k1_eq, hs.k2_eq, ssimMap, hsh]
    · refine crop_pointMap_of hs h.call.toSameReq (fun i hi => h.plain.size hi) h12 hsh ?_ (ssimIndex (k1 ^ 2) (k2 ^ 2) _)
      intro x hx
      have := quietFiltered_cropOf (h.call.congr hx) junk (fitting_of_sizes (h.call.congr hx).toSameReq (by rw [hx]; exact fun i hi => h.plain.size hi))
      rwa [hx] at this
  shape := fun {_ y} h => h.plain.map_shape (y2 := y) fun _ _ _ _ _ => 0

/-- **C80** with `crop_border=True` and any known padder: the padding does not matter, the scores are those of the maps made without padding. -/
theorem C80_cropped (hi : SSIM.init pool false k1 k2 sc true = .ok s) (hb : Built pool a m) (hm : a.kernel.isMany = true → axes.length = m)
    (hw : 2 ≤ ws.length) (h : MsKnown a.kernel gp ws.length y1 ax axes) (hp : Holds p gp) (hN : sc = true → windowSize a.kernel axes.length ≠ 1)
    (h12 : y2.shape = y1.shape) (hr : axesOf y1.ndim rax = some raxes) (hrn : raxes.Nodup) (up : Bool) (eps : ℝ) (junk : List Nat → ℝ) :
    (⟨s, ws, up, eps⟩ : MsSsim).forward junk y1 y2 ax rax (some p) =
      (padderAfter a.kernel (some gp) (atLevel axes (ws.length - 1) y1).shape axes,
      .ok (meanOver (msMap up eps k1 k2 (covFactor sc (windowSize a.kernel axes.length)) (valid a.kernel axes) axes ws y1 y2) raxes)) := by
  have hs := ssimOf hi hb
  obtain ⟨L, hL⟩ : ∃ L, ws.length = L + 2 := ⟨ws.length - 2, by omega⟩
  have hun := h.unpadded
  rw [hL] at hun
  have hlev : KnownLevel a.kernel gp axes (L + 1) y1 := ⟨h.toKnownCall.seq, hun.at, by rw [← hL]; exact h.even⟩
  rw [(knownRun hs hm hN h.ne h.nodup junk).formula hL hlev ⟨p, rfl, hp⟩ (h.unpadded.check hs hm) h.axes_eq h12 hr hrn up eps, hL]
  rfl

/-- **C80, C61**: with `crop_border=True` the scores with a same padder in any known mode are the scores without any padder. -/
theorem C80_padding_irrelevant (hi : SSIM.init pool false k1 k2 sc true = .ok s) (hb : Built pool a m) (hm : a.kernel.isMany = true → axes.length = m)
    (hw : 2 ≤ ws.length) (h : MsKnown a.kernel gp ws.length y1 ax axes) (hp : Holds p gp) (hN : sc = true → windowSize a.kernel axes.length ≠ 1)
    (h12 : y2.shape = y1.shape) (hr : axesOf y1.ndim rax = some raxes) (hrn : raxes.Nodup) (up : Bool) (eps : ℝ) (junk : List Nat → ℝ) :
    ∃ t q, (⟨s, ws, up, eps⟩ : MsSsim).forward junk y1 y2 ax rax (some p) = (q, .ok t) ∧
      (⟨s, ws, up, eps⟩ : MsSsim).forward junk y1 y2 ax rax none = (none, .ok t) :=
  ⟨_, _, C80_cropped hi hb hm hw h hp hN h12 hr hrn up eps junk, C80_formula hi hb hm hw h.unpadded hN h12 hr hrn up eps junk⟩

/-- **C61** with `crop_border=True` and any known padder (also `"empty"` and `"zeros"`): the score of an image with itself is 1. -/
theorem C61_cropped_self (hi : SSIM.init pool false k1 k2 sc true = .ok s) (hb : Built pool a m) (hm : a.kernel.isMany = true → axes.length = m)
    (hw : 2 ≤ ws.length) (h : MsKnown a.kernel gp ws.length x ax axes) (hp : Holds p gp) (hN : sc = true → windowSize a.kernel axes.length ≠ 1)
    (hr : axesOf x.ndim rax = some raxes) (hrn : raxes.Nodup) (hav : Averages a.kernel axes) (hk1 : k1 ≠ 0) (hk2 : k2 ≠ 0) (heps : eps ≤ 1)
    (hpos : ∀ k ∈ reducedAxes x.ndim raxes, 0 < x.shape.getD k 0) (junk : List Nat → ℝ) :
    ∃ q t, (⟨s, ws, true, eps⟩ : MsSsim).forward junk x x ax rax (some p) = (q, .ok t) ∧ ∀ jx, InB t.shape jx → t.get jx = 1 := by
  refine ⟨_, _, C80_cropped hi hb hm hw h hp hN rfl hr hrn true eps junk, ?_⟩
  intro jx hjx
  exact msResult_self (fun i hi' jx hjx => msLevel_self h.unpadded ⟨hav, by simp, hk1, hk2⟩ hi' hjx _) heps hpos hjx

/-- **C61** with `crop_border=True` and any known padder: the scores are positive and at most 1. -/
theorem C61_cropped_range (hi : SSIM.init pool false k1 k2 sc true = .ok s) (hb : Built pool a m) (hm : a.kernel.isMany = true → axes.length = m)
    (hw : 2 ≤ ws.length) (h : MsKnown a.kernel gp ws.length y1 ax axes) (hp : Holds p gp) (hN : sc = true → windowSize a.kernel axes.length ≠ 1)
    (h12 : y2.shape = y1.shape) (hr : axesOf y1.ndim rax = some raxes) (hrn : raxes.Nodup) (hav : Averages a.kernel axes) (hk1 : k1 ≠ 0) (hk2 : k2 ≠ 0)
    (heps0 : 0 < eps) (heps : eps ≤ 1) (hws : ∀ w ∈ ws, 0 ≤ w)
    (hpos : ∀ k ∈ reducedAxes y1.ndim raxes, 0 < y1.shape.getD k 0) (junk : List Nat → ℝ) :
    ∃ q t, (⟨s, ws, true, eps⟩ : MsSsim).forward junk y1 y2 ax rax (some p) = (q, .ok t) ∧
      ∀ jx, InB t.shape jx → 0 < t.get jx ∧ eps ^ ws.sum ≤ t.get jx ∧ t.get jx ≤ 1 := by
  refine ⟨_, _, C80_cropped hi hb hm hw h hp hN h12 hr hrn true eps junk, ?_⟩
  intro jx hjx
  exact msResult_range (fun i hi' jx hjx => (msLevel_score h.unpadded ⟨hav, by simp, hk1, hk2⟩ h12 hi' hjx _).2) heps0 heps hws hpos hjx

/-! ## averages over original samples only -/

/-- An MS-SSIM call with `L` levels that blurs with `AvgPoolNd(size, count_include_pad=False)`. -/
structure Spec.MsExclude (size : Given Nat) (gp : PadArgs ℝ) (L : Nat) (x : Tensor ℝ) (ax : Axes) (axes : List Nat) : Prop extends
    ExcludeCall size gp x ax axes where
  sizes : size.Fits axes.length
  large : ∀ i < axes.length, size.entry 0 i * 2 ^ L < 2 * x.shape.getD (axes.getD i 0) 0

theorem size_entry (size : Given Nat) (axes : List Nat) (i : Nat) : ((size.map (avgKernel (α := ℝ))).entry [] i).length = size.entry 0 i := by
  rw [show (size.map (avgKernel (α := ℝ))).entry [] i = _ from filter_kernel (α := ℝ) size axes i, avgKernel_length]

theorem Spec.MsExclude.unpadded (h : MsExclude size gp L x ax axes) : MsCall (size.map (avgKernel (α := ℝ))) none true L x ax axes none where
  axes_eq := h.axes_eq
  ne := h.ne
  nodup := h.nodup
  fits := given_fits_map _ h.sizes
  kernel := by
    intro i hi
    rw [← List.length_pos_iff, size_entry size axes]
    exact h.size_pos i hi
  large := by
    intro i hi
    rw [size_entry size axes]
    exact h.large i hi
  padder := rfl

/-- a level -/
structure ExcludeLevel (size : Given Nat) (gp : PadArgs ℝ) (axes : List Nat) (r : Nat) (x : Tensor ℝ) : Prop where
  call : ExcludeCall size gp x (.seq (castV axes)) axes
  plain : MsAt (size.map (avgKernel (α := ℝ))) none true r x axes none

theorem ExcludeLevel.next {r : Nat} (h : ExcludeLevel size gp axes (r + 1) x) : ExcludeLevel size gp axes r (halved axes x) where
  call :=
    { axes_eq := by rw [halved_ndim]; exact h.call.axes_eq
      ne := h.call.ne
      nodup := h.call.nodup
      fits := h.call.fits
      rest := h.call.rest
      stride := h.call.stride
      pos := fun a ha => h.plain.next.pos ha
      valued := by rw [sameOps_filter _ gp _ x.shape]; exact h.call.valued
      size_pos := h.call.size_pos
      zero := h.call.zero
      order := by
        refine h.call.order.imp id ?_
        rintro ⟨n, hn⟩
        refine ⟨n / 2, fun i hi => ?_⟩
        have hm : axes.getD i 0 ∈ axes := by simp [hi]
        rw [halved_size h.plain.nodup h.plain.lt h.plain.two_le, if_pos hm, hn i hi] }
  plain := h.plain.next

/-- the blur that the scores see -/
noncomputable def Spec.excludeBlur (size : Given Nat) (cr : Bool) (axes : List Nat) : Tensor ℝ → Tensor ℝ :=
  if cr then valid (size.map avgKernel) axes else localMean (size.map avgKernel) axes

theorem exclude_crop (hs : SsimExcl s (size.map avgKernel) m k1 k2 sc cr) (hm : (size.map (avgKernel (α := ℝ))).isMany = true → axes.length = m)
    {r : Nat} (h : ExcludeLevel size gp axes r y1) (h12 : y2.shape = y1.shape) (F : ℝ → ℝ → ℝ → ℝ → ℝ → ℝ) :
    s.cropBorder (pointMap F (localMean (size.map avgKernel) axes) y1 y2) (castV axes) (padderAfter (size.map avgKernel) (some gp) y1.shape axes) =
      (padderAfter (size.map avgKernel) (some gp) y1.shape axes, .ok (pointMap F (excludeBlur size cr axes) y1 y2)) := by
  cases cr with
  | true =>
    refine crop_pointMap_of hs.base h.call.toSameReq (fun i hi => h.plain.size hi) h12 (b := localMean (size.map avgKernel) axes) rfl ?_ F
    intro x hx
    have := localMean_cropOf hs.base.pool hm (h.call.congr hx) (by
      rw [hx]
      intro i hi
      rw [← size_entry size axes]
      exact h.plain.size hi)
    rwa [hx] at this
  | false =>
    simp only [SSIM.cropBorder, show s.crop = false from hs.base.crop, excludeBlur, Bool.false_eq_true, if_false]
    rfl

theorem excludeRun (hs : SsimExcl s (size.map avgKernel) m k1 k2 sc cr) (hm : (size.map (avgKernel (α := ℝ))).isMany = true → axes.length = m)
    (hN : sc = true → windowSize (size.map (avgKernel (α := ℝ))) axes.length ≠ 1) (hne : axes ≠ []) (hnd : axes.Nodup) (junk : List Nat → ℝ) :
    LevelRun s junk axes k1 k2 (covFactor sc (windowSize (size.map (avgKernel (α := ℝ))) axes.length)) (fun p => ∃ p', p = some p' ∧ Holds p' gp)
      (fun S => padderAfter (size.map avgKernel) (some gp) S axes) (excludeBlur size cr axes) (ExcludeLevel size gp axes) where
  ne := hne
  nodup := hnd
  lt := fun h => h.plain.lt
  two_le := fun h => h.plain.two_le
  next := fun h => h.next
  congr := fun h hs => ⟨h.call.congr hs, h.plain.congr hs⟩
  post := fun S => ⟨_, rfl, holds_withWidths _ _ _⟩
  cs := by
    intro r y1 y2 p h h12 hP
    have e : s.scaleFactor (castV axes) = .ok (covFactor sc (windowSize (size.map (avgKernel (α := ℝ))) axes.length)) :=
      scaleFactor_eq (s := { s with exclude := false }) hs.base hm hN
    refine ⟨csMap k2 (covFactor sc (windowSize (size.map (avgKernel (α := ℝ))) axes.length)) (localMean (size.map avgKernel) axes) y1 y2, ?_,
      exclude_crop hs hm h h12 (csIndex (k2 ^ 2) _)⟩
    rw [SSIM.csFull_eq (exclude_steady hs hm h.call junk) hP rfl h12 e, show s.k2 = k2 from hs.base.k2_eq]
    rfl
  ssim := by
    intro r y1 y2 p h h12 hP
    obtain ⟨p', rfl, hp⟩ := hP
    exact ⟨_, exclude_full hs hm h.call hp hN h12 junk, exclude_crop hs hm h h12 (ssimIndex (k1 ^ 2) (k2 ^ 2) _)⟩
  shape := by
    intro r y h
    cases cr with
    | true => exact h.plain.map_shape (y2 := y) fun _ _ _ _ _ => 0
    | false => exact ⟨rfl, rfl⟩

/-- **C80** for averages over original samples: the scores are those of the maps of the local means (with `crop_border=True` of the
averages without padding) of the images halved level by level. -/
theorem C80_exclude (hi : SSIM.init pool true k1 k2 sc cr = .ok s) (hb : Built pool (avgArgs ℝ size st) m) (hm : size.isMany = true → axes.length = m)
    (hw : 2 ≤ ws.length) (h : MsExclude size gp ws.length y1 ax axes) (hp : Holds p gp)
    (hN : sc = true → windowSize (size.map (avgKernel (α := ℝ))) axes.length ≠ 1)
    (h12 : y2.shape = y1.shape) (hr : axesOf y1.ndim rax = some raxes) (hrn : raxes.Nodup) (up : Bool) (eps : ℝ) (junk : List Nat → ℝ) :
    (⟨s, ws, up, eps⟩ : MsSsim).forward junk y1 y2 ax rax (some p) =
      (padderAfter (size.map avgKernel) (some gp) (atLevel axes (ws.length - 1) y1).shape axes,
      .ok (meanOver (msMap up eps k1 k2 (covFactor sc (windowSize (size.map (avgKernel (α := ℝ))) axes.length)) (excludeBlur size cr axes) axes ws y1 y2)
        raxes)) := by
  have hs := ssimExcl hi hb
  have hm' := size_isMany (α := ℝ) hm
  obtain ⟨L, hL⟩ : ∃ L, ws.length = L + 2 := ⟨ws.length - 2, by omega⟩
  have hun := h.unpadded
  have hc : s.checkLarge ws.length y1.shape 0 (castV axes) = .ok () := by
    rw [checkLarge_exclude]
    refine checkLarge_eq (ms := ⟨{ s with exclude := false }, [], true, 0⟩) hs.base hm' ws.length y1.shape axes 0 (by omega) (checkAxes_spec h.axes_eq).2 ?_
    intro j hj
    rw [Nat.zero_add]
    exact hun.large j hj
  rw [hL] at hun
  rw [(excludeRun hs hm' hN h.ne h.nodup junk).formula hL ⟨h.toExcludeCall.seq, hun.at⟩ ⟨p, rfl, hp⟩ hc h.axes_eq h12 hr hrn up eps, hL]
  rfl

theorem exclude_cs_between (hs : SsimExcl s (size.map avgKernel) m k1 k2 sc cr) (hm : (size.map (avgKernel (α := ℝ))).isMany = true → axes.length = m)
    (hc : ExcludeCall size gp y1 ax axes) (hp : Holds p gp) (h12 : y2.shape = y1.shape) (hk2 : k2 ≠ 0) (n : Nat) :
    Between (-1) 1 (csMap k2 (covFactor sc n) (localMean (size.map avgKernel) axes) y1 y2) := by
  intro ix hix
  have hix' : InB (localMean (size.map (avgKernel (α := ℝ))) axes y1).shape ix := hix
  rw [csMap, get_ofFn hix']
  exact csIndex_bounds (by positivity) (covFactor_nonneg sc n) ((localMean_possible hs.base.pool hm hc h12 hp).possible ix hix')

theorem exclude_cs_self (hs : SsimExcl s (size.map avgKernel) m k1 k2 sc cr) (hm : (size.map (avgKernel (α := ℝ))).isMany = true → axes.length = m)
    (hc : ExcludeCall size gp x ax axes) (hp : Holds p gp) (hk2 : k2 ≠ 0) (n : Nat) :
    Between 1 1 (csMap k2 (covFactor sc n) (localMean (size.map avgKernel) axes) x x) := by
  intro ix hix
  have hix' : InB (localMean (size.map (avgKernel (α := ℝ))) axes x).shape ix := hix
  rw [csMap, get_ofFn hix',
    csIndex_self (by positivity) (covFactor_nonneg sc n) ((localMean_possible hs.base.pool hm hc rfl hp).possible ix hix').var1]
  exact ⟨le_refl _, le_refl _⟩

/-- the scores of all levels -/
theorem exclude_level (hs : SsimExcl s (size.map avgKernel) m k1 k2 sc cr) (hm : (size.map (avgKernel (α := ℝ))).isMany = true → axes.length = m)
    (hN : sc = true → windowSize (size.map (avgKernel (α := ℝ))) axes.length ≠ 1) (h : MsExclude size gp ws.length y1 ax axes) (hp : Holds p gp)
    (hk1 : k1 ≠ 0) (hk2 : k2 ≠ 0) (h12 : y2.shape = y1.shape) {i : Nat} (hi : i < ws.length) {jx : List Nat} (hjx : InB (onesAt axes y1.shape) jx) :
    (levelScore k1 k2 (covFactor sc (windowSize (size.map (avgKernel (α := ℝ))) axes.length)) (excludeBlur size cr axes) axes (decide (i + 1 = ws.length))
      (atLevel axes i y1) (atLevel axes i y2)).get jx ≤ 1 ∧
    (y2 = y1 → (levelScore k1 k2 (covFactor sc (windowSize (size.map (avgKernel (α := ℝ))) axes.length)) (excludeBlur size cr axes) axes
      (decide (i + 1 = ws.length)) (atLevel axes i y1) (atLevel axes i y2)).get jx = 1) := by
  have hav := exclude_averages h.toExcludeCall
  cases cr with
  | true =>
    refine ⟨(msLevel_score h.unpadded ⟨hav, by simp, hk1, hk2⟩ h12 hi hjx _).2, ?_⟩
    rintro rfl
    exact msLevel_self h.unpadded ⟨hav, by simp, hk1, hk2⟩ hi hjx _
  | false =>
    obtain ⟨L, hL⟩ : ∃ L, ws.length = L + 1 := ⟨ws.length - 1, by omega⟩
    have hun := h.unpadded
    rw [hL] at hun
    have hlev : ExcludeLevel size gp axes L y1 := ⟨h.toExcludeCall.seq, hun.at⟩
    have hrun := excludeRun (gp := gp) hs hm hN h.ne h.nodup (fun _ => 0)
    refine ⟨(hrun.between (lo := -1) (hi := 1) (Q := fun y1 y2 => y2.shape = y1.shape) halved_shape_congr
      (fun hR h12 => exclude_cs_between hs hm hR.call hp h12 hk2 _) (fun hR h12 => exclude_between hs hm hR.call hp h12 hk1 hk2 _)
      (fun hR a ha => hR.plain.pos ha) hlev h12 (by omega) _ hjx).2, ?_⟩
    rintro rfl
    have := hrun.between (lo := 1) (hi := 1) (Q := fun y1 y2 => y2 = y1) (by rintro _ _ rfl; rfl)
      (by rintro r y _ hR rfl; exact exclude_cs_self hs hm hR.call hp hk2 _)
      (by
        rintro r y _ hR rfl ix hix
        have := exclude_self hs hm hR.call hp hk1 hk2 _ ix hix
        exact ⟨this.ge, this.le⟩)
      (fun hR a ha => hR.plain.pos ha) hlev rfl (show i ≤ L by omega) (decide (i + 1 = ws.length)) hjx
    exact le_antisymm this.2 this.1

/-- **C61** for averages over original samples (`AvgPoolNd(count_include_pad=False)`), with and without cropping: the score of an image with
itself is 1. -/
theorem C61_exclude_self (hi : SSIM.init pool true k1 k2 sc cr = .ok s) (hb : Built pool (avgArgs ℝ size st) m) (hm : size.isMany = true → axes.length = m)
    (hw : 2 ≤ ws.length) (h : MsExclude size gp ws.length x ax axes) (hp : Holds p gp)
    (hN : sc = true → windowSize (size.map (avgKernel (α := ℝ))) axes.length ≠ 1)
    (hr : axesOf x.ndim rax = some raxes) (hrn : raxes.Nodup) (hk1 : k1 ≠ 0) (hk2 : k2 ≠ 0) (heps : eps ≤ 1)
    (hpos : ∀ k ∈ reducedAxes x.ndim raxes, 0 < x.shape.getD k 0) (junk : List Nat → ℝ) :
    ∃ q t, (⟨s, ws, true, eps⟩ : MsSsim).forward junk x x ax rax (some p) = (q, .ok t) ∧ ∀ jx, InB t.shape jx → t.get jx = 1 := by
  refine ⟨_, _, C80_exclude hi hb hm hw h hp hN rfl hr hrn true eps junk, ?_⟩
  intro jx hjx
  exact msResult_self (fun i hi' jx hjx => (exclude_level (ssimExcl hi hb) (size_isMany (α := ℝ) hm) hN h hp hk1 hk2 rfl hi' hjx).2 rfl) heps hpos hjx

/-- **C61** for averages over original samples, with and without cropping: the scores are positive and at most 1. -/
theorem C61_exclude_range (hi : SSIM.init pool true k1 k2 sc cr = .ok s) (hb : Built pool (avgArgs ℝ size st) m) (hm : size.isMany = true → axes.length = m)
    (hw : 2 ≤ ws.length) (h : MsExclude size gp ws.length y1 ax axes) (hp : Holds p gp)
    (hN : sc = true → windowSize (size.map (avgKernel (α := ℝ))) axes.length ≠ 1)
    (h12 : y2.shape = y1.shape) (hr : axesOf y1.ndim rax = some raxes) (hrn : raxes.Nodup) (hk1 : k1 ≠ 0) (hk2 : k2 ≠ 0)
    (heps0 : 0 < eps) (heps : eps ≤ 1) (hws : ∀ w ∈ ws, 0 ≤ w)
    (hpos : ∀ k ∈ reducedAxes y1.ndim raxes, 0 < y1.shape.getD k 0) (junk : List Nat → ℝ) :
    ∃ q t, (⟨s, ws, true, eps⟩ : MsSsim).forward junk y1 y2 ax rax (some p) = (q, .ok t) ∧
      ∀ jx, InB t.shape jx → 0 < t.get jx ∧ eps ^ ws.sum ≤ t.get jx ∧ t.get jx ≤ 1 := by
  refine ⟨_, _, C80_exclude hi hb hm hw h hp hN h12 hr hrn true eps junk, ?_⟩
  intro jx hjx
  exact msResult_range (fun i hi' jx hjx => (exclude_level (ssimExcl hi hb) (size_isMany (α := ℝ) hm) hN h hp hk1 hk2 h12 hi' hjx).1) heps0 heps hws hpos hjx

/-! ## concrete cases meeting the hypotheses -/

/-- C61, C80: mean of the original samples in 3 x 3 windows, three weights, a 15 x 13 image -/
example (x : Tensor ℝ) (hx : x.shape = [15, 13]) : MsExclude (.one 3) ⟨.one (0, 0), .one .constant, .one (0, 0), .one (0, 0), .one (none, none)⟩ 3 x .none [0, 1] where
  axes_eq := by rw [ndim, hx]; rfl
  ne := by decide
  nodup := by decide
  fits := by intro h; cases h
  rest := ⟨trivial, trivial, trivial, trivial⟩
  stride := fun _ _ => Nat.one_pos
  pos := by rw [hx]; decide
  valued := by
    intro o ho _
    obtain ⟨i, _, rfl⟩ := sameOps_mem ho
    exact ⟨by simp [sameSetting, Given.entry, AxisPad.rule?], by simp [sameSetting, Given.entry]⟩
  size_pos := fun _ _ => by simp [Given.entry]
  zero := fun _ _ => ⟨rfl, rfl⟩
  order := Or.inl (by decide)
  sizes := trivial
  large := by rw [hx]; simp only [Given.entry]; decide

/-- C61, C80: the mode `"empty"` with the border cropped, three weights -/
example (x : Tensor ℝ) (hx : x.shape = [15, 13]) :
    MsKnown (.one [1 / 4, 1 / 2, 1 / 4]) ⟨.one (0, 0), .one .empty, .one (0, 0), .one (0, 0), .one (none, none)⟩ 3 x .none [0, 1] where
  axes_eq := by rw [ndim, hx]; rfl
  ne := by decide
  nodup := by decide
  fits := by intro h; cases h
  rest := ⟨trivial, trivial, trivial, trivial⟩
  stride := fun _ _ => Nat.one_pos
  pos := by rw [hx]; decide
  known := by
    intro o ho _
    obtain ⟨i, _, rfl⟩ := sameOps_mem ho
    exact Or.inl (by simp [sameSetting, Given.entry, AxisPad.quiet])
  zerosLast := by
    refine List.pairwise_of_forall_mem_list fun o ho _ _ hz => ?_
    obtain ⟨i, _, rfl⟩ := sameOps_mem ho
    simp [sameSetting, Given.entry] at hz
  filters := trivial
  kernel := fun _ _ => by simp [Given.entry]
  large := by rw [hx]; simp only [Given.entry, List.length_cons, List.length_nil]; decide
  even := fun _ _ => Or.inl rfl

/-! ## impossible moments -/

namespace MsExample

/-- constant padding with 4 -/
noncomputable def fours : PadArgs ℝ := ⟨.one (0, 0), .one .constant, .one (4, 4), .one (0, 0), .one (none, none)⟩

/-- five zeros -/
noncomputable def zeros : Tensor ℝ := Tensor.ofFn [5] fun _ => 0

theorem padded (y : Tensor ℝ) : padSeq y (sameOps (PoolArgs.filter (.one (avgKernel (α := ℝ) 2))) fours y.shape [0]) =
    extendAxis (constant 4 4) 0 1 0 y := by
  have h : sameOps (PoolArgs.filter (.one (avgKernel (α := ℝ) 2))) fours y.shape [0] = [(0, ⟨1, 0, .constant, (4, 4), (0, 0), (none, none)⟩)] := by
    have : (PoolArgs.filter (.one (avgKernel (α := ℝ) 2))).widths y.shape [0] = [(1, 0)] := by
      simp only [PoolArgs.widths, filter_stride, PoolArgs.samePair, sameTotal_one]
      simp [PoolArgs.filter, PoolArgs.op, Given.entry, avgKernel]
    rw [sameOps, this]
    simp [fours, PadArgs.withWidths, PadArgs.entry, Given.entry]
  rw [h]
  simp [padSeq, padStep, AxisPad.rule?, AxisPad.total, Mode.isPeriodize]

theorem blur_first {y : Tensor ℝ} (hy : y.shape = [5]) (h0 : y.get [0] = 0) : (blurred (.one (avgKernel (α := ℝ) 2)) (some fours) [0] y).get [0] = 2 := by
  rw [blurred, filtered, padded y]
  have e : (PoolArgs.filter (.one (avgKernel (α := ℝ) 2))).ops [0] = [⟨0, [1 / 2, 1 / 2], 1⟩] := by
    simp [PoolArgs.filter, PoolArgs.ops, PoolArgs.op, Given.entry, avgKernel, List.replicate]
  have hs : (extendAxis (constant 4 4) 0 1 0 y).shape = [6] := by simp [extendAxis, hy]
  have g0 : (extendAxis (constant 4 4) 0 1 0 y).get [0] = 4 := by
    rw [extendAxis, get_ofFn (by rw [hy]; decide)]
    simp [constant]
  have g1 : (extendAxis (constant 4 4) 0 1 0 y).get [1] = 0 := by
    rw [extendAxis, get_ofFn (by rw [hy]; decide)]
    simp [constant, hy, h0]
  rw [e]
  simp only [poolSeq, List.foldl, slide]
  rw [if_neg (by simp), get_ofFn]
  · simp [g0, g1, List.range_succ]
    norm_num
  · rw [hs]
    decide

end MsExample

theorem csIndex_self_le {c2 f m e : ℝ} : csIndex c2 f m m e e e ≤ 1 := by
  have : f * (e - m ^ 2) + f * (e - m ^ 2) + c2 = 2 * (f * (e - m * m)) + c2 := by ring
  rw [csIndex, this]
  exact div_self_le_one _

theorem ssimIndex_self_le {c1 c2 f m e : ℝ} : 0 ≤ ssimIndex c1 c2 f m m e e e ∧ ssimIndex c1 c2 f m m e e e ≤ 1 := by
  have : (m ^ 2 + m ^ 2 + c1) * (f * (e - m ^ 2) + f * (e - m ^ 2) + c2) = (2 * (m * m) + c1) * (2 * (f * (e - m * m)) + c2) := by ring
  rw [ssimIndex, this]
  refine ⟨?_, div_self_le_one _⟩
  by_cases h : (2 * (m * m) + c1) * (2 * (f * (e - m * m)) + c2) = 0
  · rw [h]; simp
  · rw [div_self h]; norm_num

open MsExample in
/-- **C61** is false for a padder that makes moments impossible, on uncropped maps: five zeros padded with 4 before blurring over two samples,
`K2 = 2`.  The padder fills the image and its square with the same number, so that the estimated variance at the border is `2 - 2 ^ 2`, and
the index there is 0 / 0 (NaN in the program, 0 in the model). -/
theorem C61_padding_false : ∃ (pool : SepPool ℝ) (s : SSIM ℝ), SepPool.avgInit (.leaf (some 2)) (.leaf none) = .ok pool ∧
    SSIM.init pool false 1 2 false false = .ok s ∧ ∃ q t, (⟨s, [1, 1], true, 1 / 100000000⟩ : MsSsim).forward (fun _ => 0) zeros zeros .none .none
      (some (fours.padder 1)) = (q, .ok t) ∧ ∀ jx, InB t.shape jx → t.get jx < 1 := by
  obtain ⟨pool, h1, h2, _⟩ := C34_average_kernels (α := ℝ) (size := .one 2) (st := .one none) (m := 1) (by decide) trivial trivial
    (by intro s hs; simp [Given.values] at hs; simp [hs])
  obtain ⟨f, hf, _⟩ := h2.poolIs.1.toFilter
  have hi : SSIM.init pool false 1 2 false false = .ok (⟨f, false, 1, 2, false, false⟩ : SSIM ℝ) := by
    simp only [SSIM.init, hf, ok_bind]
  have hc : MsCall (.one (avgKernel (α := ℝ) 2)) (some fours) false ([1, 1] : List ℝ).length zeros .none [0] (some (fours.padder 1)) := by
    refine ⟨rfl, by decide, by decide, trivial, fun _ _ => by simp [Given.entry, avgKernel], ?_, ⟨_, rfl, holds_padder _ 1⟩,
      ⟨trivial, trivial, trivial, trivial⟩, ?_⟩
    · intro i hi
      rw [Nat.lt_one_iff.1 hi]
      simp [Given.entry, avgKernel, zeros]
    · intro i _
      simp [PadArgs.entry, AxisPad.rule?, Given.entry, fours]
  have hform := C80_formula (ws := [1, 1]) (rax := .none) (raxes := [0]) hi h2 (by intro h; cases h) (by simp) hc (by simp) (y2 := zeros) rfl rfl (by decide) true
    (1 / 100000000) (fun _ => 0)
  refine ⟨pool, _, h1, hi, _, _, hform, ?_⟩
  set b : Tensor ℝ → Tensor ℝ := scoreBlur (.one (avgKernel 2)) (some fours) false [0] with hb
  set T := msMap true (1 / 100000000) 1 2 (covFactor false (windowSize (.one (avgKernel (α := ℝ) 2)) 1)) b [0] [1, 1] zeros zeros with hT
  have hat : MsAt (.one (avgKernel (α := ℝ) 2)) (some fours) false 1 zeros [0] (some (fours.padder 1)) := hc.at
  have hcov : (covFactor false (windowSize (.one (avgKernel (α := ℝ) 2)) 1) : ℝ) = 1 := rfl
  have hbs : ∀ y : Tensor ℝ, y.shape = [5] → (b y).shape = [5] := by
    intro y hy
    exact (blur_shape_kept (hat.congr (y := y) hy).sameCall (fun i _ => Or.inl rfl)).trans hy
  have hlev : ∀ ix, InB (onesAt [0] zeros.shape) ix → 0 ≤ T.get ix ∧ T.get ix ≤ 4 / 5 := by
    intro ix hix
    have hix0 : ix = [0] := by
      have : ix ∈ indices [1] := mem_indices.2 hix
      simpa [indices] using this
    subst hix0
    rw [hT, msMap, get_ofFn hix]
    have s0 : (levelScore 1 2 (covFactor false (windowSize (.one (avgKernel (α := ℝ) 2)) 1)) b [0] false zeros zeros).get [0] ≤ 4 / 5 := by
      rw [levelScore, if_neg (by simp), meanKept, get_ofFn (by rw [csMap, shape_ofFn, hbs zeros rfl]; decide), csMap, shape_ofFn, hbs zeros rfl]
      have e : collected [5] [0] (onKept [0] [0]) = [[0], [1], [2], [3], [4]] := by decide
      rw [e]
      have z0 : (b zeros).get [0] = 2 := blur_first rfl (by rw [zeros, get_ofFn (by decide)])
      have z1 : (b (times zeros zeros)).get [0] = 2 := blur_first rfl (by
        rw [times, get_ofFn (by decide), zeros, get_ofFn (by decide), mul_zero])
      have c0 : csIndex (2 ^ 2) 1 ((b zeros).get [0]) ((b zeros).get [0]) ((b (times zeros zeros)).get [0]) ((b (times zeros zeros)).get [0])
          ((b (times zeros zeros)).get [0]) = 0 := by
        rw [z0, z1, csIndex]; norm_num
      simp only [mean, List.map_cons, List.map_nil, List.sum_cons, List.sum_nil, List.length_cons, List.length_nil, hcov]
      rw [get_ofFn (by decide), get_ofFn (by decide), get_ofFn (by decide), get_ofFn (by decide), get_ofFn (by decide), c0]
      have c1 := csIndex_self_le (c2 := 2 ^ 2) (f := 1) (m := (b zeros).get [1]) (e := (b (times zeros zeros)).get [1])
      have c2 := csIndex_self_le (c2 := 2 ^ 2) (f := 1) (m := (b zeros).get [2]) (e := (b (times zeros zeros)).get [2])
      have c3 := csIndex_self_le (c2 := 2 ^ 2) (f := 1) (m := (b zeros).get [3]) (e := (b (times zeros zeros)).get [3])
      have c4 := csIndex_self_le (c2 := 2 ^ 2) (f := 1) (m := (b zeros).get [4]) (e := (b (times zeros zeros)).get [4])
      rw [div_le_div_iff₀ (by norm_num) (by norm_num)]
      push_cast
      linarith
    have s1 : (levelScore 1 2 (covFactor false (windowSize (.one (avgKernel (α := ℝ) 2)) 1)) b [0] true (atLevel [0] 1 zeros) (atLevel [0] 1 zeros)).get [0] ≤ 1 := by
      have hat1 : MsAt (.one (avgKernel (α := ℝ) 2)) (some fours) false 0 (atLevel [0] 1 zeros) [0] (some (fours.padder 1)) := hat.next
      have hsh := blur_shape_kept hat1.sameCall (fun i _ => Or.inl rfl)
      have hz : (b (atLevel [0] 1 zeros)).shape = (atLevel [0] 1 zeros).shape := hsh
      have hbt : Between 0 1 (levelScore 1 2 (covFactor false (windowSize (.one (avgKernel (α := ℝ) 2)) 1)) b [0] true (atLevel [0] 1 zeros) (atLevel [0] 1 zeros)) := by
        rw [levelScore, if_pos rfl]
        apply meanKept_between
        · intro jx hjx
          rw [ssimMap, get_ofFn (show InB (b (atLevel [0] 1 zeros)).shape jx from hjx)]
          exact ssimIndex_self_le
        · intro k hk _
          rw [ssimMap, shape_ofFn, hz]
          exact hat1.pos hk
      refine (hbt [0] ?_).2
      rw [levelScore, if_pos rfl, meanKept, shape_ofFn, ssimMap, shape_ofFn, hz, onesAt_level 1 (r := 0) hat]
      exact hix
    simp only [msTotal, if_true, List.length_cons, List.length_nil, List.range_succ, List.range_zero, List.nil_append, List.cons_append, List.map_cons,
      List.map_nil, List.prod_cons, List.prod_nil, msLevel, msTerm]
    simp only [List.getD_cons_zero, List.getD_cons_succ, Real.rpow_one, mul_one, Nat.reduceAdd, Nat.reduceEqDiff, decide_false, decide_true]
    have m0 := max_le s0 (show (1 / 100000000 : ℝ) ≤ 4 / 5 by norm_num)
    have m1 := max_le s1 (show (1 / 100000000 : ℝ) ≤ 1 by norm_num)
    refine ⟨mul_nonneg (le_max_of_le_right (by norm_num)) (le_max_of_le_right (by norm_num)), ?_⟩
    calc _ ≤ (4 / 5 : ℝ) * 1 := mul_le_mul m0 m1 (le_max_of_le_right (by norm_num)) (by norm_num)
      _ = 4 / 5 := by norm_num
  intro jx hjx
  have := (meanOver_between (x := T) (raxes := [0]) hlev (onesAt_pos (y := zeros) rfl (by
    change ∀ k ∈ reducedAxes 1 [0], 0 < [5].getD k 0
    decide)) jx hjx).2
  exact lt_of_le_of_lt this (by norm_num)

end TI
