import Verif.Proofs.Ssim
import Verif.Proofs.Reduce
import Verif.Props.Pool

/-!
# SSIM: the call, cropping
-/

set_option linter.unusedSectionVars false

namespace TI
open Tensor Spec

variable {α : Type} [Field α] [LinearOrder α] [IsStrictOrderedRing α]

variable {s : SSIM α} {pool : SepPool α} {g : Given (List α)} {m : Nat} {gp : Option (PadArgs α)} {x y y1 y2 : Tensor α} {ax rax : Axes}
  {axes raxes : List Nat} {p : Option (Padder α)}

/-! ## the blur -/

theorem Fitting_congr : ∀ {ops : List (PoolOp α)} {x y : Tensor α}, x.shape = y.shape → Fitting x ops → Fitting y ops
  | [], _, _, _, _ => trivial
  | o :: ops, x, y, hs, h => by
    have h' : _ ∧ _ := h
    refine ⟨?_, Fitting_congr (by rw [slide_shape, slide_shape, hs]) h'.2⟩
    intro hk
    have := h'.1 hk
    simpa only [ndim, hs] using this

theorem poolSeq_shape_congr : ∀ {ops : List (PoolOp α)} {x y : Tensor α}, x.shape = y.shape → (poolSeq x ops).shape = (poolSeq y ops).shape
  | [], _, _, hs => hs
  | o :: ops, x, y, hs => by
    change (poolSeq (slide x o) ops).shape = (poolSeq (slide y o) ops).shape
    exact poolSeq_shape_congr (by rw [slide_shape, slide_shape, hs])

theorem padSeq_shape_congr {ops : List (Nat × AxisPad α)} (h : OpsOK ops) (hnd : (ops.map Prod.fst).Nodup) {x y : Tensor α}
    (hlt : ∀ o ∈ ops, o.1 < x.ndim) (hs : x.shape = y.shape) : (padSeq x ops).shape = (padSeq y ops).shape := by
  have hn : x.ndim = y.ndim := by rw [ndim, ndim, hs]
  apply list_ext_getD
  · exact (padSeq_ndim h x).trans (hn.trans (padSeq_ndim h y).symm)
  · intro k _
    rw [padSeq_shape h hnd x hlt, padSeq_shape h hnd y (by rw [← hn]; exact hlt), hs]

theorem SameCall_seq {gp : PadArgs α} {g : PoolArgs α} (h : SameCall g gp x ax axes) : SameCall g gp x (.seq (castV axes)) axes where
  axes_eq := normAxes_castV (checkAxes_spec h.axes_eq).2
  ne := h.ne
  nodup := h.nodup
  fits := h.fits
  rest := h.rest
  stride := h.stride
  pos := h.pos
  valued := h.valued

theorem Spec.BlurCall.axes_eq (h : BlurCall g gp x ax axes p) : axesOf x.ndim ax = some axes := by
  cases gp with
  | none => exact h.2.1
  | some gp => exact h.2.axes_eq

theorem blurred_congr (h : BlurCall g gp x ax axes p) (hs : y.shape = x.shape) : (blurred g gp axes y).shape = (blurred g gp axes x).shape := by
  cases gp with
  | none => exact poolSeq_shape_congr hs
  | some gp =>
    simp only [blurred, filtered]
    apply poolSeq_shape_congr
    have hc := h.2
    have hnd : ((sameOps (PoolArgs.filter g) gp x.shape axes).map Prod.fst).Nodup := by rw [sameOps_fst]; exact hc.nodup
    rw [hs]
    exact (padSeq_shape_congr hc.opsOK hnd hc.lt hs.symm).symm

/-- what is known of an SSIM object built from a pooling module with kernels `g` -/
structure SsimOf (s : SSIM α) (g : Given (List α)) (m : Nat) (k1 k2 : α) (sc cr : Bool) : Prop where
  pool : PoolIs s.pool (PoolArgs.filter g) m
  exclude : s.exclude = false
  k1_eq : s.k1 = k1
  k2_eq : s.k2 = k2
  cov : s.sampleCov = sc
  crop : s.crop = cr

variable {k1 k2 : α} {sc cr : Bool} {a : PoolArgs α}

theorem ssimOf (hi : SSIM.init pool false k1 k2 sc cr = .ok s) (hb : Built pool a m) : SsimOf s a.kernel m k1 k2 sc cr := by
  obtain ⟨pool', e, h⟩ := hb.poolIs.1.toFilter
  rw [SSIM.init, e, ok_bind] at hi
  cases hi
  exact ⟨h, rfl, rfl, rfl, rfl, rfl⟩

theorem filter_isMany : (PoolArgs.filter g).isMany = g.isMany := by simp [PoolArgs.filter, PoolArgs.isMany, Given.isMany]

theorem blur_steady (hs : SsimOf s g m k1 k2 sc cr) (hm : g.isMany = true → axes.length = m) (h : BlurCall g gp x ax axes p)
    (junk : List Nat → α) :
    Steady s junk (castV axes) (fun p => BlurCall g gp x ax axes p) (padderAfter g gp x.shape axes) x.shape (blurred g gp axes x).shape
      (blurred g gp axes) where
  run := by
    intro p' hp' y hy
    simp only [SSIM.blur, hs.exclude, Bool.false_eq_true, if_false]
    have hm' : (PoolArgs.filter g).isMany = true → axes.length = m := by rw [filter_isMany]; exact hm
    cases gp with
    | none =>
      obtain ⟨rfl, h1, h2⟩ := hp'
      have hlt := (checkAxes_spec h1).2
      have hax : axesOf y.ndim (.seq (castV axes)) = some axes := by
        rw [ndim, hy]
        exact normAxes_castV hlt
      exact hs.pool.forward_none hax hm' (Fitting_congr hy.symm h2) junk
    | some gp =>
      obtain ⟨⟨p0, rfl, h1⟩, h2⟩ := hp'
      have h3 := SameCall.congr (SameCall_seq h2) hy
      rw [hs.pool.forward_same h3 hm' h1 junk, hy]
      simp only [padderAfter, Option.map, blurred, filtered, hy]
  post := by
    cases gp with
    | none => exact ⟨rfl, h.2⟩
    | some gp => exact ⟨⟨_, rfl, holds_withWidths _ _ _⟩, h.2⟩
  shape := fun y hy => blurred_congr h hy

/-- `kernel_size[i]` -/
theorem kernelSize_get (hs : SsimOf s g m k1 k2 sc cr) (hm : g.isMany = true → axes.length = m) {i : Nat} (hi : i < axes.length) :
    (s.pool.kernelSize.get (i : Int)).bind SepPool.asSize = .ok (((g.entry [] i).length : Nat) : Int) := by
  have hfit : ((PoolArgs.filter g).kernel.map fun k => some k.length).Fits m := given_fits_map _ hs.pool.fits.1
  have : (Given.map (fun k : List α => some k.length) g).isMany = g.isMany := by cases g <;> rfl
  rw [hs.pool.size.get hfit (some 0) (fun hh => by
    have := hm (this ▸ hh)
    omega)]
  have e : (Given.map (fun k : List α => some k.length) g).entry (some 0) i = some (g.entry [] i).length := by
    cases g with
    | one b => rfl
    | many l =>
      simp only [Given.map, Given.entry, List.getD_eq_getElem?_getD, List.getElem?_map]
      cases l[i]? <;> rfl
  simp only [PoolArgs.filter, e]
  rfl

theorem windowSize_eq (hs : SsimOf s g m k1 k2 sc cr) (hm : g.isMany = true → axes.length = m) :
    s.nPixels (castV axes) = .ok (windowSize g axes.length : Int) := by
  have key : ∀ l : List Nat, (∀ i ∈ l, i < axes.length) →
      SepPool.collect (fun i => (s.pool.kernelSize.get (i : Int)).bind SepPool.asSize) l =
        .ok (l.map fun i => (((g.entry [] i).length : Nat) : Int)) := by
    intro l hl
    rw [SepPool.collect]
    apply sequence_map
    intro i hi
    exact kernelSize_get hs hm (hl i hi)
  rw [SSIM.nPixels, show (castV axes).length = axes.length by simp [castV], key _ (fun i hi => List.mem_range.1 hi), ok_bind]
  congr 1
  rw [windowSize, Nat.cast_list_prod, List.map_map]
  rfl

theorem scaleFactor_eq (hs : SsimOf s g m k1 k2 sc cr) (hm : g.isMany = true → axes.length = m)
    (hN : sc = true → windowSize g axes.length ≠ 1) : s.scaleFactor (castV axes) = .ok (covFactor sc (windowSize g axes.length)) := by
  rw [SSIM.scaleFactor, hs.cov]
  cases sc with
  | false => rfl
  | true =>
    have hN := hN rfl
    rw [if_pos rfl, windowSize_eq hs hm, ok_bind, if_neg (by exact_mod_cast hN)]
    simp [covFactor]

theorem covFactor_nonneg (sc : Bool) (n : Nat) : (0 : α) ≤ covFactor sc n := by
  rw [covFactor]
  split_ifs
  · rcases Nat.eq_zero_or_pos n with rfl | hn
    · simp
    · apply div_nonneg (by positivity)
      have : (1 : α) ≤ n := by exact_mod_cast hn
      linarith
  · exact zero_le_one

/-- the map of a call -/
theorem ssimFull_call (hs : SsimOf s g m k1 k2 sc cr) (hm : g.isMany = true → axes.length = m) (h : BlurCall g gp y1 ax axes p)
    (hN : sc = true → windowSize g axes.length ≠ 1) (h12 : y2.shape = y1.shape) (junk : List Nat → α) :
    s.ssimFull junk y1 y2 (castV axes) p = (padderAfter g gp y1.shape axes,
      .ok (ssimMap k1 k2 (covFactor sc (windowSize g axes.length)) (blurred g gp axes) y1 y2)) := by
  rw [SSIM.ssimFull_eq (blur_steady hs hm h junk) h rfl h12 (scaleFactor_eq hs hm hN), hs.k1_eq, hs.k2_eq]
  rfl

theorem csFull_call (hs : SsimOf s g m k1 k2 sc cr) (hm : g.isMany = true → axes.length = m) (h : BlurCall g gp y1 ax axes p)
    (hN : sc = true → windowSize g axes.length ≠ 1) (h12 : y2.shape = y1.shape) (junk : List Nat → α) :
    s.csFull junk y1 y2 (castV axes) p = (padderAfter g gp y1.shape axes,
      .ok (csMap k2 (covFactor sc (windowSize g axes.length)) (blurred g gp axes) y1 y2)) := by
  rw [SSIM.csFull_eq (blur_steady hs hm h junk) h rfl h12 (scaleFactor_eq hs hm hN), hs.k2_eq]
  rfl

theorem meanDims_eq (h : ∀ a ∈ raxes, a < x.ndim) (hnd : raxes.Nodup) : x.meanDims (castV raxes) false = .ok (meanOver x raxes) :=
  reduce_drop _ h hnd

theorem ssimMap_ndim (h : BlurCall g gp y1 ax axes p) (f : α) : (ssimMap k1 k2 f (blurred g gp axes) y1 y2).ndim = y1.ndim := by
  change (blurred g gp axes y1).ndim = _
  cases gp with
  | none => exact poolSeq_ndim _ _
  | some gp => rw [blurred, filtered, poolSeq_ndim, padSeq_ndim h.2.opsOK]

/-- the part of `forward` after the map -/
theorem ssim_forward_call (hs : SsimOf s g m k1 k2 sc cr) (hm : g.isMany = true → axes.length = m) (h : BlurCall g gp y1 ax axes p)
    (hN : sc = true → windowSize g axes.length ≠ 1) (h12 : y2.shape = y1.shape) (hr : axesOf y1.ndim rax = some raxes) (junk : List Nat → α) :
    s.forward junk y1 y2 ax rax p =
      (s.reduce (ssimMap k1 k2 (covFactor sc (windowSize g axes.length)) (blurred g gp axes) y1 y2) (castV axes) (castV raxes) >>=
        fun score => (pure (score, ssimMap k1 k2 (covFactor sc (windowSize g axes.length)) (blurred g gp axes) y1 y2) :
          Run α (Tensor α × Tensor α))) (padderAfter g gp y1.shape axes) := by
  simp only [SSIM.forward]
  rw [if_neg (by rw [h12]; simp), (checkAxes_spec h.axes_eq).1, Run.lift_bind, (checkAxes_spec hr).1, Run.lift_bind,
    Run.bind_ok (ssimFull_call hs hm h hN h12 junk)]

/-- without cropping -/
theorem ssim_forward_uncropped (hs : SsimOf s g m k1 k2 sc cr) (hm : g.isMany = true → axes.length = m) (h : BlurCall g gp y1 ax axes p)
    (hN : sc = true → windowSize g axes.length ≠ 1) (h12 : y2.shape = y1.shape) (hr : axesOf y1.ndim rax = some raxes)
    (hrn : raxes.Nodup) (hc : cr = false ∨ gp = none) (junk : List Nat → α) :
    s.forward junk y1 y2 ax rax p = (padderAfter g gp y1.shape axes,
      .ok (meanOver (ssimMap k1 k2 (covFactor sc (windowSize g axes.length)) (blurred g gp axes) y1 y2) raxes,
        ssimMap k1 k2 (covFactor sc (windowSize g axes.length)) (blurred g gp axes) y1 y2)) := by
  rw [ssim_forward_call hs hm h hN h12 hr]
  have hd : ∀ a ∈ raxes, a < (ssimMap k1 k2 (covFactor sc (windowSize g axes.length)) (blurred g gp axes) y1 y2).ndim := by
    rw [ssimMap_ndim h]
    exact (checkAxes_spec hr).2
  have hcrop : ∀ t : Tensor α, s.cropBorder t (castV axes) (padderAfter g gp y1.shape axes) = (padderAfter g gp y1.shape axes, .ok t) := by
    intro t
    rcases hc with rfl | rfl
    · simp only [SSIM.cropBorder, hs.crop]
      cases gp <;> rfl
    · rfl
  have hred : s.reduce (ssimMap k1 k2 (covFactor sc (windowSize g axes.length)) (blurred g gp axes) y1 y2) (castV axes) (castV raxes)
      (padderAfter g gp y1.shape axes) = (padderAfter g gp y1.shape axes,
        .ok (meanOver (ssimMap k1 k2 (covFactor sc (windowSize g axes.length)) (blurred g gp axes) y1 y2) raxes)) := by
    simp only [SSIM.reduce]
    rw [Run.bind_ok (hcrop _), meanDims_eq hd hrn]
    rfl
  rw [Run.bind_ok hred]
  rfl

/-! ## cropping -/

/-- the entries of `x` are found in `y` where the padding `ops` puts them -/
structure CropOf (ops : List (Nat × AxisPad α)) (x y : Tensor α) : Prop where
  ndim : y.ndim = x.ndim
  size : ∀ k < x.ndim, x.shape.getD k 0 + beforeAt ops k ≤ y.shape.getD k 0
  get : ∀ ix, InB x.shape ix → y.get (embed ops ix) = x.get ix

theorem CropOf.inB {ops : List (Nat × AxisPad α)} (h : CropOf ops x y) {ix : List Nat} (hix : InB x.shape ix) : InB y.shape (embed ops ix) := by
  have hn : y.shape.length = x.shape.length := h.ndim
  rw [inB_iff]
  refine ⟨by simp [embed, hix.length_eq, hn], ?_⟩
  intro k hk
  have hk' : k < x.shape.length := by omega
  rw [embed_getD _ (by rw [hix.length_eq]; exact hk')]
  have := hix.lt hk'
  have := h.size k hk'
  omega

theorem padSeq_cropOf {ops : List (Nat × AxisPad α)} (h : OpsOK ops) (hnd : (ops.map Prod.fst).Nodup) (x : Tensor α)
    (hlt : ∀ o ∈ ops, o.1 < x.ndim) : CropOf ops x (padSeq x ops) where
  ndim := padSeq_ndim h x
  size := by
    intro k _
    rw [padSeq_shape h hnd x hlt, beforeAt]
    cases settingAt ops k with
    | none => simp
    | some s => simp only; omega
  get := fun ix hix => padSeq_crop h hnd x hlt hix

theorem windowCount_one {n k : Nat} (h0 : k ≠ 0) (h : k ≤ n) : windowCount n k 1 1 = n - k + 1 := by
  rw [windowCount_eq (by omega), Nat.one_mul, if_pos (by omega), Nat.div_one]
  omega

theorem slide_cropOf {ops : List (Nat × AxisPad α)} (h : CropOf ops x y) {o : PoolOp α}
    (ho : o.kernel ≠ [] → o.axis < x.ndim ∧ o.stride = 1 ∧ o.kernel.length ≤ x.shape.getD o.axis 0) :
    CropOf ops (slide x o) (slide y o) := by
  by_cases hk : o.kernel = []
  · simpa [slide, hk] using h
  obtain ⟨ha, hst, hl⟩ := ho hk
  have hn : y.shape.length = x.shape.length := h.ndim
  have hk0 : o.kernel.length ≠ 0 := by simpa using hk
  have hsz := h.size o.axis ha
  have ha' : o.axis < x.shape.length := ha
  have size : ∀ k < (slide x o).ndim, (slide x o).shape.getD k 0 + beforeAt ops k ≤ (slide y o).shape.getD k 0 := by
    intro k hk'
    rw [slide_ndim] at hk'
    rw [slide_shape, slide_shape, if_neg hk, if_neg hk, hst]
    by_cases hka : k = o.axis
    · subst hka
      rw [getD_set_self _ _ _ _ ha', getD_set_self _ _ _ _ (by omega), windowCount_one hk0 hl, windowCount_one hk0 (by omega)]
      omega
    · rw [getD_set_ne _ _ _ _ _ hka, getD_set_ne _ _ _ _ _ hka]
      exact h.size k hk'
  refine ⟨by rw [slide_ndim, slide_ndim, h.ndim], size, ?_⟩
  intro ix hix
  have hin : InB (slide y o).shape (embed ops ix) := by
    rw [inB_iff]
    have e : (slide y o).shape.length = (slide x o).shape.length := by
      have := slide_ndim x o
      have := slide_ndim y o
      have := h.ndim
      simp only [ndim] at *
      omega
    refine ⟨by simp [embed, hix.length_eq, e], ?_⟩
    intro k hk'
    rw [e] at hk'
    rw [embed_getD _ (by rw [hix.length_eq]; exact hk')]
    have := hix.lt hk'
    have := size k hk'
    omega
  have hlen : ix.length = x.shape.length := by
    rw [hix.length_eq]
    exact slide_ndim x o
  rw [slide_get hk hix, slide_get hk hin]
  congr 1
  apply List.map_congr_left
  intro j hj
  have hj := List.mem_range.1 hj
  congr 1
  rw [hst, ← h.get _ (by have := slide_inB (by omega) ha hk hix hj; rwa [hst] at this)]
  congr 1
  apply list_ext_getD (by simp [embed])
  intro k hk'
  have hk'' : k < ix.length := by simpa [embed] using hk'
  have hka : o.axis < (embed ops ix).length := by simp [embed]; omega
  by_cases hk3 : k = o.axis
  · subst hk3
    rw [getD_set_self _ _ _ _ hka, embed_getD _ hk'', embed_getD _ (by simpa using hk''), getD_set_self _ _ _ _ hk'']
    omega
  · rw [getD_set_ne _ _ _ _ _ hk3, embed_getD _ hk'', embed_getD _ (by simpa using hk''), getD_set_ne _ _ _ _ _ hk3]

theorem poolSeq_cropOf {ops : List (Nat × AxisPad α)} : ∀ {os : List (PoolOp α)} {x y : Tensor α}, CropOf ops x y → Fitting x os →
    (∀ o ∈ os, o.stride = 1) → CropOf ops (poolSeq x os) (poolSeq y os)
  | [], _, _, h, _, _ => h
  | o :: os, x, y, h, hf, h1 => by
    have hf' : _ ∧ _ := hf
    change CropOf ops (poolSeq (slide x o) os) (poolSeq (slide y o) os)
    exact poolSeq_cropOf (slide_cropOf h fun hk => ⟨(hf'.1 hk).1, h1 o (by simp), (hf'.1 hk).2.2⟩) hf'.2 fun q hq => h1 q (by simp [hq])

theorem filter_stride (g : Given (List α)) (axes : List Nat) (i : Nat) : ((PoolArgs.filter g).op axes i).stride = 1 := rfl

/-- inside the border the same-padded filter is the filter without padding -/
theorem filtered_cropOf {gp : PadArgs α} (h : SameCall (PoolArgs.filter g) gp x ax axes) (hf : Fitting x ((PoolArgs.filter g).ops axes)) :
    CropOf (sameOps (PoolArgs.filter g) gp x.shape axes) (valid g axes x) (filtered g gp x axes) := by
  have hnd : ((sameOps (PoolArgs.filter g) gp x.shape axes).map Prod.fst).Nodup := by rw [sameOps_fst]; exact h.nodup
  apply poolSeq_cropOf (padSeq_cropOf h.opsOK hnd x h.lt) hf
  intro o ho
  obtain ⟨i, _, rfl⟩ := List.mem_map.1 ho
  rfl

/-! ## the slices of `_crop_border` -/

/-- overwrite the windows of some axes -/
def setWindows (l : List (Nat × (Nat × Nat))) (W : List (Nat × Nat)) : List (Nat × Nat) := l.foldl (fun W o => W.set o.1 o.2) W

theorem setWindows_length : ∀ (l : List (Nat × (Nat × Nat))) (W : List (Nat × Nat)), (setWindows l W).length = W.length
  | [], _ => rfl
  | o :: l, W => by
    change (setWindows l (W.set o.1 o.2)).length = _
    rw [setWindows_length]; simp

theorem setWindows_none : ∀ {l : List (Nat × (Nat × Nat))} {W : List (Nat × Nat)} {k : Nat}, k ∉ l.map Prod.fst →
    (setWindows l W).getD k (0, 0) = W.getD k (0, 0)
  | [], _, _, _ => rfl
  | o :: l, W, k, h => by
    change (setWindows l (W.set o.1 o.2)).getD k (0, 0) = _
    rw [List.map_cons, List.mem_cons, not_or] at h
    rw [setWindows_none h.2, getD_set_ne _ _ _ _ _ h.1]

theorem setWindows_some : ∀ {l : List (Nat × (Nat × Nat))} {W : List (Nat × Nat)} {o : Nat × (Nat × Nat)}, o ∈ l → (l.map Prod.fst).Nodup →
    o.1 < W.length → (setWindows l W).getD o.1 (0, 0) = o.2
  | q :: l, W, o, h, hnd, hl => by
    change (setWindows l (W.set q.1 q.2)).getD o.1 (0, 0) = _
    rw [List.map_cons, List.nodup_cons] at hnd
    rcases List.mem_cons.1 h with rfl | h
    · rw [setWindows_none hnd.1, getD_set_self _ _ _ _ hl]
    · exact setWindows_some h hnd.2 (by simpa using hl)

theorem cropIdx_eq {pw : NdSpec Int} {shape : List Nat} : ∀ {as : List Nat} {ws : List (Nat × Nat)} {i : Nat} {idx : List PySlice}
    {W : List (Nat × Nat)}, as.length = ws.length → (∀ j < as.length, Padder.pairAt pw ((i + j : Nat) : Int) =
      .ok (((ws.getD j (0, 0)).1 : Int), ((ws.getD j (0, 0)).2 : Int))) → (∀ a ∈ as, a < shape.length) →
    (∀ j < as.length, (ws.getD j (0, 0)).1 + (ws.getD j (0, 0)).2 ≤ shape.getD (as.getD j 0) 0) →
    idx.length = shape.length → resolveAll idx shape = W.map toRng →
    ∃ idx', SSIM.cropIdx pw shape i (castV as) idx = .ok idx' ∧
      resolveAll idx' shape = (setWindows ((as.zip ws).map fun o => (o.1, (o.2.1, shape.getD o.1 0 - o.2.2))) W).map toRng
  | [], [], i, idx, W, _, _, _, _, _, hr => ⟨idx, rfl, hr⟩
  | a :: as, w :: ws, i, idx, W, hl, hp, ha, hw, hn, hr => by
    have ha0 : a < shape.length := ha a (by simp)
    have hp0 := hp 0 (by simp)
    have hw0 := hw 0 (by simp)
    simp only [List.getD_cons_zero, Nat.add_zero] at hp0 hw0
    have e1 : pyIndex shape (a : Int) = .ok (shape.getD a 0) := by
      rw [pyIndex_nat ha0]
      simp [ha0]
    have e2 : convDim idx.length (a : Int) = .ok a := convDim_nat (by omega)
    have e3 : ((shape.getD a 0 : Nat) : Int) - (w.2 : Int) = ((shape.getD a 0 - w.2 : Nat) : Int) := by omega
    have hr' : resolveAll (idx.set a (.between (w.1 : Int) ((shape.getD a 0 - w.2 : Nat) : Int))) shape =
        (W.set a (w.1, shape.getD a 0 - w.2)).map toRng := by
      rw [resolveAll_set hn, hr, resolve_between (by omega) (by omega), List.map_set]
    obtain ⟨idx', h1, h2⟩ := cropIdx_eq (pw := pw) (as := as) (ws := ws) (i := i + 1) (idx := idx.set a (.between (w.1 : Int) ((shape.getD a 0 - w.2 : Nat) : Int)))
      (by simpa using hl)
      (by
        intro j hj
        have := hp (j + 1) (by simpa using hj)
        simpa [Nat.add_assoc, Nat.add_comm 1 j] using this)
      (fun b hb => ha b (by simp [hb]))
      (by
        intro j hj
        have := hw (j + 1) (by simpa using hj)
        simpa using this)
      (by simpa using hn) hr'
    refine ⟨idx', ?_, h2⟩
    have ec : castV (a :: as) = (a : Int) :: castV as := rfl
    rw [ec]
    simp only [SSIM.cropIdx, hp0, ok_bind, e1, e2, e3]
    exact h1

theorem resolveAll_fulls (shape : List Nat) : resolveAll (List.replicate shape.length PySlice.full) shape = (shape.map fun n => (0, n)).map toRng := by
  induction shape with
  | nil => rfl
  | cons n shape ih =>
    rw [List.length_cons, List.replicate_succ, resolveAll, ih, resolve_full]
    rfl

theorem sameTotal_one {k n : Nat} : PoolArgs.sameTotal k 1 n = k - 1 := by
  rw [PoolArgs.sameTotal, ceilDiv_one]
  omega

/-- cropping a same-padded map that is a function of filtered images gives the same function of the images filtered without padding -/
theorem cropBorder_eq {gp : PadArgs α} {x : Tensor α} (hs : SsimOf s g m k1 k2 sc true) (hc : SameReq (PoolArgs.filter g) gp x ax axes)
    (hk : ∀ i < axes.length, (g.entry [] i).length ≤ x.shape.getD (axes.getD i 0) 0) {t v : Tensor α} (ht : t.shape = x.shape)
    (hv : v.shape = (valid g axes x).shape)
    (hcr : CropOf (sameOps (PoolArgs.filter g) gp x.shape axes) v t) :
    s.cropBorder t (castV axes) (padderAfter g (some gp) x.shape axes) = (padderAfter g (some gp) x.shape axes, .ok v) := by
  have hlt := (checkAxes_spec hc.axes_eq).2
  have hnd : ((sameOps (PoolArgs.filter g) gp x.shape axes).map Prod.fst).Nodup := by rw [sameOps_fst]; exact hc.nodup
  set ws := (PoolArgs.filter g).widths x.shape axes with hws
  have hwl : ws.length = axes.length := by simp [hws, PoolArgs.widths]
  have hwj : ∀ j < axes.length, ws.getD j (0, 0) = PoolArgs.samePair (g.entry [] j).length 1 (x.shape.getD (axes.getD j 0) 0) := by
    intro j hj
    simp [hws, PoolArgs.widths, hj, PoolArgs.op, PoolArgs.filter, Given.entry]
  have hposa : ∀ j < axes.length, 0 < x.shape.getD (axes.getD j 0) 0 := fun j hj => hc.pos _ (by simp [hj])
  obtain ⟨idx, h1, h2⟩ := cropIdx_eq (pw := ((gp.withWidths ws).padder axes.length).padWidth) (shape := t.shape) (as := axes) (ws := ws) (i := 0)
    (idx := List.replicate t.ndim .full) (W := t.shape.map fun n => (0, n)) hwl.symm
    (by
      intro j hj
      apply pairAt_of_get
      have := get_specOf (item := [2]) (f := PadArgs.pyWidth) (g := (gp.withWidths ws).width) (m := axes.length) hwl (0, 0) (j := j)
        (k := axes.length) (fun _ => le_refl _) hj
      have e : (specOf [2] PadArgs.pyWidth (Given.many ws)).get ((0 + j : Nat) : Int) = pyIndex (ws.map PadArgs.pyWidth) (j : Int) := by
        rw [Nat.zero_add]; rfl
      change (specOf [2] PadArgs.pyWidth (Given.many ws)).get ((0 + j : Nat) : Int) = _
      rw [e, pyIndex_nat (by simpa [hwl] using hj)]
      have hj' : j < ws.length := by omega
      simp [hj', PadArgs.pyWidth])
    (fun a ha => by rw [ht]; exact hlt a ha)
    (by
      intro j hj
      rw [hwj j hj, ht]
      have := hk j hj
      have := hposa j hj
      simp only [PoolArgs.samePair, sameTotal_one]
      omega)
    (by simp [ndim]) (resolveAll_fulls t.shape)
  set W := setWindows ((axes.zip ws).map fun o => (o.1, (o.2.1, t.shape.getD o.1 0 - o.2.2))) (t.shape.map fun n => (0, n)) with hW
  have hWl : W.length = t.shape.length := by rw [hW, setWindows_length]; simp
  have hfst : (((axes.zip ws).map fun o => (o.1, (o.2.1, t.shape.getD o.1 0 - o.2.2))).map Prod.fst) = axes := by
    rw [List.map_map]
    change (axes.zip ws).map Prod.fst = axes
    rw [List.map_fst_zip]
    omega
  have hWin : ∀ i < axes.length, W.getD (axes.getD i 0) (0, 0) = ((PoolArgs.samePair (g.entry [] i).length 1 (x.shape.getD (axes.getD i 0) 0)).1,
      x.shape.getD (axes.getD i 0) 0 - (PoolArgs.samePair (g.entry [] i).length 1 (x.shape.getD (axes.getD i 0) 0)).2) := by
    intro i hi
    have hmem : (axes.getD i 0, ((ws.getD i (0, 0)).1, t.shape.getD (axes.getD i 0) 0 - (ws.getD i (0, 0)).2)) ∈
        (axes.zip ws).map fun o => (o.1, (o.2.1, t.shape.getD o.1 0 - o.2.2)) := by
      rw [List.mem_map]
      refine ⟨(axes.getD i 0, ws.getD i (0, 0)), ?_, rfl⟩
      rw [List.mem_iff_getElem]
      refine ⟨i, by simp; omega, ?_⟩
      have : i < ws.length := by omega
      simp [hi, this]
    have := setWindows_some (W := t.shape.map fun n => (0, n)) hmem (by rw [hfst]; exact hc.nodup)
      (by simp only [List.length_map, ht]; exact hlt _ (by simp [hi]))
    rw [hW, this, hwj i hi, ht]
  have hWout : ∀ k, k < t.shape.length → k ∉ axes → W.getD k (0, 0) = (0, x.shape.getD k 0) := by
    intro k hk hka
    rw [hW, setWindows_none (by rw [hfst]; exact hka)]
    simp [List.getD_eq_getElem?_getD, ht, ht ▸ hk]
  -- sizes and offsets of the windows
  have hbefore : ∀ i < axes.length, beforeAt (sameOps (PoolArgs.filter g) gp x.shape axes) (axes.getD i 0) =
      (PoolArgs.samePair (g.entry [] i).length 1 (x.shape.getD (axes.getD i 0) 0)).1 := by
    intro i hi
    have := settingAt_some hnd (mem_sameOps (g := PoolArgs.filter g) (gp := gp) (shape := x.shape) hi)
    simp only at this
    rw [beforeAt, this]
    rfl
  have hbefore0 : ∀ k, k ∉ axes → beforeAt (sameOps (PoolArgs.filter g) gp x.shape axes) k = 0 := by
    intro k hk
    rw [beforeAt, settingAt_none (by rw [sameOps_fst]; exact hk)]
  have hlo : ∀ k < t.shape.length, (W.getD k (0, 0)).1 = beforeAt (sameOps (PoolArgs.filter g) gp x.shape axes) k := by
    intro k hk
    by_cases hka : k ∈ axes
    · obtain ⟨i, hi, rfl⟩ := List.mem_iff_getElem.1 hka
      have e : axes[i] = axes.getD i 0 := by simp [hi]
      rw [e, hWin i hi, hbefore i hi]
    · rw [hWout k hk hka, hbefore0 k hka]
  have hpo : PoolOps x ((PoolArgs.filter g).ops axes) := by
    refine ⟨hc.ops_nodup, ?_, ?_, ?_⟩
    · intro o ho _
      obtain ⟨i, hi, rfl⟩ := List.mem_map.1 ho
      exact hlt _ (by have := List.mem_range.1 hi; simp [PoolArgs.op, this])
    · intro o ho _
      obtain ⟨i, hi, rfl⟩ := List.mem_map.1 ho
      exact Nat.one_pos
    · intro o ho _
      obtain ⟨i, hi, rfl⟩ := List.mem_map.1 ho
      exact hk i (List.mem_range.1 hi)
  have hcnt : ∀ k < t.shape.length, (W.getD k (0, 0)).2 - (W.getD k (0, 0)).1 = v.shape.getD k 0 := by
    intro k hk'
    rw [hv, valid, poolSeq_shape hpo]
    by_cases hka : k ∈ axes
    · obtain ⟨i, hi, rfl⟩ := List.mem_iff_getElem.1 hka
      have e : axes[i] = axes.getD i 0 := by simp [hi]
      rw [e, hWin i hi]
      have hki := hk i hi
      have hpi := hposa i hi
      by_cases h0 : ((PoolArgs.filter g).op axes i).kernel = []
      · rw [find_ops_none]
        · have h0' : (g.entry [] i).length = 0 := by simpa [PoolArgs.op, PoolArgs.filter] using h0
          simp only [PoolArgs.samePair, sameTotal_one, h0']
          simp
        · intro j hj hij
          have : j = i := by
            simp only [List.getD_eq_getElem?_getD, List.getElem?_eq_getElem hj, List.getElem?_eq_getElem hi, Option.getD_some] at hij
            exact (List.Nodup.getElem_inj_iff hc.nodup).1 hij
          rw [this]; exact h0
      · rw [find_ops hc.nodup hi h0]
        have h0' : (g.entry [] i).length ≠ 0 := by simpa [PoolArgs.op, PoolArgs.filter] using h0
        change _ = windowCount _ (g.entry [] i).length 1 1
        rw [windowCount_one h0' hki]
        simp only [PoolArgs.samePair, sameTotal_one]
        omega
    · rw [hWout k hk' hka, find_ops_none]
      · simp
      · intro j hj hjk
        exact absurd (hjk ▸ (by simp [hj])) hka
  have hvl : v.shape.length = t.shape.length := by
    have := hcr.ndim
    simp only [ndim] at this
    omega
  have hgs : t.getSlice idx = v := by
    have hsh : (t.getSlice idx).shape = v.shape := by
      simp only [getSlice, h2, shape_ofFn]
      apply list_ext_getD
      · simp [hWl, hvl]
      · intro k hk'
        have hk'' : k < W.length := by simpa using hk'
        rw [← hcnt k (by omega)]
        simp [List.getD_eq_getElem?_getD, hk'', toRng]
    apply ext_get hsh
    intro ix hix
    have hix' : InB v.shape ix := by rw [← hsh]; exact hix
    have hix2 : InB ((resolveAll idx t.shape).map (·.cnt)) ix := hix
    rw [getSlice, get_ofFn hix2, h2]
    rw [← hcr.get ix hix']
    congr 1
    have hil := hix'.length_eq
    apply list_ext_getD
    · simp [rngMap, embed, hWl, hil, hvl]
    · intro k hk'
      have hk1 : k < ix.length := by simp [rngMap, hWl, hil, hvl] at hk'; omega
      have hk2 : k < W.length := by omega
      rw [embed_getD _ hk1, ← hlo k (by omega)]
      simp only [rngMap, List.getD_eq_getElem?_getD, List.getElem?_zipWith, List.getElem?_map, List.getElem?_eq_getElem hk2,
        List.getElem?_eq_getElem hk1, Option.map_some, Option.getD_some, toRng]
      omega
  simp only [SSIM.cropBorder, padderAfter, Option.map]
  have e1 : (Run.padder : Run α (Option (Padder α))) (some ((gp.withWidths ws).padder axes.length)) =
      (some ((gp.withWidths ws).padder axes.length), .ok (some ((gp.withWidths ws).padder axes.length))) := rfl
  rw [Run.bind_ok e1]
  simp only [hs.crop, if_true]
  rw [h1, Run.lift_bind, Run.pure_apply, hgs]

end TI
