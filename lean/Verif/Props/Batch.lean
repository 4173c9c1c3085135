import Verif.Proofs.Batch
import Verif.Props.FlipMetrics
import Verif.Props.EdgesGauss

/-!
# Axes that are not named are batch axes: C94
-/

set_option linter.unusedSectionVars false

namespace TI
open Tensor Spec

section
variable {α : Type} [Field α] [LinearOrder α] [IsStrictOrderedRing α]
variable {x y y1 y2 : Tensor α} {ax rax : Axes} {axes raxes : List Nat} {b : Nat} {index : List Nat}

/-! ## padding and pooling -/

/-- **C94.** Selecting positions of an axis that is not padded commutes with padding, in every mode that defines values: the slices along that axis
do not depend on each other, on their order or on their number. -/
theorem C94_pad {p : Padder α} {ss : List (AxisPad α)} (h : PadCall p x ax axes ss) (hs : Selects b index x.shape) (hb : b ∉ axes)
    (junk junk' : List Nat → α) :
    ∃ z, p.forward junk x ax = .ok z ∧ p.forward junk' (selected b index x) ax = .ok (selected b index z) := by
  have hne : ∀ o ∈ zipRight axes ss, o.1 ≠ b := fun o ho e => hb (e ▸ (zipRight_mem ho).1)
  have h' : PadCall p (selected b index x) ax axes ss := ⟨by rw [selected_ndim]; exact h.ndim_ne, by rw [selected_ndim]; exact h.axes_eq,
    h.nodup, h.len, h.reads, by
      intro o ho hw
      rw [selected_size (hne o ho)]
      exact h.valued o ho hw⟩
  refine ⟨_, forward_call h junk, ?_⟩
  rw [forward_call h' junk', padSeq_selected hs (fun o ho hw => (h.valued o ho hw).1) (zipRight_nodup h.nodup h.len_le)
    (fun o ho => (checkAxes_spec h.axes_eq).2 o.1 (zipRight_mem ho).1) hne fun o ho hw => (h.valued o ho hw).2.2]

section
variable {pool : SepPool α} {g : PoolArgs α} {m : Nat}

/-- **C94**: selecting positions of an axis that is not pooled commutes with pooling. -/
theorem C94_pool (hb : Built pool g m) (hax : axesOf x.ndim ax = some axes) (hnd : axes.Nodup) (hm : g.isMany = true → axes.length = m)
    (hsz : ∀ i < axes.length, (g.op axes i).kernel.length ≤ x.shape.getD (axes.getD i 0) 0) (hs : Selects b index x.shape) (hba : b ∉ axes)
    (junk junk' : List Nat → α) :
    ∃ y, SepPool.forward pool none junk x ax = (none, .ok y) ∧
      SepPool.forward pool none junk' (selected b index x) ax = (none, .ok (selected b index y)) := by
  have hpo := poolOps_of hb.poolIs.2.2 (hb.poolIs.1.fits_axes hm) hnd (checkAxes_spec hax).2 (by
    intro o ho
    obtain ⟨i, hi, rfl⟩ := mem_ops.1 ho
    exact hsz i hi)
  obtain ⟨h1, h2⟩ := Fitting_selected hs hpo.fitting (ops_axis_ne hba)
  refine ⟨_, hb.poolIs.1.forward_none hax hm hpo.fitting junk, ?_⟩
  rw [hb.poolIs.1.forward_none (x := selected b index x) (by rw [selected_ndim]; exact hax) hm h1 junk', h2]

/-- **C94** with a same padder; the padder is left in the same state. -/
theorem C94_pool_same {gp : PadArgs α} {p : Padder α} (hb : Built pool g m) (hc : SameCall g gp x ax axes) (hm : g.isMany = true → axes.length = m)
    (hp : Holds p gp) (hs : Selects b index x.shape) (hba : b ∉ axes) (junk junk' : List Nat → α) :
    ∃ q y, SepPool.forward pool (some p) junk x ax = (q, .ok y) ∧
      SepPool.forward pool (some p) junk' (selected b index x) ax = (q, .ok (selected b index y)) := by
  refine ⟨_, _, hb.poolIs.1.forward_same hc hm hp junk, ?_⟩
  rw [hb.poolIs.1.forward_same (hc.selected hba) hm hp junk', same_selected hc hs hba, selected_shape, widths_set hba]

end

/-! ## edge filters -/

section
variable [FloorRing α] {f : EdgeFilter α} {w : List α} {g : Given (List α)} {m : Nat} {gp : PadArgs α}

theorem Spec.EdgeSetup.selected (h : EdgeSetup g gp x ax axes) (hb : b ∉ axes) : EdgeSetup g gp (selected b index x) ax axes where
  axes_eq := by rw [selected_ndim]; exact h.axes_eq
  two := h.two
  nodup := h.nodup
  fits := h.fits
  pos := by
    intro a ha
    rw [selected_size (by rintro rfl; exact hb ha)]
    exact h.pos a ha
  uniform := h.uniform
  valued := h.valued
  keep := by
    refine h.keep.imp_right fun hk a ha => ?_
    rw [selected_size (by rintro rfl; exact hb ha)]
    exact hk a ha

theorem edgeResponse_selected (h : EdgeSetup g gp x ax axes) (hs : Selects b index x.shape) (hb : b ∉ axes) {a : Nat} (ha : a ∈ axes) :
    edgeResponse w g gp (Spec.selected b index x) axes a = Spec.selected b index (edgeResponse w g gp x axes a) := by
  have hc := h.edgeCall w ha
  have e : filtered (.one w) gp (Spec.selected b index x) [a] = Spec.selected b index (filtered (.one w) gp x [a]) :=
    same_selected hc.edge hs (by rintro hh; exact hb (List.mem_singleton.1 hh ▸ ha))
  rw [edgeResponse, edgeResponse, e]
  exact same_selected hc.smooth (by rw [h.edge_shape w ha]; exact hs) fun hh => hb (List.mem_of_mem_filter hh)

/-- **C94**: selecting positions of an axis that is neither differentiated nor smoothed commutes with all components of an edge filter. -/
theorem C94_edges (hb : EdgeBuilt f w g m) {ps : EdgePadders α} (hps : HoldsBoth ps gp) (h : EdgeSetup g gp x ax axes)
    (hm : g.isMany = true → axes.length - 1 = m) (hs : Selects b index x.shape) (hba : b ∉ axes) (junk junk' : List Nat → α) :
    ∃ ps' ps'' cs, f.allComponents ps junk x ax = (ps', .ok cs) ∧
      f.allComponents ps junk' (Spec.selected b index x) ax = (ps'', .ok (cs.map (Spec.selected b index))) := by
  obtain ⟨ps', e, -⟩ := C75_components hb hps h hm junk
  obtain ⟨ps'', e', -⟩ := C75_components hb hps (h.selected (index := index) hba) hm junk'
  refine ⟨ps', ps'', _, e, ?_⟩
  rw [e', List.map_map]
  congr 2
  apply List.map_congr_left
  intro a ha
  exact edgeResponse_selected h hs hba ha

end

/-! ## squared errors -/

theorem squaredError_selected (hs : Selects b index x.shape) (h : x.shape = y.shape) :
    squaredError (selected b index x) (selected b index y) = selected b index (squaredError x y) := by
  rw [squaredError, show selected b index (squaredError x y) = ofFn (x.shape.set b index.length) _ from rfl, selected_shape]
  apply ofFn_congr
  intro ix hix
  rw [selected_get hix, selected_get (by rw [← h]; exact hix), squaredError, get_ofFn (hs.inB hix)]

theorem squaredError_collected (f : List α → α) (ds : List Nat) :
    (ofFn (onKept ds x.shape) fun jx => f ((collected x.shape ds jx).map fun ix => (x.get ix - y.get ix) ^ 2)) =
      ofFn (onKept ds (squaredError x y).shape) fun jx => f ((collected (squaredError x y).shape ds jx).map (squaredError x y).get) := by
  apply ofFn_congr
  intro jx _
  congr 1
  apply List.map_congr_left
  intro ix hix
  rw [squaredError, get_ofFn (mem_collected.1 hix).1]

/-- **C94**: the squared errors of selected images are the selected squared errors, if that axis is not reduced. -/
theorem C94_mse (h : x.shape = y.shape) (hax : axesOf x.ndim ax = some axes) (hnd : axes.Nodup) (hs : Selects b index x.shape)
    (hb : b ∉ reducedAxes x.ndim axes) :
    (∃ e, mse .mean x y ax = .ok e ∧
      mse .mean (selected b index x) (selected b index y) ax = .ok (selected (keptPos x.ndim (reducedAxes x.ndim axes) b) index e)) ∧
    (∃ e, mse .sum x y ax = .ok e ∧
      mse .sum (selected b index x) (selected b index y) ax = .ok (selected (keptPos x.ndim (reducedAxes x.ndim axes) b) index e)) ∧
    ∃ e, mse .none x y ax = .ok e ∧ mse .none (selected b index x) (selected b index y) ax = .ok (selected b index e) := by
  have h' : (selected b index x).shape = (selected b index y).shape := by rw [selected_shape, selected_shape, h]
  have hax' : axesOf (selected b index x).ndim ax = some axes := by rw [selected_ndim]; exact hax
  refine ⟨⟨_, C55_mean h hax hnd, ?_⟩, ⟨_, C55_sum h hax hnd, ?_⟩, _, C55_none h hax, ?_⟩
  · rw [C55_mean h' hax' hnd, selected_ndim, squaredError_collected, squaredError_collected, squaredError_selected hs h,
      reduced_selected (x := squaredError x y) mean (fun _ _ h => mean_perm h) hs hb]
    rfl
  · rw [C55_sum h' hax' hnd, selected_ndim, squaredError_collected (fun l => l.sum), squaredError_collected (fun l => l.sum),
      squaredError_selected hs h, reduced_selected (x := squaredError x y) (fun l => l.sum) (fun _ _ h => h.sum_eq) hs hb]
    rfl
  · rw [C55_none h' hax']
    exact congrArg Except.ok (squaredError_selected hs h)

/-! ## SSIM -/

section
variable {s : SSIM α} {pool : SepPool α} {a : PoolArgs α} {m : Nat} {gp : Option (PadArgs α)} {p : Option (Padder α)} {k1 k2 : α} {sc cr : Bool}

theorem padderAfter_selected {g : Given (List α)} (hb : b ∉ axes) :
    padderAfter g gp (selected b index x).shape axes = padderAfter g gp x.shape axes := by
  cases gp with
  | none => rfl
  | some gp => simp only [padderAfter, Option.map, selected_shape, widths_set hb]

/-- **C94**: the SSIM map of selected images is the selected map, for any axis that is not blurred; the scores are selected as well, if that axis is
not reduced. -/
theorem C94_ssim (hi : SSIM.init pool false k1 k2 sc cr = .ok s) (hb : Built pool a m) (hm : a.kernel.isMany = true → axes.length = m)
    (h : BlurCall a.kernel gp y1 ax axes p) (hN : sc = true → windowSize a.kernel axes.length ≠ 1) (h12 : y2.shape = y1.shape)
    (hr : axesOf y1.ndim rax = some raxes) (hrn : raxes.Nodup) (hc : cr = false ∨ gp = none)
    (hs : Selects b index y1.shape) (hba : b ∉ axes) (junk junk' : List Nat → α) :
    ∃ q score score' full, s.forward junk y1 y2 ax rax p = (q, .ok (score, full)) ∧
      s.forward junk' (selected b index y1) (selected b index y2) ax rax p = (q, .ok (score', selected b index full)) ∧
      (b ∉ reducedAxes y1.ndim raxes → score' = selected (keptPos y1.ndim (reducedAxes y1.ndim raxes) b) index score) := by
  refine ⟨_, _, meanOver (ssimMap k1 k2 (covFactor sc (windowSize a.kernel axes.length)) (blurred a.kernel gp axes) (selected b index y1)
    (selected b index y2)) raxes, _, C79_formula hi hb hm h hN h12 hr hrn hc junk, ?_⟩
  rw [C79_formula hi hb hm (h.selected hs hba) hN (show (selected b index y2).shape = (selected b index y1).shape by rw [selected_shape, selected_shape, h12])
    (show axesOf (selected b index y1).ndim rax = some raxes by rw [selected_ndim]; exact hr) hrn hc junk']
  have e : ssimMap k1 k2 (covFactor sc (windowSize a.kernel axes.length)) (blurred a.kernel gp axes) (selected b index y1) (selected b index y2) =
      selected b index (ssimMap k1 k2 (covFactor sc (windowSize a.kernel axes.length)) (blurred a.kernel gp axes) y1 y2) :=
    pointMap_blur_selected (ssimIndex (k1 ^ 2) (k2 ^ 2) (covFactor (α := α) sc (windowSize a.kernel axes.length))) h h12 hs hba
  have hn : (ssimMap k1 k2 (covFactor sc (windowSize a.kernel axes.length)) (blurred a.kernel gp axes) y1 y2).ndim = y1.ndim := blurred_ndim h
  refine ⟨?_, fun hd => ?_⟩
  · rw [padderAfter_selected hba, e]
  · rw [e, meanOver_selected (show Selects b index (ssimMap k1 k2 (covFactor sc (windowSize a.kernel axes.length)) (blurred a.kernel gp axes) y1 y2).shape
      from blurred_selects h hs hba) (by rw [hn]; exact hd), hn]

end
end

/-! ## peak signal-to-noise ratio and MS-SSIM -/

theorem map_selected {x : Tensor ℝ} {b : Nat} {index : List Nat} (f : ℝ → ℝ) (hs : Selects b index x.shape) :
    (selected b index x).map f = selected b index (x.map f) := by
  apply ext_get (show ((selected b index x).map f).shape = (selected b index (x.map f)).shape from rfl)
  intro ix hix
  have hix' : InB (x.shape.set b index.length) ix := hix
  rw [selected_get (x := x.map f) hix', get_map f _ (show InB (selected b index x).shape ix from hix'), selected_get hix', get_map f _ (hs.inB hix')]

section
variable {x y y1 y2 : Tensor ℝ} {ax rax : Axes} {axes raxes : List Nat} {b : Nat} {index : List Nat}

/-- **C94**: the peak signal-to-noise ratios of selected images are the selected ratios, if that axis is not reduced. -/
theorem C94_psnr (h : x.shape = y.shape) (hax : axesOf x.ndim ax = some axes) (hnd : axes.Nodup) (hs : Selects b index x.shape)
    (hb : b ∉ reducedAxes x.ndim axes) (maxValue eps : ℝ) :
    ∃ e, psnr maxValue eps .mean x y ax = .ok e ∧
      psnr maxValue eps .mean (selected b index x) (selected b index y) ax = .ok (selected (keptPos x.ndim (reducedAxes x.ndim axes) b) index e) := by
  obtain ⟨⟨e, h1, h2⟩, -⟩ := C94_mse h hax hnd hs hb
  have hs' : Selects (keptPos x.ndim (reducedAxes x.ndim axes) b) index e.shape := by
    have := C55_mean h hax hnd
    rw [h1] at this
    have hsh := congrArg Tensor.shape (Except.ok.inj this)
    rw [hsh]
    exact ⟨by show _ < (onKept _ x.shape).length; rw [onKept_length]; exact keptPos_lt hs.axis hb,
      fun i hi => lt_of_lt_of_eq (hs.lt i hi) (onKept_getD (ds := reducedAxes x.ndim axes) hs.axis hb).symm⟩
  simp only [psnr, h1, h2, ok_bind]
  refine ⟨_, rfl, ?_⟩
  split_ifs with he
  · rw [map_selected _ hs', map_selected _ (show Selects _ index (e.map _).shape from hs')]
  · rw [map_selected _ hs']

end

theorem msMap_selected {g : Given (List ℝ)} {gp : Option (PadArgs ℝ)} {y1 y2 : Tensor ℝ} {axes : List Nat} {p : Option (Padder ℝ)} {b : Nat}
    {index : List Nat} {cr up : Bool} {eps k1 k2 f : ℝ} {ws : List ℝ} {L : Nat} (hL : ws.length = L + 1) (h : MsAt g gp cr L y1 axes p)
    (h12 : y2.shape = y1.shape) (hs : Selects b index y1.shape) (hb : b ∉ axes) :
    msMap up eps k1 k2 f (scoreBlur g gp cr axes) axes ws (selected b index y1) (selected b index y2) =
      selected b index (msMap up eps k1 k2 f (scoreBlur g gp cr axes) axes ws y1 y2) := by
  have hs' : Selects b index (onesAt axes y1.shape) := hs.of_size (onesAt_length _ _) (onesAt_size hs.axis hb)
  rw [msMap, selected_shape, onesAt_set hb,
    show selected b index (msMap up eps k1 k2 f (scoreBlur g gp cr axes) axes ws y1 y2) = ofFn ((onesAt axes y1.shape).set b index.length) _ from rfl]
  apply ofFn_congr
  intro jx hjx
  rw [msMap, get_ofFn (hs'.inB hjx)]
  congr 1
  apply List.map_congr_left
  intro i hi
  have hi' : i ≤ L := by have := List.mem_range.1 hi; omega
  have hat : MsAt g gp cr (L - i + i) y1 axes p := by rw [Nat.sub_add_cancel hi']; exact h
  have hsi := atLevel_selects (axes := axes) i hs hb
  rw [msLevel, msLevel, atLevel_selected i hat hs hb, atLevel_selected i (hat.congr h12) (by rw [h12]; exact hs) hb,
    levelScore_selected (MsAt.level i hat) (atLevel_shape_congr i h12) hsi hb]
  rw [selected_get]
  rw [levelScore_shape (MsAt.level i hat), atLevel_onesAt]
  exact hjx


section
variable {y1 y2 : Tensor ℝ} {ax rax : Axes} {axes raxes : List Nat} {b : Nat} {index : List Nat}
variable {s : SSIM ℝ} {pool : SepPool ℝ} {a : PoolArgs ℝ} {m : Nat} {gp : Option (PadArgs ℝ)} {p : Option (Padder ℝ)} {k1 k2 : ℝ}
  {sc cr up : Bool} {eps : ℝ} {ws : List ℝ}

/-- **C94**: the MS-SSIM scores of selected images are the selected scores, for an axis that is neither a content axis nor reduced. -/
theorem C94_msssim (hi : SSIM.init pool false k1 k2 sc cr = .ok s) (hb : Built pool a m) (hm : a.kernel.isMany = true → axes.length = m)
    (hw : 2 ≤ ws.length) (h : MsCall a.kernel gp cr ws.length y1 ax axes p) (hN : sc = true → windowSize a.kernel axes.length ≠ 1)
    (h12 : y2.shape = y1.shape) (hr : axesOf y1.ndim rax = some raxes) (hrn : raxes.Nodup) (hs : Selects b index y1.shape) (hba : b ∉ axes)
    (hd : b ∉ reducedAxes y1.ndim raxes) (up : Bool) (eps : ℝ) (junk junk' : List Nat → ℝ) :
    ∃ q t, (⟨s, ws, up, eps⟩ : MsSsim).forward junk y1 y2 ax rax p = (q, .ok t) ∧
      (⟨s, ws, up, eps⟩ : MsSsim).forward junk' (selected b index y1) (selected b index y2) ax rax p =
        (q, .ok (selected (keptPos y1.ndim (reducedAxes y1.ndim raxes) b) index t)) := by
  have h' : MsCall a.kernel gp cr ws.length (selected b index y1) ax axes p := ⟨by rw [selected_ndim]; exact h.axes_eq, h.ne, h.nodup, h.fits, h.kernel, by
    intro i hi
    rw [selected_size (by rintro rfl; exact hba (getD_mem_lt hi))]
    exact h.large i hi, h.padder⟩
  refine ⟨_, _, C80_formula hi hb hm hw h hN h12 hr hrn up eps junk, ?_⟩
  rw [C80_formula hi hb hm hw h' hN (show (selected b index y2).shape = (selected b index y1).shape by rw [selected_shape, selected_shape, h12])
    (show axesOf (selected b index y1).ndim rax = some raxes by rw [selected_ndim]; exact hr) hrn up eps junk']
  obtain ⟨L, hL⟩ : ∃ L, ws.length = L + 1 := ⟨ws.length - 1, by omega⟩
  have hat : MsAt a.kernel gp cr L y1 axes p := by rw [hL] at h; exact h.at
  have hn : (msMap up eps k1 k2 (covFactor sc (windowSize a.kernel axes.length)) (scoreBlur a.kernel gp cr axes) axes ws y1 y2).ndim = y1.ndim :=
    onesAt_length _ _
  rw [msMap_selected hL hat h12 hs hba, meanOver_selected (x := msMap up eps k1 k2 _ _ axes ws y1 y2)
      (hs.of_size (onesAt_length _ _) (onesAt_size hs.axis hba)) (by rw [hn]; exact hd), hn,
    atLevel_selected (r := 0) (ws.length - 1) (by rw [hL, Nat.add_sub_cancel, Nat.zero_add]; exact hat) hs hba, padderAfter_selected hba]

end

/-! ## concrete cases meeting the hypotheses -/

namespace BatchExample
open SsimExample

/-- two signals of four samples, one above the other -/
def pair (l : List ℚ) : Tensor ℚ := Tensor.ofFn [2, 4] fun ix => l.getD (ix.getD 0 0 * 4 + ix.getD 1 0) 0

/-- the second signal, twice, then the first -/
example : (selected 0 [1, 1, 0] (pair [1, 2, 4, 9, 0, 0, 3, 1])).data = [0, 0, 3, 1, 0, 0, 3, 1, 1, 2, 4, 9] := by decide +kernel

theorem selects (l : List ℚ) : Selects 0 [1, 1, 0] (pair l).shape := ⟨by show 0 < 2; decide, by show ∀ i ∈ [1, 1, 0], i < 2; decide⟩

theorem sameCall_pair (l : List ℚ) : SameCall (PoolArgs.filter (.one (avgKernel (α := ℚ) 3))) (args .replicate) (pair l) (.int 1) [1] where
  axes_eq := rfl
  ne := by decide
  nodup := by decide
  fits := by intro h; cases h
  rest := ⟨trivial, trivial, trivial, trivial⟩
  stride := by intro i _; exact Nat.one_pos
  pos := by show ∀ a ∈ [1], 0 < ([2, 4] : List Nat).getD a 0; decide
  valued := by
    intro o ho _
    obtain ⟨i, _, rfl⟩ := sameOps_mem ho
    exact ⟨by simp [sameSetting, AxisPad.rule?, args, Given.entry], by simp [sameSetting, args, Given.entry]⟩

/-- C94: a batch of two, blurred along the second axis and scored one by one -/
example (junk junk' : List Nat → ℚ) (u v : List ℚ) : ∃ (pool : SepPool ℚ) (s : SSIM ℚ),
    SepPool.avgInit (.leaf (some 3)) (.leaf none) = .ok pool ∧ SSIM.init pool false 1 1 false false = .ok s ∧
    ∃ q score full, s.forward junk (pair u) (pair v) (.int 1) (.int 1) (some ((args .replicate).padder 1)) = (q, .ok (score, full)) ∧
      s.forward junk' (selected 0 [1, 1, 0] (pair u)) (selected 0 [1, 1, 0] (pair v)) (.int 1) (.int 1) (some ((args .replicate).padder 1)) =
        (q, .ok (selected 0 [1, 1, 0] score, selected 0 [1, 1, 0] full)) := by
  obtain ⟨pool, h1, h2, _⟩ := C34_average_kernels (α := ℚ) (size := .one 3) (st := .one none) (m := 1) (by decide) trivial trivial
    (by intro s hs; simp [Given.values] at hs; simp [hs])
  obtain ⟨f, hf, _⟩ := h2.poolIs.1.toFilter
  have hi : SSIM.init pool false 1 1 false false = .ok (⟨f, false, 1, 1, false, false⟩ : SSIM ℚ) := by
    simp only [SSIM.init, hf, ok_bind]
  obtain ⟨q, score, score', full, e1, e2, e3⟩ := C94_ssim hi h2 (by intro h; cases h) (gp := some (args .replicate))
    (p := some ((args .replicate).padder 1)) ⟨⟨_, rfl, holds_padder _ 1⟩, sameCall_pair u⟩ (by intro h; cases h) (show (pair v).shape = (pair u).shape from rfl)
    (rax := .int 1) (raxes := [1]) rfl (by decide) (Or.inl rfl) (selects u) (by decide) junk junk'
  rw [e3 (by show 0 ∉ reducedAxes 2 [1]; decide)] at e2
  exact ⟨pool, _, h1, hi, q, score, full, e1, e2⟩

/-- C94: the average of three samples along the second axis -/
example : (do
    let p ← SepPool.avgInit (.leaf (some 3)) (.leaf (some 1))
    let r ← (SepPool.forward p none (fun _ => 0) (pair [1, 2, 3, 7, 0, 0, 3, 3]) (.int 1)).2
    let r' ← (SepPool.forward p none (fun _ => 0) (selected 0 [1, 1, 0] (pair [1, 2, 3, 7, 0, 0, 3, 3])) (.int 1)).2
    .ok (r.data, r'.data) : Except Err (List ℚ × List ℚ)).toOption = some ([2, 4, 1, 2], [1, 2, 1, 2, 2, 4]) := by decide +kernel

end BatchExample

/-- C94: the hypotheses hold for `SobelFilter` on the last two axes of a batch of two images -/
example (junk junk' : List Nat → ℚ) (x : Tensor ℚ) (hx : x.shape = [2, 3, 3]) : ∃ f : EdgeFilter ℚ, EdgeFilter.sobel false = .ok f ∧
    ∃ ps' ps'' cs, f.allComponents Example.reflectPadders junk x (.seq [1, 2]) = (ps', .ok cs) ∧
      f.allComponents Example.reflectPadders junk' (selected 0 [1, 1, 0] x) (.seq [1, 2]) = (ps'', .ok (cs.map (selected 0 [1, 1, 0]))) := by
  obtain ⟨f, h1, h2⟩ := Example.sobel_built
  refine ⟨f, h1, C94_edges h2 Example.reflect_holds (axes := [1, 2]) ?_ (by intro h; cases h)
    ⟨by rw [hx]; decide, by rw [hx]; show ∀ i ∈ [1, 1, 0], i < 2; decide⟩ (by decide) junk junk'⟩
  exact { axes_eq := by rw [ndim, hx]; rfl
          two := by decide
          nodup := by decide
          fits := by intro h; cases h
          pos := by rw [hx]; show ∀ a ∈ [1, 2], 0 < ([2, 3, 3] : List Nat).getD a 0; decide
          uniform := (Example.setup_impulse (g := .one []) rfl).uniform
          valued := (Example.setup_impulse (g := .one []) rfl).valued
          keep := Or.inl rfl }

end TI
