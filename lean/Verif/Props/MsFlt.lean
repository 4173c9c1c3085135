import Verif.Proofs.MsFlt
import Verif.Spec.MsFlt
import Verif.Props.CasesMetrics

/-!
# MS-SSIM of images with entries that are not finite: C151
-/

set_option linter.unusedSectionVars false

namespace TI
open Tensor Spec

section
variable {pool : SepPool ℝ} {s : SSIM ℝ} {a : PoolArgs ℝ} {cr sc : Bool} {m : Nat} {ax rax : Axes} {axes raxes : List Nat} {k1 k2 : ℝ} {x y : Tensor ℝ} {X Y : Tensor (Flt ℝ)} {ws : List ℝ}

theorem init_built (hi : SSIM.init pool false k1 k2 sc cr = .ok s) (hb : Built pool a m) : Built s.pool (PoolArgs.filter a.kernel) m := by
  obtain ⟨pool', e, -⟩ := hb.poolIs.1.toFilter
  rw [SSIM.init, e, ok_bind] at hi
  cases hi
  exact Built.filter hb e

theorem InScore.collected {jx px : List Nat} (hpx : InB x.shape px) (h : InScore axes raxes jx px) :
    zeroed axes px ∈ collected (onesAt axes x.shape) (reducedAxes (onesAt axes x.shape).length raxes) jx := by
  rw [mem_collected, onesAt_length, ← hpx.length_eq]
  refine ⟨?_, h⟩
  rw [inB_iff]
  refine ⟨by rw [zeroed_length, onesAt_length, hpx.length_eq], fun k hk => ?_⟩
  rw [onesAt_length] at hk
  have hk' : k < px.length := by rw [hpx.length_eq]; exact hk
  rw [zeroed_getD hk', onesAt_getD hk]
  split_ifs
  · exact Nat.one_pos
  · exact hpx.lt hk

theorem inScore_of {jx px kx : List Nat} (hpx : InB x.shape px) (hz : zeroed axes px = kx)
    (hk : kx ∈ collected (onesAt axes x.shape) (reducedAxes (onesAt axes x.shape).length raxes) jx) : InScore axes raxes jx px := by
  rw [mem_collected, onesAt_length, ← hpx.length_eq, ← hz] at hk
  exact hk.2

/-- **C151.** Without padding, every entry of the multi-scale SSIM of two images with entries that are not finite is that of any images of numbers which agree with them wherever they
are finite, provided it is a mean over planes with finite pixels only (and the blur averages); it is NaN if one of the pixels of these planes is not finite, in either image (unless, in
the product form, the first weight is zero), and if there are no such pixels. -/
theorem C151_scores (hi : SSIM.init pool false k1 k2 sc cr = .ok s) (hb : Built pool a m) (hm : a.kernel.isMany = true → axes.length = m) (hw : 2 ≤ ws.length)
    (h : MsCall a.kernel none cr ws.length x ax axes none) (hN : sc = true → windowSize a.kernel axes.length ≠ 1) (hx : FillsIn x X) (hy : FillsIn y Y) (hxy : y.shape = x.shape)
    (hr : axesOf x.ndim rax = some raxes) (hrn : raxes.Nodup) (up : Bool) (eps : ℝ) (junk : List Nat → ℝ) (junk' : List Nat → Flt ℝ) :
    ∃ v V, (⟨s, ws, up, eps⟩ : MsSsim).forward junk x y ax rax none = (none, .ok v) ∧ (⟨s, ws, up, eps⟩ : MsSsim).forwardFlt junk' X Y ax rax none = (none, .ok V) ∧ V.shape = v.shape ∧
      ∀ jx, InB v.shape jx →
        (Averages a.kernel axes → k1 ≠ 0 → k2 ≠ 0 → (∃ px, InB x.shape px ∧ InScore axes raxes jx px) →
          (∀ px, InB x.shape px → InScore axes raxes jx px → IsFinite (X.get px) ∧ IsFinite (Y.get px)) → V.get jx = .num (v.get jx)) ∧
        ((up = true → ws.getD 0 0 ≠ 0) → (∃ px, InB x.shape px ∧ InScore axes raxes jx px ∧ ¬ (IsFinite (X.get px) ∧ IsFinite (Y.get px))) → V.get jx = .nan) ∧
        ((∀ px, InB x.shape px → ¬ InScore axes raxes jx px) → V.get jx = .nan) := by
  have hform := C80_formula (gp := none) hi hb hm hw h hN hxy hr hrn up eps junk
  obtain ⟨ws', w, rfl⟩ : ∃ l w, ws = l ++ [w] := by
    have hne : ws ≠ [] := by rintro rfl; simp at hw
    exact ⟨_, _, (List.dropLast_append_getLast hne).symm⟩
  have hl : (ws' ++ [w]).length = ws'.length + 1 := by simp
  have hne : ws' ≠ [] := by rintro rfl; simp at hw
  have h0 : (ws' ++ [w]).getD 0 0 = ws'.getD 0 0 := by cases ws' with
    | nil => exact absurd rfl hne
    | cons b l => rfl
  rw [hl] at h
  have hxr := fillsIn_iff.1 hx
  have hyr := fillsIn_iff.1 hy
  have hat : MsAt a.kernel none cr (0 + ws'.length) x axes none := by rw [Nat.zero_add]; exact h.at
  have hms : MsOf ⟨s, ws' ++ [w], up, eps⟩ a.kernel m k1 k2 sc cr up eps := ⟨ssimOf hi hb, rfl, rfl⟩
  have hbf := init_built hi hb
  set G : List Nat → Prop := fun kx => (Averages a.kernel axes ∧ k1 ≠ 0 ∧ k2 ≠ 0) ∧ ∀ px, InB x.shape px → zeroed axes px = kx → IsFinite (X.get px) ∧ IsFinite (Y.get px) with hGd
  set N : List Nat → Prop := fun kx => (∃ px, InB x.shape px ∧ zeroed axes px = kx ∧ ¬ (IsFinite (X.get px) ∧ IsFinite (Y.get px))) ∧ (up = true → ws'.getD 0 0 ≠ 0) with hNd
  have hX : FiniteOn axes G X := fun ix hix hg => (hg.2 ix (by rw [hx.1]; exact hix) rfl).1
  have hY : FiniteOn axes G Y := fun ix hix hg => (hg.2 ix (by rw [← hxy, hy.1]; exact hix) rfl).2
  obtain ⟨acc, X', Y', e, i1, i2, i3, i4, i5, i6, i7⟩ := levelsFlt_eq (N := N) (G := G) hms hbf hm hN (fun jx hg => hg.1) junk' ws' hat hxr hyr hxy hX hY rfl
    (Or.inl ⟨rfl, rfl, fun jx hn => hn, hne⟩)
  obtain ⟨Z, V1, z1, z2, z3, z4⟩ := ssimStep hms hbf hm hN i1 i3 i4 (atLevel_shape_congr ws'.length hxy) i5 i6 (fun jx hg => hg.1) junk'
  rw [i2] at z3 z4
  obtain ⟨b, b1, b2⟩ := i7.step (N' := fun _ => False) (t := MsSsim.termFlt ⟨s, ws' ++ [w], up, eps⟩ w V1) hms ⟨(termFlt_shape w V1).trans z3, fun jx hjx hg =>
    (termFlt_get hms w (by rw [z3]; exact hjx)).1 _ ((z4 jx hjx).1 hg), fun _ _ hf => hf.elim⟩
  have hlr : ∀ k ∈ raxes, k < (onesAt axes x.shape).length := by
    rw [onesAt_length]
    exact (checkAxes_spec hr).2
  have hbe : b = ofFn (onesAt axes x.shape) b.get := by
    rw [← b2.shape]
    exact eq_ofFn_get b
  have hdrop := meanDimsFlt_drop (α := ℝ) (S := onesAt axes x.shape) b.get hlr hrn
  rw [← hbe] at hdrop
  have hndim : X.ndim = x.ndim := hxr.ndim.symm
  have hYX : ¬ X.shape ≠ Y.shape := by rw [not_not, ← hx.1, ← hy.1, hxy]
  have hrun : (⟨s, ws' ++ [w], up, eps⟩ : MsSsim).forwardFlt junk' X Y ax rax none = (none, meanDimsFlt b (castV raxes) false) := by
    simp only [MsSsim.forwardFlt]
    rw [if_neg hYX, hndim, (checkAxes_spec h.axes_eq).1, Run.lift_bind, (checkAxes_spec hr).1, Run.lift_bind, hl, ← hx.1, h.check (ssimOf hi hb) hm, Run.lift_bind, List.dropLast_concat,
      Run.bind_ok e]
    simp only
    have hcrop : s.cropBorderFlt Z (castV axes) none = (none, .ok Z) := rfl
    rw [Run.bind_ok z1, Run.bind_ok hcrop, z2, Run.lift_bind, List.getLast?_concat]
    change (Run.lift (MsSsim.accumulateFlt ⟨s, ws' ++ [w], up, eps⟩ (some acc) (MsSsim.termFlt ⟨s, ws' ++ [w], up, eps⟩ w V1)) >>= fun final =>
      Run.lift (meanDimsFlt final (castV raxes) false)) _ = _
    rw [b1]
    rfl
  have hkey : ∀ kx, InB (onesAt axes x.shape) kx → InB x.shape kx ∧ zeroed axes kx = kx := by
    intro kx hkx
    refine ⟨inB_of_onesAt hkx fun k hk => hat.pos hk, zeroed_of_kept (S := x.shape) (inB_of_onesAt hkx fun k hk => hat.pos hk) hkx rfl⟩
  refine ⟨_, _, hform, hrun.trans (congrArg (Prod.mk none) hdrop), ?_, fun jx hjx' => ?_⟩
  · rfl
  have hjx : InB (onKept (reducedAxes (onesAt axes x.shape).length raxes) (onesAt axes x.shape)) jx := hjx'
  refine ⟨?_, ?_, ?_⟩
  · rintro hav e1 e2 ⟨px, hpx, hin⟩ hfin
    set M := msMap up eps k1 k2 (covFactor sc (windowSize a.kernel axes.length)) (scoreBlur a.kernel none cr axes) axes (ws' ++ [w]) x y with hM
    have hne' : collected (onesAt axes x.shape) (reducedAxes (onesAt axes x.shape).length raxes) jx ≠ [] := by
      intro e0
      have := InScore.collected hpx hin
      rw [e0] at this
      cases this
    have hv : (meanOver M raxes).get jx = mean ((collected (onesAt axes x.shape) (reducedAxes (onesAt axes x.shape).length raxes) jx).map M.get) := get_ofFn hjx
    rw [get_ofFn hjx, hv, ← meanFlt_nums (by simpa using hne'), List.map_map]
    congr 1
    apply List.map_congr_left
    intro kx hkx
    have hk := (mem_collected.1 hkx).1
    have hg : G kx := ⟨⟨hav, e1, e2⟩, fun px hpx hz => hfin px hpx (inScore_of hpx hz hkx)⟩
    rw [b2.good kx hk hg, Function.comp, hM, msMap_concat, get_ofFn hk, msOp_unit, scoreBlur_none]
  · rintro hw0 ⟨px, hpx, hin, hf⟩
    rw [get_ofFn hjx]
    apply meanFlt_nan
    refine List.mem_map.2 ⟨_, InScore.collected hpx hin, ?_⟩
    exact b2.bad _ (mem_collected.1 (InScore.collected hpx hin)).1 ⟨⟨px, hpx, rfl, hf⟩, by rw [← h0]; exact hw0⟩
  · intro hno
    rw [get_ofFn hjx]
    have : collected (onesAt axes x.shape) (reducedAxes (onesAt axes x.shape).length raxes) jx = [] := by
      rw [List.eq_nil_iff_forall_not_mem]
      intro kx hkx
      obtain ⟨k1, k2⟩ := hkey kx (mem_collected.1 hkx).1
      exact hno kx k1 (inScore_of k1 k2 hkx)
    rw [this]
    rfl

/-- **C151.** In the product form, weights that are all zero hide everything: the scores are one for all images, finite or not. -/
theorem C151_hidden (hi : SSIM.init pool false k1 k2 sc cr = .ok s) (hb : Built pool a m) (hm : a.kernel.isMany = true → axes.length = m) (hw : 2 ≤ ws.length)
    (h : MsCall a.kernel none cr ws.length x ax axes none) (hN : sc = true → windowSize a.kernel axes.length ≠ 1) (hx : X.shape = x.shape) (hy : Y.shape = x.shape)
    (hr : axesOf x.ndim rax = some raxes) (hrn : raxes.Nodup) (hz : ∀ w ∈ ws, w = 0) (eps : ℝ) (junk' : List Nat → Flt ℝ) :
    ∃ V, (⟨s, ws, true, eps⟩ : MsSsim).forwardFlt junk' X Y ax rax none = (none, .ok V) ∧
      ∀ jx, InB V.shape jx → (∃ px, InB x.shape px ∧ InScore axes raxes jx px) → V.get jx = .num 1 := by
  obtain ⟨ws', w, rfl⟩ : ∃ l w, ws = l ++ [w] := by
    have hne : ws ≠ [] := by rintro rfl; simp at hw
    exact ⟨_, _, (List.dropLast_append_getLast hne).symm⟩
  obtain rfl : w = 0 := hz w (by simp)
  have hl : (ws' ++ [(0 : ℝ)]).length = ws'.length + 1 := by simp
  have hne : ws' ≠ [] := by rintro rfl; simp at hw
  rw [hl] at h
  have hxr := filled_agrees X
  have hyr := filled_agrees Y
  have hxy : (filled Y).shape = (filled X).shape := hy.trans hx.symm
  have hat : MsAt a.kernel none cr (0 + ws'.length) (filled X) axes none := by rw [Nat.zero_add]; exact h.at.congr hx
  have hms : MsOf ⟨s, ws' ++ [0], true, eps⟩ a.kernel m k1 k2 sc cr true eps := ⟨ssimOf hi hb, rfl, rfl⟩
  have hbf := init_built hi hb
  obtain ⟨acc, X', Y', e, i1, i2, i3, i4, i5⟩ := levelsFlt_zero hms hbf hm hN junk' ws' (fun v hv => hz v (by simp [hv])) hat hxr hyr hxy rfl (Or.inl ⟨rfl, hne⟩)
  obtain ⟨Z, V1, z1, z2, z3, -⟩ := ssimStep (G := fun _ => False) hms hbf hm hN i1 i3 i4 (atLevel_shape_congr ws'.length hxy) (fun _ _ hf => hf.elim) (fun _ _ hf => hf.elim)
    (fun _ hf => hf.elim) junk'
  rw [i2] at z3
  obtain ⟨b, b1, b2⟩ := i5.step (N' := fun _ => False) (A' := fun _ => 1) (t := MsSsim.termFlt ⟨s, ws' ++ [0], true, eps⟩ 0 V1) hms ⟨(termFlt_shape 0 V1).trans z3, fun jx hjx hg =>
    termFlt_zero hms (by rw [z3]; exact hjx), fun _ _ hf => hf.elim⟩
  have hS : onesAt axes (filled X).shape = onesAt axes x.shape := by rw [show (filled X).shape = x.shape from hx]
  rw [hS] at b2
  have hlr : ∀ k ∈ raxes, k < (onesAt axes x.shape).length := by
    rw [onesAt_length]
    exact (checkAxes_spec hr).2
  have hbe : b = ofFn (onesAt axes x.shape) b.get := by
    rw [← b2.shape]
    exact eq_ofFn_get b
  have hdrop := meanDimsFlt_drop (α := ℝ) (S := onesAt axes x.shape) b.get hlr hrn
  rw [← hbe] at hdrop
  have hndim : X.ndim = x.ndim := congrArg List.length hx
  have hYX : ¬ X.shape ≠ Y.shape := by rw [not_not, hx, hy]
  have hrun : (⟨s, ws' ++ [0], true, eps⟩ : MsSsim).forwardFlt junk' X Y ax rax none = (none, meanDimsFlt b (castV raxes) false) := by
    simp only [MsSsim.forwardFlt]
    rw [if_neg hYX, hndim, (checkAxes_spec h.axes_eq).1, Run.lift_bind, (checkAxes_spec hr).1, Run.lift_bind, hl, hx, h.check (ssimOf hi hb) hm, Run.lift_bind, List.dropLast_concat,
      Run.bind_ok e]
    simp only
    have hcrop : s.cropBorderFlt Z (castV axes) none = (none, .ok Z) := rfl
    rw [Run.bind_ok z1, Run.bind_ok hcrop, z2, Run.lift_bind, List.getLast?_concat]
    change (Run.lift (MsSsim.accumulateFlt ⟨s, ws' ++ [0], true, eps⟩ (some acc) (MsSsim.termFlt ⟨s, ws' ++ [0], true, eps⟩ 0 V1)) >>= fun final =>
      Run.lift (meanDimsFlt final (castV raxes) false)) _ = _
    rw [b1]
    rfl
  refine ⟨_, hrun.trans (congrArg (Prod.mk none) hdrop), fun jx hjx' ⟨px, hpx, hin⟩ => ?_⟩
  have hjx : InB (onKept (reducedAxes (onesAt axes x.shape).length raxes) (onesAt axes x.shape)) jx := hjx'
  set l := collected (onesAt axes x.shape) (reducedAxes (onesAt axes x.shape).length raxes) jx with hld
  have hne' : l ≠ [] := by
    intro e0
    have := InScore.collected hpx hin
    rw [← hld, e0] at this
    cases this
  have hone : l.map b.get = (l.map fun _ => (1 : ℝ)).map Flt.num := by
    rw [List.map_map]
    apply List.map_congr_left
    intro kx hkx
    rw [b2.good kx (mem_collected.1 hkx).1 trivial]
    simp [msOp]
  rw [get_ofFn hjx, hone, meanFlt_nums (by simpa using hne')]
  congr 1
  have hpos : (l.length : ℝ) ≠ 0 := by
    have := List.length_pos_iff.2 hne'
    exact_mod_cast this.ne'
  simp [mean, hpos]

/-- **C151**: two images of different shapes are refused before the padder is touched. -/
theorem C151_rejects_shapes (ms : MsSsim) (h : X.shape ≠ Y.shape) (junk : List Nat → Flt ℝ) (p : Option (Padder ℝ)) : ms.forwardFlt junk X Y ax rax p = (p, .error .assertion) := by
  simp only [MsSsim.forwardFlt]
  rw [if_pos h]
  rfl

/-- **C151**: images that are too small for the number of levels are refused before the padder is touched. -/
theorem C151_rejects_small (hi : SSIM.init pool false k1 k2 sc cr = .ok s) (hb : Built pool a m) (hm : a.kernel.isMany = true → axes.length = m)
    (hax : axesOf X.ndim ax = some axes) (hr : axesOf X.ndim rax = some raxes) {i : Nat} (hi' : i < axes.length)
    (hsmall : 2 * X.shape.getD (axes.getD i 0) 0 ≤ (a.kernel.entry [] i).length * 2 ^ ws.length) (h12 : Y.shape = X.shape)
    (up : Bool) (eps : ℝ) (junk : List Nat → Flt ℝ) (p : Option (Padder ℝ)) : (⟨s, ws, up, eps⟩ : MsSsim).forwardFlt junk X Y ax rax p = (p, .error .assertion) := by
  simp only [MsSsim.forwardFlt]
  rw [if_neg (by simp [h12]), (checkAxes_spec hax).1, Run.lift_bind, (checkAxes_spec hr).1, Run.lift_bind, checkLarge_small hi hb hm hax hi' hsmall]
  rfl

/-- **C151**: with a single weight, images that are large enough are refused after their score is computed (TypeError), since there is nothing to multiply it with or to add it to; without
weights there is no last weight (IndexError).  The pixels have no influence. -/
theorem C151_rejects_short (hi : SSIM.init pool false k1 k2 sc cr = .ok s) (hb : Built pool a m) (hm : a.kernel.isMany = true → axes.length = m)
    (h : MsCall a.kernel none cr 1 x ax axes none) (hN : sc = true → windowSize a.kernel axes.length ≠ 1) (hx : X.shape = x.shape) (hy : Y.shape = x.shape) (hr : axesOf x.ndim rax = some raxes)
    (up : Bool) (eps : ℝ) (junk : List Nat → Flt ℝ) :
    (∀ w, (⟨s, [w], up, eps⟩ : MsSsim).forwardFlt junk X Y ax rax none = (none, .error .type)) ∧ (⟨s, [], up, eps⟩ : MsSsim).forwardFlt junk X Y ax rax none = (none, .error .index) := by
  have hs := ssimOf hi hb
  have hat : MsAt a.kernel none cr 0 (filled X) axes none := h.at.congr hx
  have hms : MsOf ⟨s, [], up, eps⟩ a.kernel m k1 k2 sc cr up eps := ⟨hs, rfl, rfl⟩
  obtain ⟨Z, V, z1, z2, -, -⟩ := ssimStep (G := fun _ => False) hms (init_built hi hb) hm hN hat (filled_agrees X) (filled_agrees Y) (hy.trans hx.symm) (fun _ _ hf => hf.elim)
    (fun _ _ hf => hf.elim) (fun _ hf => hf.elim) junk
  have hndim : X.ndim = x.ndim := congrArg List.length hx
  have hYX : ¬ X.shape ≠ Y.shape := by rw [not_not, hx, hy]
  have hcrop : s.cropBorderFlt Z (castV axes) none = (none, .ok Z) := rfl
  have hnil : ∀ ms : MsSsim, ms.levelsFlt junk (castV axes) [] none X Y none = (none, .ok (none, X, Y)) := fun _ => rfl
  have hcheck : s.checkLarge 0 x.shape 0 (castV axes) = .ok () := by
    apply checkLarge_eq (ms := ⟨s, [], true, 0⟩) hs hm 0 x.shape axes 0 (by omega) (checkAxes_spec h.axes_eq).2
    intro j hj
    rw [Nat.zero_add]
    have := h.large j hj
    omega
  refine ⟨fun w => ?_, ?_⟩
  · simp only [MsSsim.forwardFlt]
    rw [if_neg hYX, hndim, (checkAxes_spec h.axes_eq).1, Run.lift_bind, (checkAxes_spec hr).1, Run.lift_bind, hx, show [w].length = 1 from rfl, h.check hs hm, Run.lift_bind,
      show [w].dropLast = [] from rfl, Run.bind_ok (hnil _)]
    simp only
    rw [Run.bind_ok z1, Run.bind_ok hcrop, z2, Run.lift_bind]
    rfl
  · simp only [MsSsim.forwardFlt]
    rw [if_neg hYX, hndim, (checkAxes_spec h.axes_eq).1, Run.lift_bind, (checkAxes_spec hr).1, Run.lift_bind, hx, show ([] : List ℝ).length = 0 from rfl, hcheck, Run.lift_bind,
      show ([] : List ℝ).dropLast = [] from rfl, Run.bind_ok (hnil _)]
    simp only
    rw [Run.bind_ok z1, Run.bind_ok hcrop, z2, Run.lift_bind]
    rfl

end

/-- C151: a pair of images of two planes of 24 x 16 pixels with NaN in the last pixel of the first plane of one of them -/
example {pool : SepPool ℝ} {s : SSIM ℝ} (hb : Built pool MetricCase.window 2) (hi : SSIM.init pool false (1 / 100) (3 / 100) true true = .ok s) (up : Bool) (junk : List Nat → ℝ)
    (junk' : List Nat → Flt ℝ) :
    ∃ v V, (⟨s, [1 / 3, 2 / 3], up, 1 / 1000⟩ : MsSsim).forward junk (ofFn [2, 24, 16] fun ix => (ix.getD 1 0 : ℝ)) (ofFn [2, 24, 16] fun ix => (ix.getD 2 0 : ℝ)) (.seq [1, -1]) (.seq [1, -1]) none =
        (none, .ok v) ∧
      (⟨s, [1 / 3, 2 / 3], up, 1 / 1000⟩ : MsSsim).forwardFlt junk' (ofFn [2, 24, 16] fun ix => if ix = [0, 23, 15] then .nan else .num (ix.getD 1 0 : ℝ))
        (ofFn [2, 24, 16] fun ix => .num (ix.getD 2 0 : ℝ)) (.seq [1, -1]) (.seq [1, -1]) none = (none, .ok V) ∧
      V.get [0] = .nan ∧ V.get [1] = .num (v.get [1]) := by
  obtain ⟨v, V, e1, e2, e3, e4⟩ := C151_scores (x := ofFn [2, 24, 16] fun ix => (ix.getD 1 0 : ℝ)) (y := ofFn [2, 24, 16] fun ix => (ix.getD 2 0 : ℝ))
    (X := ofFn [2, 24, 16] fun ix => if ix = [0, 23, 15] then .nan else .num (ix.getD 1 0 : ℝ)) (Y := ofFn [2, 24, 16] fun ix => .num (ix.getD 2 0 : ℝ))
    hi hb (fun _ => rfl) (ws := [1 / 3, 2 / 3]) (le_refl 2) (MetricCase.msCall (x := ofFn [2, 24, 16] fun ix => (ix.getD 1 0 : ℝ)) rfl (Or.inl ⟨rfl, rfl⟩)) (fun _ => MetricCase.size)
    ⟨rfl, fun ix hix c hc => by
      have hix' : InB [2, 24, 16] ix := hix
      rw [get_ofFn hix'] at hc ⊢
      split_ifs at hc
      exact Flt.num.inj hc⟩
    ⟨rfl, fun ix hix c hc => by
      have hix' : InB [2, 24, 16] ix := hix
      rw [get_ofFn hix'] at hc ⊢
      exact Flt.num.inj hc⟩ rfl (rax := .seq [1, -1]) (raxes := [1, 2]) rfl (by decide) up (1 / 1000) junk junk'
  have hsh : v.shape = [2] := by
    have hform := C80_formula (gp := none) (y1 := ofFn [2, 24, 16] fun ix => (ix.getD 1 0 : ℝ)) hi hb (fun _ => rfl) (ws := [1 / 3, 2 / 3]) (le_refl 2)
      (MetricCase.msCall (x := ofFn [2, 24, 16] fun ix => (ix.getD 1 0 : ℝ)) rfl (Or.inl ⟨rfl, rfl⟩)) (fun _ => MetricCase.size)
      (y2 := ofFn [2, 24, 16] fun ix => (ix.getD 2 0 : ℝ)) rfl (rax := .seq [1, -1]) (raxes := [1, 2]) rfl (by decide) up (1 / 1000) junk
    rw [e1] at hform
    have := Except.ok.inj (Prod.mk.inj hform).2
    rw [this]
    rfl
  refine ⟨v, V, e1, e2, ?_, ?_⟩
  · refine ((e4 [0] (by rw [hsh]; decide)).2.1 (fun _ => by norm_num) ⟨[0, 23, 15], by decide, by unfold InScore; decide, ?_⟩)
    rw [get_ofFn (by decide), if_pos rfl]
    rintro ⟨⟨c, hc⟩, -⟩
    cases hc
  · refine ((e4 [1] (by rw [hsh]; decide)).1 MetricCase.averages (by norm_num) (by norm_num) ⟨[1, 0, 0], by decide, by unfold InScore; decide⟩ ?_)
    intro px hpx hin
    have hpx' : InB [2, 24, 16] px := hpx
    rw [get_ofFn hpx', get_ofFn hpx', if_neg (by rintro rfl; unfold InScore at hin; revert hin; decide)]
    exact ⟨⟨_, rfl⟩, ⟨_, rfl⟩⟩

/-- C151: 160 samples along the rows are not enough for the five levels of `MS_SSIM()`, whose window has 11 weights -/
example (X Y : Tensor (Flt ℝ)) (hX : X.shape = [1, 3, 480, 160]) (hY : Y.shape = X.shape) (junk : List Nat → Flt ℝ) (p : Option (Padder ℝ)) :
    ∃ s, SSIM.initGaussian (1 / 100) (3 / 100) true true = .ok s ∧
      (⟨s, MsSsim.defaultWeights, true, 1 / 100000000⟩ : MsSsim).forwardFlt junk X Y (.slice (.from 2)) (.slice (.from 1)) p = (p, .error .assertion) := by
  obtain ⟨s, pool, w, h1, h2, h3, -, h5, -⟩ := ssim_gaussian (1 / 100) (3 / 100) true true
  refine ⟨s, h1, C151_rejects_small h2 h3 (by intro h; cases h) (axes := [2, 3]) (raxes := [1, 2, 3]) (by rw [ndim, hX]; rfl) (by rw [ndim, hX]; rfl) (i := 1) (by decide) ?_ hY
    true (1 / 100000000) junk p⟩
  rw [hX]
  change 2 * 160 ≤ w.length * 2 ^ MsSsim.defaultWeights.length
  rw [h5]
  simp [MsSsim.defaultWeights]

/-- the same images with one weight, and with none -/
example {pool : SepPool ℝ} {s : SSIM ℝ} (hb : Built pool MetricCase.window 2) (hi : SSIM.init pool false (1 / 100) (3 / 100) true true = .ok s) (up : Bool) (junk : List Nat → Flt ℝ) :
    (⟨s, [1], up, 1 / 1000⟩ : MsSsim).forwardFlt junk (ofFn [2, 24, 16] fun _ => .nan) (ofFn [2, 24, 16] fun _ => .num 1) (.seq [1, -1]) (.seq [1, -1]) none = (none, .error .type) ∧
    (⟨s, [], up, 1 / 1000⟩ : MsSsim).forwardFlt junk (ofFn [2, 24, 16] fun _ => .nan) (ofFn [2, 24, 16] fun _ => .num 1) (.seq [1, -1]) (.seq [1, -1]) none = (none, .error .index) := by
  have hc := MetricCase.msNone (x := ofFn [2, 24, 16] fun _ => (0 : ℝ)) rfl (crop := true)
  obtain ⟨h1, h2⟩ := C151_rejects_short hi hb (fun _ => rfl) (x := ofFn [2, 24, 16] fun _ => 0) (X := ofFn [2, 24, 16] fun _ => .nan) (Y := ofFn [2, 24, 16] fun _ => .num 1)
    ⟨hc.axes_eq, hc.ne, hc.nodup, hc.fits, hc.kernel, fun i hi => by have := hc.large i hi; omega, hc.padder⟩ (fun _ => MetricCase.size) rfl rfl (rax := .seq [1, -1]) (raxes := [1, 2]) rfl up
    (1 / 1000) junk
  exact ⟨h1 1, h2⟩

end TI
