import Verif.Proofs.MsSsim

/-!
# Properties of MS-SSIM (C61, C62, C80)
-/

set_option linter.unusedSectionVars false

namespace TI
open Tensor Spec

variable {s : SSIM ℝ} {pool : SepPool ℝ} {a : PoolArgs ℝ} {m : Nat} {gp : Option (PadArgs ℝ)} {x y1 y2 : Tensor ℝ} {ax rax : Axes}
  {axes raxes : List Nat} {p q : Option (Padder ℝ)} {k1 k2 eps : ℝ} {sc cr up : Bool} {ws : List ℝ}

/-! ## C61: symmetry -/

/-- **C61.** MS-SSIM is symmetric: if a call succeeds, the call with the images exchanged returns the same scores and leaves the padder in
the same state.  For all blurs, padders, constants, weights and axes. -/
theorem C61_symmetric (ms : MsSsim) (junk : List Nat → ℝ) (y1 y2 : Tensor ℝ) (ax rax : Axes) (p q : Option (Padder ℝ)) (t : Tensor ℝ) :
    ms.forward junk y1 y2 ax rax p = (q, .ok t) ↔ ms.forward junk y2 y1 ax rax p = (q, .ok t) :=
  ⟨MsSsim.forward_swap, MsSsim.forward_swap⟩

/-- **C61**: images of different shapes are rejected. -/
theorem C61_rejects_shapes (ms : MsSsim) (junk : List Nat → ℝ) (h : y1.shape ≠ y2.shape) (ax rax : Axes) (p : Option (Padder ℝ)) :
    ms.forward junk y1 y2 ax rax p = (p, .error .assertion) := by
  simp only [MsSsim.forward]
  rw [if_pos h]
  rfl

/-! ## C80: the formula -/

theorem msOf (hi : SSIM.init pool false k1 k2 sc cr = .ok s) (hb : Built pool a m) (ws : List ℝ) (up : Bool) (eps : ℝ) :
    MsOf ⟨s, ws, up, eps⟩ a.kernel m k1 k2 sc cr up eps := ⟨ssimOf hi hb, rfl, rfl⟩

theorem Spec.MsCall.check {L : Nat} {g : Given (List ℝ)} (h : MsCall g gp cr L y1 ax axes p) (hs : SsimOf s g m k1 k2 sc cr)
    (hm : g.isMany = true → axes.length = m) : s.checkLarge L y1.shape 0 (castV axes) = .ok () := by
  apply checkLarge_eq (ms := ⟨s, [], true, 0⟩) hs hm L y1.shape axes 0 (by omega) (checkAxes_spec h.axes_eq).2
  intro j hj
  rw [Nat.zero_add]
  exact h.large j hj

/-- the call up to the last accumulation -/
theorem ms_forward {g : Given (List ℝ)} (hs : SsimOf s g m k1 k2 sc cr) (hm : g.isMany = true → axes.length = m) {w : ℝ}
    (h : MsCall g gp cr (ws.length + 1) y1 ax axes p) (hN : sc = true → windowSize g axes.length ≠ 1) (h12 : y2.shape = y1.shape)
    (hr : axesOf y1.ndim rax = some raxes) (junk : List Nat → ℝ) :
    ∃ acc, (⟨s, ws ++ [w], up, eps⟩ : MsSsim).forward junk y1 y2 ax rax p = (padderAfter g gp (atLevel axes ws.length y1).shape axes, do
      let final ← MsSsim.accumulate ⟨s, ws ++ [w], up, eps⟩ acc (ofFn (onesAt axes y1.shape) fun jx => msTerm up eps w
        ((meanKept (ssimMap k1 k2 (covFactor sc (windowSize g axes.length)) (scoreBlur g gp cr axes) (atLevel axes ws.length y1)
          (atLevel axes ws.length y2)) axes).get jx))
      final.meanDims (castV raxes) false) ∧
      AccIs up (onesAt axes y1.shape) acc (fun jx => msTotal up ((List.range ws.length).map
        (csTerm up eps k2 (covFactor sc (windowSize g axes.length)) (scoreBlur g gp cr axes) axes ws y1 y2 jx))) ∧
      (ws ≠ [] → acc ≠ none) ∧ (ws = [] → acc = none) := by
  have hms : MsOf ⟨s, ws ++ [w], up, eps⟩ g m k1 k2 sc cr up eps := ⟨hs, rfl, rfl⟩
  have hat : MsAt g gp cr (0 + ws.length) y1 axes p := by rw [Nat.zero_add]; exact h.at
  obtain ⟨acc, q, e, i1, i2, i3, i4, i5⟩ := levels_eq hms hm hN junk ws hat h12 rfl
    (Or.inl ⟨rfl, rfl⟩ : AccIs up (onesAt axes y1.shape) none fun _ => msUnit up)
  set z1 := atLevel axes ws.length y1
  set z2 := atLevel axes ws.length y2
  have hz : z2.shape = z1.shape := atLevel_shape_congr ws.length h12
  set f := covFactor (α := ℝ) sc (windowSize g axes.length)
  set b := scoreBlur g gp cr axes
  have hfull := ssimFull_call hs hm i1.blurCall hN hz junk
  have hcrop : s.cropBorder (ssimMap k1 k2 f (blurred g gp axes) z1 z2) (castV axes) (padderAfter g gp z1.shape axes) =
      (padderAfter g gp z1.shape axes, .ok (ssimMap k1 k2 f b z1 z2)) := i1.crop hs hz (ssimIndex (k1 ^ 2) (k2 ^ 2) f)
  have hmean : (ssimMap k1 k2 f b z1 z2).meanDims (castV axes) true = .ok (meanKept (ssimMap k1 k2 f b z1 z2) axes) :=
    i1.mean (ssimIndex (k1 ^ 2) (k2 ^ 2) f)
  have hmap := i1.map_shape (y2 := z2) (ssimIndex (k1 ^ 2) (k2 ^ 2) f)
  have hterm : MsSsim.term ⟨s, ws ++ [w], up, eps⟩ w (meanKept (ssimMap k1 k2 f b z1 z2) axes) = ofFn (onesAt axes y1.shape) fun jx =>
      msTerm up eps w ((meanKept (ssimMap k1 k2 f b z1 z2) axes).get jx) := by
    conv_lhs => rw [meanKept_ofFn (x := ssimMap k1 k2 f b z1 z2) (hmap.2.trans i2)]
    exact term_ofFn hms w _ _
  refine ⟨acc, ?_, ?_, i4, fun hw => (i5 hw).2⟩
  · simp only [MsSsim.forward]
    rw [if_neg (by simp [h12]), (checkAxes_spec h.axes_eq).1, Run.lift_bind, (checkAxes_spec hr).1, Run.lift_bind]
    have hl : (ws ++ [w]).length = ws.length + 1 := by simp
    rw [hl, h.check hs hm, Run.lift_bind, List.dropLast_concat, Run.bind_ok e]
    simp only
    rw [Run.bind_ok hfull, Run.bind_ok hcrop, hmean, Run.lift_bind, List.getLast?_concat]
    change (Run.lift (MsSsim.accumulate ⟨s, ws ++ [w], up, eps⟩ acc (MsSsim.term ⟨s, ws ++ [w], up, eps⟩ w
      (meanKept (ssimMap k1 k2 f b z1 z2) axes))) >>= fun final => Run.lift (final.meanDims (castV raxes) false)) _ = _
    rw [hterm]
    cases MsSsim.accumulate ⟨s, ws ++ [w], up, eps⟩ acc (ofFn (onesAt axes y1.shape) fun jx =>
      msTerm up eps w ((meanKept (ssimMap k1 k2 f b z1 z2) axes).get jx)) <;> rfl
  · simpa only [msOp_unit] using i3

theorem msMap_concat (w f : ℝ) (b : Tensor ℝ → Tensor ℝ) :
    msMap up eps k1 k2 f b axes (ws ++ [w]) y1 y2 = ofFn (onesAt axes y1.shape) fun jx =>
      msOp up (msTotal up ((List.range ws.length).map (csTerm up eps k2 f b axes ws y1 y2 jx)))
        (msTerm up eps w ((meanKept (ssimMap k1 k2 f b (atLevel axes ws.length y1) (atLevel axes ws.length y2)) axes).get jx)) := by
  rw [msMap]
  congr 1
  funext jx
  have hl : (ws ++ [w]).length = ws.length + 1 := by simp
  rw [hl, List.range_succ, List.map_append, List.map_singleton, msTotal_append]
  congr 1
  · congr 1
    apply List.map_congr_left
    intro i hi
    have hi' := List.mem_range.1 hi
    have : ¬ (i + 1 = (ws ++ [w]).length) := by rw [hl]; omega
    simp only [msLevel, csTerm, levelScore, this, decide_false, Bool.false_eq_true, if_false]
    congr 1
    rw [List.getD_eq_getElem?_getD, List.getElem?_append_left hi', ← List.getD_eq_getElem?_getD]
  · simp [msLevel, levelScore]

/-- **C80.** With at least two weights and images large enough, MS-SSIM returns the means over the reduced axes of the weighted product
(or sum) of the scores of all levels: the means over the content axes of the maps without the comparison of the means, and of the
SSIM map at the last level, of the images halved level by level; with `crop_border=True` these maps are made without padding. -/
theorem C80_formula (hi : SSIM.init pool false k1 k2 sc cr = .ok s) (hb : Built pool a m) (hm : a.kernel.isMany = true → axes.length = m)
    (hw : 2 ≤ ws.length) (h : MsCall a.kernel gp cr ws.length y1 ax axes p) (hN : sc = true → windowSize a.kernel axes.length ≠ 1)
    (h12 : y2.shape = y1.shape) (hr : axesOf y1.ndim rax = some raxes) (hrn : raxes.Nodup) (up : Bool) (eps : ℝ) (junk : List Nat → ℝ) :
    (⟨s, ws, up, eps⟩ : MsSsim).forward junk y1 y2 ax rax p =
      (padderAfter a.kernel gp (atLevel axes (ws.length - 1) y1).shape axes,
      .ok (meanOver (msMap up eps k1 k2 (covFactor sc (windowSize a.kernel axes.length)) (scoreBlur a.kernel gp cr axes) axes ws y1 y2) raxes)) := by
  obtain ⟨ws', w, rfl⟩ : ∃ l w, ws = l ++ [w] := by
    have hne : ws ≠ [] := by rintro rfl; simp at hw
    exact ⟨_, _, (List.dropLast_append_getLast hne).symm⟩
  have hl : (ws' ++ [w]).length = ws'.length + 1 := by simp
  have hne : ws' ≠ [] := by rintro rfl; simp at hw
  rw [hl] at h
  obtain ⟨acc, e, hacc, hsome, -⟩ := ms_forward (w := w) (up := up) (eps := eps) (ssimOf hi hb) hm h hN h12 hr junk
  rw [e, hl, Nat.add_sub_cancel]
  rcases hacc with ⟨rfl, -⟩ | rfl
  · exact absurd rfl (hsome hne)
  · have hfin : MsSsim.accumulate ⟨s, ws' ++ [w], up, eps⟩ (some (ofFn (onesAt axes y1.shape) fun jx => msTotal up ((List.range ws'.length).map
        (csTerm up eps k2 (covFactor sc (windowSize a.kernel axes.length)) (scoreBlur a.kernel gp cr axes) axes ws' y1 y2 jx))))
        (ofFn (onesAt axes y1.shape) fun jx => msTerm up eps w
        ((meanKept (ssimMap k1 k2 (covFactor sc (windowSize a.kernel axes.length)) (scoreBlur a.kernel gp cr axes) (atLevel axes ws'.length y1)
          (atLevel axes ws'.length y2)) axes).get jx)) =
        .ok (msMap up eps k1 k2 (covFactor sc (windowSize a.kernel axes.length)) (scoreBlur a.kernel gp cr axes) axes (ws' ++ [w]) y1 y2) := by
      rw [msMap_concat]
      simp only [MsSsim.accumulate]
      cases up <;> simp [iop_ofFn, msOp]
    rw [hfin, ok_bind, meanDims_eq _ hrn]
    intro k hk
    have : (msMap up eps k1 k2 (covFactor sc (windowSize a.kernel axes.length)) (scoreBlur a.kernel gp cr axes) axes (ws' ++ [w]) y1 y2).ndim = y1.ndim :=
      onesAt_length _ _
    rw [this]
    exact (checkAxes_spec hr).2 k hk

/-- the test of the sizes refuses a shape with a content axis that is too short for the number of levels -/
theorem checkLarge_small {S : List Nat} {levels : Nat} (hi : SSIM.init pool false k1 k2 sc cr = .ok s) (hb : Built pool a m) (hm : a.kernel.isMany = true → axes.length = m)
    (hax : axesOf S.length ax = some axes) {i : Nat} (hi' : i < axes.length)
    (hsmall : 2 * S.getD (axes.getD i 0) 0 ≤ (a.kernel.entry [] i).length * 2 ^ levels) : s.checkLarge levels S 0 (castV axes) = .error .assertion := by
  have key : ∀ (as : List Nat) (j : Nat), j + as.length = axes.length → (∀ a ∈ as, a < S.length) →
      (∃ t < as.length, 2 * S.getD (as.getD t 0) 0 ≤ (a.kernel.entry [] (j + t)).length * 2 ^ levels) →
      s.checkLarge levels S j (castV as) = .error .assertion := by
    intro as
    induction as with
    | nil => intro j _ _ ⟨t, ht, _⟩; simp at ht
    | cons c as ih =>
      intro j hj hlt ⟨t, ht, hle⟩
      have hsize := kernelSize_get (ssimOf hi hb) hm (i := j) (by simp at hj; omega)
      have hc : c < S.length := hlt c (by simp)
      have hn : pyIndex S (c : Int) = .ok (S.getD c 0) := by rw [pyIndex_nat hc]; simp [hc]
      have hcv : castV (c :: as) = (c : Int) :: castV as := rfl
      rw [hcv]
      simp only [SSIM.checkLarge, hn, ok_bind, hsize]
      split_ifs with hbig
      · cases t with
        | zero =>
          exfalso
          simp only [Nat.add_zero, List.getD_cons_zero] at hle
          have : (2 : Int) * (S.getD c 0 : Int) ≤ ((a.kernel.entry [] j).length : Int) * 2 ^ levels := by exact_mod_cast hle
          linarith
        | succ t =>
          apply ih (j + 1) (by simp at hj; omega) (fun b hb => hlt b (by simp [hb]))
          refine ⟨t, by simpa using ht, ?_⟩
          rw [show j + 1 + t = j + (t + 1) by omega]
          simpa using hle
      · rfl
  exact key axes 0 (by omega) (checkAxes_spec hax).2 ⟨i, hi', by rw [Nat.zero_add]; exact hsmall⟩

/-- **C80**: images that are too small for the number of levels are rejected, before the padder is touched. -/
theorem C80_rejects_small (hi : SSIM.init pool false k1 k2 sc cr = .ok s) (hb : Built pool a m) (hm : a.kernel.isMany = true → axes.length = m)
    (hax : axesOf y1.ndim ax = some axes) (hr : axesOf y1.ndim rax = some raxes) {i : Nat} (hi' : i < axes.length)
    (hsmall : 2 * y1.shape.getD (axes.getD i 0) 0 ≤ (a.kernel.entry [] i).length * 2 ^ ws.length) (h12 : y2.shape = y1.shape)
    (up : Bool) (eps : ℝ) (junk : List Nat → ℝ) (p : Option (Padder ℝ)) :
    (⟨s, ws, up, eps⟩ : MsSsim).forward junk y1 y2 ax rax p = (p, .error .assertion) := by
  simp only [MsSsim.forward]
  rw [if_neg (by simp [h12]), (checkAxes_spec hax).1, Run.lift_bind, (checkAxes_spec hr).1, Run.lift_bind,
    checkLarge_small hi hb hm hax hi' hsmall]
  rfl

/-! ## C62 -/

/-- **C62.** Every tuple of at least two weights is accepted.  What is missing for the full property: a single weight, for which it is
false (`C62_single_weight`). -/
theorem C62_accepts_partial (hi : SSIM.init pool false k1 k2 sc cr = .ok s) (hb : Built pool a m) (hm : a.kernel.isMany = true → axes.length = m)
    (hw : 2 ≤ ws.length) (h : MsCall a.kernel gp cr ws.length y1 ax axes p) (hN : sc = true → windowSize a.kernel axes.length ≠ 1)
    (h12 : y2.shape = y1.shape) (hr : axesOf y1.ndim rax = some raxes) (hrn : raxes.Nodup) (up : Bool) (eps : ℝ) (junk : List Nat → ℝ) :
    ∃ q t, (⟨s, ws, up, eps⟩ : MsSsim).forward junk y1 y2 ax rax p = (q, .ok t) :=
  ⟨_, _, C80_formula hi hb hm hw h hN h12 hr hrn up eps junk⟩

/-- **C62** is false: with a single weight every call that gets as far as the scores raises TypeError, since the product (or sum) of the
levels is still `None`. -/
theorem C62_single_weight (hi : SSIM.init pool false k1 k2 sc cr = .ok s) (hb : Built pool a m) (hm : a.kernel.isMany = true → axes.length = m)
    (w : ℝ) (h : MsCall a.kernel gp cr 1 y1 ax axes p) (hN : sc = true → windowSize a.kernel axes.length ≠ 1)
    (h12 : y2.shape = y1.shape) (hr : axesOf y1.ndim rax = some raxes) (up : Bool) (eps : ℝ) (junk : List Nat → ℝ) :
    (⟨s, [w], up, eps⟩ : MsSsim).forward junk y1 y2 ax rax p = (padderAfter a.kernel gp y1.shape axes, .error .type) := by
  obtain ⟨acc, e, -, -, hnone⟩ := ms_forward (ws := []) (w := w) (up := up) (eps := eps) (ssimOf hi hb) hm h hN h12 hr junk
  rw [hnone rfl] at e
  exact e

/-- **C80**: without weights a call that gets as far as the last score raises IndexError. -/
theorem C80_no_weights (hi : SSIM.init pool false k1 k2 sc cr = .ok s) (hb : Built pool a m) (hm : a.kernel.isMany = true → axes.length = m)
    (h : MsCall a.kernel gp cr 1 y1 ax axes p) (hN : sc = true → windowSize a.kernel axes.length ≠ 1)
    (h12 : y2.shape = y1.shape) (hr : axesOf y1.ndim rax = some raxes) (up : Bool) (eps : ℝ) (junk : List Nat → ℝ) :
    (⟨s, [], up, eps⟩ : MsSsim).forward junk y1 y2 ax rax p = (padderAfter a.kernel gp y1.shape axes, .error .index) := by
  have hs := ssimOf hi hb
  have hat : MsAt a.kernel gp cr 0 y1 axes p := h.at
  have hcheck : s.checkLarge 0 y1.shape 0 (castV axes) = .ok () := by
    apply checkLarge_eq (ms := ⟨s, [], true, 0⟩) hs hm 0 y1.shape axes 0 (by omega) (checkAxes_spec h.axes_eq).2
    intro j hj
    rw [Nat.zero_add]
    have := h.large j hj
    omega
  simp only [MsSsim.forward]
  rw [if_neg (by simp [h12]), (checkAxes_spec h.axes_eq).1, Run.lift_bind, (checkAxes_spec hr).1, Run.lift_bind]
  have e : (⟨s, [], up, eps⟩ : MsSsim).levels junk (castV axes) [] none y1 y2 p = (p, .ok (none, y1, y2)) := rfl
  rw [List.length_nil, hcheck, Run.lift_bind, List.dropLast_nil, Run.bind_ok e]
  simp only
  set f := covFactor (α := ℝ) sc (windowSize a.kernel axes.length)
  have hcrop : s.cropBorder (ssimMap k1 k2 f (blurred a.kernel gp axes) y1 y2) (castV axes) (padderAfter a.kernel gp y1.shape axes) =
      (padderAfter a.kernel gp y1.shape axes, .ok (ssimMap k1 k2 f (scoreBlur a.kernel gp cr axes) y1 y2)) :=
    hat.crop hs h12 (ssimIndex (k1 ^ 2) (k2 ^ 2) f)
  have hmean : (ssimMap k1 k2 f (scoreBlur a.kernel gp cr axes) y1 y2).meanDims (castV axes) true =
      .ok (meanKept (ssimMap k1 k2 f (scoreBlur a.kernel gp cr axes) y1 y2) axes) := hat.mean (ssimIndex (k1 ^ 2) (k2 ^ 2) f)
  rw [Run.bind_ok (ssimFull_call hs hm hat.blurCall hN h12 junk), Run.bind_ok hcrop, hmean, Run.lift_bind, List.getLast?_nil]
  rfl

/-! ## C61: self-similarity and range -/

theorem MsAt.level {g : Given (List ℝ)} : ∀ (n : Nat) {r : Nat} {y : Tensor ℝ}, MsAt g gp cr (r + n) y axes p → MsAt g gp cr r (atLevel axes n y) axes p
  | 0, _, _, h => h
  | n + 1, _, _, h => MsAt.level n (MsAt.next h)

/-- conditions under which the blurred moments are those of a distribution -/
structure Spec.MsPossible (g : Given (List ℝ)) (gp : Option (PadArgs ℝ)) (cr : Bool) (axes : List Nat) (k1 k2 : ℝ) : Prop where
  average : Averages g axes
  keeps : cr = false → KeepsMoments gp axes
  k1_ne : k1 ≠ 0
  k2_ne : k2 ≠ 0

theorem levelScore_between {g : Given (List ℝ)} {r : Nat} (h : MsAt g gp cr r y1 axes p) (hp : MsPossible g gp cr axes k1 k2)
    (h12 : y2.shape = y1.shape) (n : Nat) (last : Bool) :
    Between (-1) 1 (levelScore k1 k2 (covFactor sc n) (scoreBlur g gp cr axes) axes last y1 y2) := by
  obtain ⟨gp', p', e, hb, e1, e2⟩ := h.scoreCall
  have hk : KeepsMoments gp' axes := by
    cases cr with
    | true => rw [e1 rfl]; intro g hg; cases hg
    | false => rw [e2 rfl]; exact hp.keeps rfl
  rw [levelScore, e]
  apply meanKept_between
  · cases last with
    | true => exact ssimMap_between hb hp.average hk h12 hp.k1_ne hp.k2_ne n
    | false => exact csMap_between hb hp.average hk h12 hp.k2_ne n
  · intro k hk _
    have := blurred_pos hb (h.pos hk)
    cases last <;> exact this

theorem levelScore_self {g : Given (List ℝ)} {r : Nat} (h : MsAt g gp cr r x axes p) (hp : MsPossible g gp cr axes k1 k2) (n : Nat) (last : Bool)
    {jx : List Nat} (hjx : InB (onesAt axes x.shape) jx) :
    (levelScore k1 k2 (covFactor sc n) (scoreBlur g gp cr axes) axes last x x).get jx = 1 := by
  have hin : InB (levelScore k1 k2 (covFactor sc n) (scoreBlur g gp cr axes) axes last x x).shape jx := by
    have h1 := (h.map_shape (y2 := x) (ssimIndex (k1 ^ 2) (k2 ^ 2) (covFactor sc n))).2
    have h2 : InB (onesAt axes (scoreBlur g gp cr axes x).shape) jx := by rw [show onesAt axes (scoreBlur g gp cr axes x).shape = _ from h1]; exact hjx
    cases last <;> exact h2
  obtain ⟨gp', p', e, hb, e1, e2⟩ := h.scoreCall
  have hk : KeepsMoments gp' axes := by
    cases cr with
    | true => rw [e1 rfl]; intro g hg; cases hg
    | false => rw [e2 rfl]; exact hp.keeps rfl
  rw [levelScore, e] at hin ⊢
  have hb1 : Between 1 1 (meanKept (if last then ssimMap k1 k2 (covFactor sc n) (blurred g gp' axes) x x
      else csMap k2 (covFactor sc n) (blurred g gp' axes) x x) axes) := by
    apply meanKept_between
    · intro ix hix
      cases last with
      | true => rw [if_pos rfl, ssimMap_self hb hp.average hk hp.k1_ne hp.k2_ne n ix hix]; exact ⟨le_refl _, le_refl _⟩
      | false => rw [if_neg (by simp), csMap_self hb hp.average hk hp.k2_ne n ix hix]; exact ⟨le_refl _, le_refl _⟩
    · intro k hk _
      have := blurred_pos hb (h.pos hk)
      cases last <;> exact this
  have := hb1 jx hin
  exact le_antisymm this.2 this.1

theorem onesAt_level {g : Given (List ℝ)} : ∀ (n : Nat) {r : Nat} {y : Tensor ℝ}, MsAt g gp cr (r + n) y axes p →
    onesAt axes (atLevel axes n y).shape = onesAt axes y.shape
  | 0, _, _, _ => rfl
  | n + 1, r, y, h => by
    have h' : MsAt g gp cr (r + n + 1) y axes p := h
    have e := onesAt_level n h'.next
    rw [atLevel, e]
    apply onesAt_congr (halved_ndim axes y)
    intro k _ hk
    rw [halved_size h'.nodup h'.lt h'.two_le, if_neg hk]

/-- the scores of all levels are between -1 and 1 -/
theorem msLevel_score {g : Given (List ℝ)} (h : MsCall g gp cr ws.length y1 ax axes p) (hp : MsPossible g gp cr axes k1 k2)
    (h12 : y2.shape = y1.shape) {i : Nat} (hi : i < ws.length) {jx : List Nat} (hjx : InB (onesAt axes y1.shape) jx) (n : Nat) :
    -1 ≤ (levelScore k1 k2 (covFactor sc n) (scoreBlur g gp cr axes) axes (decide (i + 1 = ws.length)) (atLevel axes i y1) (atLevel axes i y2)).get jx ∧
    (levelScore k1 k2 (covFactor sc n) (scoreBlur g gp cr axes) axes (decide (i + 1 = ws.length)) (atLevel axes i y1) (atLevel axes i y2)).get jx ≤ 1 := by
  obtain ⟨L, hL⟩ : ∃ L, ws.length = L + 1 := ⟨ws.length - 1, by omega⟩
  rw [hL] at h
  have hat : MsAt g gp cr (L - i + i) y1 axes p := by rw [Nat.sub_add_cancel (by omega)]; exact h.at
  have hlev := MsAt.level i hat
  apply levelScore_between hlev hp (atLevel_shape_congr i h12)
  have h1 := (hlev.map_shape (y2 := atLevel axes i y2) (ssimIndex (k1 ^ 2) (k2 ^ 2) (covFactor sc n))).2
  rw [onesAt_level i hat] at h1
  generalize decide (i + 1 = ws.length) = last
  have h2 : InB (onesAt axes (scoreBlur g gp cr axes (atLevel axes i y1)).shape) jx := by
    rw [show onesAt axes (scoreBlur g gp cr axes (atLevel axes i y1)).shape = _ from h1]; exact hjx
  cases last <;> exact h2

theorem msLevel_self {g : Given (List ℝ)} (h : MsCall g gp cr ws.length x ax axes p) (hp : MsPossible g gp cr axes k1 k2)
    {i : Nat} (hi : i < ws.length) {jx : List Nat} (hjx : InB (onesAt axes x.shape) jx) (n : Nat) :
    (levelScore k1 k2 (covFactor sc n) (scoreBlur g gp cr axes) axes (decide (i + 1 = ws.length)) (atLevel axes i x) (atLevel axes i x)).get jx = 1 := by
  obtain ⟨L, hL⟩ : ∃ L, ws.length = L + 1 := ⟨ws.length - 1, by omega⟩
  rw [hL] at h
  have hat : MsAt g gp cr (L - i + i) x axes p := by rw [Nat.sub_add_cancel (by omega)]; exact h.at
  have hlev := MsAt.level i hat
  apply levelScore_self hlev hp
  rw [onesAt_level i hat]
  exact hjx

/-- no reduced axis of the scores is empty -/
theorem onesAt_pos {y : Tensor ℝ} {T : Tensor ℝ} (hT : T.shape = onesAt axes y.shape)
    (hpos : ∀ k ∈ reducedAxes y.ndim raxes, 0 < y.shape.getD k 0) : ∀ k < T.ndim, k ∈ reducedAxes T.ndim raxes → 0 < T.shape.getD k 0 := by
  have hn : T.ndim = y.ndim := by rw [ndim, hT]; exact onesAt_length _ _
  intro k hk hkr
  rw [hn] at hk hkr
  rw [hT, onesAt_getD hk]
  split_ifs with hka
  · exact Nat.one_pos
  · exact hpos k hkr

/-- **C61.** For kernels that are averages, with at least two weights and images large enough, without a padder or with any padder in a mode
that defines values (not `periodize`) if the border is cropped: MS-SSIM of an image with itself is 1 in the product form with `eps ≤ 1`.
Without cropping the padder has to fill with samples, means of samples or constants between 0 and 1. -/
theorem C61_self_partial (hi : SSIM.init pool false k1 k2 sc cr = .ok s) (hb : Built pool a m) (hm : a.kernel.isMany = true → axes.length = m)
    (hw : 2 ≤ ws.length) (h : MsCall a.kernel gp cr ws.length x ax axes p) (hN : sc = true → windowSize a.kernel axes.length ≠ 1)
    (hr : axesOf x.ndim rax = some raxes) (hrn : raxes.Nodup) (hp : MsPossible a.kernel gp cr axes k1 k2) (heps : eps ≤ 1)
    (hpos : ∀ k ∈ reducedAxes x.ndim raxes, 0 < x.shape.getD k 0) (junk : List Nat → ℝ) :
    ∃ q t, (⟨s, ws, true, eps⟩ : MsSsim).forward junk x x ax rax p = (q, .ok t) ∧ ∀ jx, InB t.shape jx → t.get jx = 1 := by
  refine ⟨_, _, C80_formula hi hb hm hw h hN rfl hr hrn true eps junk, ?_⟩
  apply meanOver_constant
  · intro ix hix
    have hix' : InB (onesAt axes x.shape) ix := hix
    rw [msMap, get_ofFn hix', msTotal, if_pos rfl]
    apply List.prod_eq_one
    intro v hv
    obtain ⟨i, hi', rfl⟩ := List.mem_map.1 hv
    rw [msLevel, msLevel_self h hp (List.mem_range.1 hi') hix', msTerm, if_pos rfl, max_eq_left heps, Real.one_rpow]
  · exact onesAt_pos rfl hpos

/-- **C61**, sum form: MS-SSIM of an image with itself is the sum of the weights. -/
theorem C61_self_sum_partial (hi : SSIM.init pool false k1 k2 sc cr = .ok s) (hb : Built pool a m) (hm : a.kernel.isMany = true → axes.length = m)
    (hw : 2 ≤ ws.length) (h : MsCall a.kernel gp cr ws.length x ax axes p) (hN : sc = true → windowSize a.kernel axes.length ≠ 1)
    (hr : axesOf x.ndim rax = some raxes) (hrn : raxes.Nodup) (hp : MsPossible a.kernel gp cr axes k1 k2)
    (hpos : ∀ k ∈ reducedAxes x.ndim raxes, 0 < x.shape.getD k 0) (junk : List Nat → ℝ) :
    ∃ q t, (⟨s, ws, false, eps⟩ : MsSsim).forward junk x x ax rax p = (q, .ok t) ∧ ∀ jx, InB t.shape jx → t.get jx = ws.sum := by
  refine ⟨_, _, C80_formula hi hb hm hw h hN rfl hr hrn false eps junk, ?_⟩
  apply meanOver_constant
  · intro ix hix
    have hix' : InB (onesAt axes x.shape) ix := hix
    rw [msMap, get_ofFn hix', msTotal, if_neg (by simp)]
    conv_rhs => rw [← map_getD_range ws]
    congr 1
    apply List.map_congr_left
    intro i hi'
    rw [msLevel, msLevel_self h hp (List.mem_range.1 hi') hix', msTerm, if_neg (by simp), one_mul]
  · exact onesAt_pos rfl hpos

/-- a product of powers of numbers between `eps` and 1 -/
theorem prod_rpow_between (h0 : 0 < eps) (v : Nat → ℝ) : ∀ (ws : List ℝ), (∀ w ∈ ws, 0 ≤ w) → ∀ (off : Nat), (∀ i, i < ws.length → eps ≤ v (off + i) ∧ v (off + i) ≤ 1) →
    eps ^ ws.sum ≤ ((List.range ws.length).map fun i => v (off + i) ^ ws.getD i 0).prod ∧
      ((List.range ws.length).map fun i => v (off + i) ^ ws.getD i 0).prod ≤ 1
  | [], _, _, _ => by simp
  | w :: ws, hw, off, hv => by
    have hw0 : 0 ≤ w := hw w (by simp)
    obtain ⟨v0, v1⟩ := hv 0 (by simp)
    rw [Nat.add_zero] at v0 v1
    obtain ⟨i1, i2⟩ := prod_rpow_between h0 v ws (fun b hb => hw b (by simp [hb])) (off + 1) (by
      intro i hi
      have := hv (i + 1) (by simpa using hi)
      rwa [show off + (i + 1) = off + 1 + i by omega] at this)
    have e : ((List.range (w :: ws).length).map fun i => v (off + i) ^ (w :: ws).getD i 0).prod =
        v off ^ w * ((List.range ws.length).map fun i => v (off + 1 + i) ^ ws.getD i 0).prod := by
      rw [List.length_cons, List.range_succ_eq_map, List.map_cons, List.map_map, List.prod_cons]
      congr 3
      funext i
      simp only [Function.comp, List.getD_cons_succ, Nat.succ_eq_add_one]
      rw [show off + (i + 1) = off + 1 + i by omega]
    have hpow : (0 : ℝ) ≤ eps ^ ws.sum := (Real.rpow_pos_of_pos h0 _).le
    have hl : eps ^ w ≤ v off ^ w := Real.rpow_le_rpow h0.le v0 hw0
    have hu : v off ^ w ≤ 1 := Real.rpow_le_one (h0.le.trans v0) v1 hw0
    have hge : 0 ≤ v off ^ w := Real.rpow_nonneg (h0.le.trans v0) _
    rw [e, List.sum_cons, Real.rpow_add h0]
    exact ⟨mul_le_mul hl i1 hpow hge, mul_le_one₀ hu (hpow.trans i1) i2⟩

/-- **C61.** Under the conditions of `C61_self_partial`, with weights that are not negative and `0 < eps ≤ 1`, the product form lies between
`eps ^ (sum of the weights)` and 1, in particular it is positive. -/
theorem C61_range_partial (hi : SSIM.init pool false k1 k2 sc cr = .ok s) (hb : Built pool a m) (hm : a.kernel.isMany = true → axes.length = m)
    (hw : 2 ≤ ws.length) (h : MsCall a.kernel gp cr ws.length y1 ax axes p) (hN : sc = true → windowSize a.kernel axes.length ≠ 1)
    (h12 : y2.shape = y1.shape) (hr : axesOf y1.ndim rax = some raxes) (hrn : raxes.Nodup) (hp : MsPossible a.kernel gp cr axes k1 k2)
    (heps0 : 0 < eps) (heps : eps ≤ 1) (hws : ∀ w ∈ ws, 0 ≤ w)
    (hpos : ∀ k ∈ reducedAxes y1.ndim raxes, 0 < y1.shape.getD k 0) (junk : List Nat → ℝ) :
    ∃ q t, (⟨s, ws, true, eps⟩ : MsSsim).forward junk y1 y2 ax rax p = (q, .ok t) ∧
      ∀ jx, InB t.shape jx → 0 < t.get jx ∧ eps ^ ws.sum ≤ t.get jx ∧ t.get jx ≤ 1 := by
  refine ⟨_, _, C80_formula hi hb hm hw h hN h12 hr hrn true eps junk, ?_⟩
  have hbt : Between (eps ^ ws.sum) 1 (meanOver (msMap true eps k1 k2 (covFactor sc (windowSize a.kernel axes.length))
      (scoreBlur a.kernel gp cr axes) axes ws y1 y2) raxes) := by
    apply meanOver_between
    · intro ix hix
      have hix' : InB (onesAt axes y1.shape) ix := hix
      rw [msMap, get_ofFn hix', msTotal, if_pos rfl]
      have := prod_rpow_between heps0 (fun i => max ((levelScore k1 k2 (covFactor sc (windowSize a.kernel axes.length))
        (scoreBlur a.kernel gp cr axes) axes (decide (i + 1 = ws.length)) (atLevel axes i y1) (atLevel axes i y2)).get ix) eps) ws hws 0 (by
        intro i hi'
        rw [Nat.zero_add]
        exact ⟨le_max_right _ _, max_le (msLevel_score h hp h12 hi' hix' _).2 heps⟩)
      simp only [Nat.zero_add] at this
      simpa only [msLevel, msTerm, if_true] using this
    · exact onesAt_pos rfl hpos
  intro jx hjx
  obtain ⟨h1, h2⟩ := hbt jx hjx
  exact ⟨lt_of_lt_of_le (Real.rpow_pos_of_pos heps0 _) h1, h1, h2⟩

/-- **C61**, sum form: under the conditions of `C61_self_partial` the scores are at most the sum of the absolute values of the weights. -/
theorem C61_range_sum_partial (hi : SSIM.init pool false k1 k2 sc cr = .ok s) (hb : Built pool a m) (hm : a.kernel.isMany = true → axes.length = m)
    (hw : 2 ≤ ws.length) (h : MsCall a.kernel gp cr ws.length y1 ax axes p) (hN : sc = true → windowSize a.kernel axes.length ≠ 1)
    (h12 : y2.shape = y1.shape) (hr : axesOf y1.ndim rax = some raxes) (hrn : raxes.Nodup) (hp : MsPossible a.kernel gp cr axes k1 k2)
    (hpos : ∀ k ∈ reducedAxes y1.ndim raxes, 0 < y1.shape.getD k 0) (junk : List Nat → ℝ) :
    ∃ q t, (⟨s, ws, false, eps⟩ : MsSsim).forward junk y1 y2 ax rax p = (q, .ok t) ∧
      ∀ jx, InB t.shape jx → |t.get jx| ≤ (ws.map fun w => |w|).sum := by
  refine ⟨_, _, C80_formula hi hb hm hw h hN h12 hr hrn false eps junk, ?_⟩
  have hbt : Between (-(ws.map fun w => |w|).sum) (ws.map fun w => |w|).sum (meanOver (msMap false eps k1 k2
      (covFactor sc (windowSize a.kernel axes.length)) (scoreBlur a.kernel gp cr axes) axes ws y1 y2) raxes) := by
    apply meanOver_between
    · intro ix hix
      have hix' : InB (onesAt axes y1.shape) ix := hix
      rw [msMap, get_ofFn hix', msTotal, if_neg (by simp)]
      rw [← abs_le]
      have hsum : ∀ l : List ℝ, |l.sum| ≤ (l.map fun v => |v|).sum := by
        intro l
        induction l with
        | nil => simp
        | cons v l ih => simpa using (abs_add_le v l.sum).trans (add_le_add_right ih _)
      refine (hsum _).trans ?_
      rw [List.map_map]
      conv_rhs => rw [← map_getD_range ws, List.map_map]
      apply List.sum_le_sum
      intro i hi'
      have hsc := msLevel_score (sc := sc) h hp h12 (List.mem_range.1 hi') hix' (windowSize a.kernel axes.length)
      simp only [Function.comp, msLevel, msTerm, Bool.false_eq_true, if_false, abs_mul]
      exact mul_le_of_le_one_left (abs_nonneg _) (abs_le.2 hsc)
    · exact onesAt_pos rfl hpos
  intro jx hjx
  exact abs_le.2 (hbt jx hjx)

/-! ## the default settings -/

/-- the conditions of a call without a padder, with one kernel for all axes -/
theorem msCall_one {w : List ℝ} {L : Nat} (hw : w ≠ []) (hax : axesOf x.ndim ax = some axes) (hne : axes ≠ []) (hnd : axes.Nodup)
    (hsz : ∀ k ∈ axes, w.length * 2 ^ L < 2 * x.shape.getD k 0) : MsCall (.one w) none cr L x ax axes none where
  axes_eq := hax
  ne := hne
  nodup := hnd
  fits := trivial
  kernel := fun _ _ => hw
  large := fun i hi => hsz _ (by simp [hi])
  padder := rfl

/-- **C61** for `MS_SSIM()`: Gaussian blur over 11 samples, the five default weights, product form, no padder.  On images whose content axes
have more than 176 samples the score of an image with itself is 1, and every score is positive and at most 1. -/
theorem C61_gaussian {k1 k2 eps : ℝ} (sc cr : Bool) {x y : Tensor ℝ} (hax : axesOf x.ndim ax = some axes) (hne : axes ≠ []) (hnd : axes.Nodup)
    (hsz : ∀ k ∈ axes, 176 < x.shape.getD k 0) (hxy : y.shape = x.shape) (hr : axesOf x.ndim rax = some raxes) (hrn : raxes.Nodup)
    (hk1 : k1 ≠ 0) (hk2 : k2 ≠ 0) (heps0 : 0 < eps) (heps : eps ≤ 1) (hpos : ∀ k ∈ reducedAxes x.ndim raxes, 0 < x.shape.getD k 0)
    (junk : List Nat → ℝ) :
    ∃ s, SSIM.initGaussian k1 k2 sc cr = .ok s ∧
      (∃ q t, (⟨s, MsSsim.defaultWeights, true, eps⟩ : MsSsim).forward junk x x ax rax none = (q, .ok t) ∧ ∀ jx, InB t.shape jx → t.get jx = 1) ∧
      ∃ q t, (⟨s, MsSsim.defaultWeights, true, eps⟩ : MsSsim).forward junk x y ax rax none = (q, .ok t) ∧
        ∀ jx, InB t.shape jx → 0 < t.get jx ∧ t.get jx ≤ 1 := by
  obtain ⟨s, pool, w, h1, h2, h3, h4, h5, _⟩ := ssim_gaussian k1 k2 sc cr
  have hl : MsSsim.defaultWeights.length = 5 := by simp [MsSsim.defaultWeights]
  have hcall : MsCall (.one w) none cr MsSsim.defaultWeights.length x ax axes none := by
    apply msCall_one (by rintro rfl; simp at h5) hax hne hnd
    intro k hk
    have := hsz k hk
    rw [hl, h5]
    omega
  have hp : MsPossible (.one w) none cr axes k1 k2 := ⟨averages_one h4 axes, (fun _ g hg => by cases hg), hk1, hk2⟩
  have hN : sc = true → windowSize (.one w) axes.length ≠ 1 := fun _ => windowSize_ne_one (by omega) (by simpa using hne)
  refine ⟨s, h1, ?_, ?_⟩
  · exact C61_self_partial h2 h3 (by intro h; cases h) (by rw [hl]; omega) hcall hN hr hrn hp heps hpos junk
  · obtain ⟨q, t, e, ht⟩ := C61_range_partial h2 h3 (by intro h; cases h) (by rw [hl]; omega) hcall hN hxy hr hrn hp heps0 heps (by
      intro v hv
      simp only [MsSsim.defaultWeights, List.mem_cons, List.not_mem_nil, or_false] at hv
      rcases hv with rfl | rfl | rfl | rfl | rfl <;> norm_num) hpos junk
    exact ⟨q, t, e, fun jx hjx => ⟨(ht jx hjx).1, (ht jx hjx).2.2⟩⟩

/-- **C62** for `MS_SSIM(weights=[w])` with the default blur and no padder: on every image whose content axes have more than 11 samples the
call raises TypeError. -/
theorem C62_gaussian_false {k1 k2 : ℝ} (w : ℝ) (up : Bool) (eps : ℝ) (sc cr : Bool) {x y : Tensor ℝ} (hax : axesOf x.ndim ax = some axes)
    (hne : axes ≠ []) (hnd : axes.Nodup) (hsz : ∀ k ∈ axes, 11 < x.shape.getD k 0) (hxy : y.shape = x.shape)
    (hr : axesOf x.ndim rax = some raxes) (junk : List Nat → ℝ) :
    ∃ s, SSIM.initGaussian k1 k2 sc cr = .ok s ∧ (⟨s, [w], up, eps⟩ : MsSsim).forward junk x y ax rax none = (none, .error .type) := by
  obtain ⟨s, pool, v, h1, h2, h3, h4, h5, _⟩ := ssim_gaussian k1 k2 sc cr
  have hcall : MsCall (.one v) none cr 1 x ax axes none := by
    apply msCall_one (by rintro rfl; simp at h5) hax hne hnd
    intro k hk
    have := hsz k hk
    rw [h5]
    omega
  exact ⟨s, h1, C62_single_weight h2 h3 (by intro h; cases h) w hcall (fun _ => windowSize_ne_one (by omega) (by simpa using hne)) hxy hr up eps junk⟩

/-! ## concrete cases meeting the hypotheses -/

/-- C61: a 200 x 177 image in a batch of two one-channel images -/
example (y : Tensor ℝ) (hy : y.shape = [2, 1, 200, 177]) (junk : List Nat → ℝ) : ∃ s, SSIM.initGaussian (1 / 100) (3 / 100) true true = .ok s ∧
    (∃ q t, (⟨s, MsSsim.defaultWeights, true, 1 / 100000000⟩ : MsSsim).forward junk y y (.slice (.from 2)) (.slice (.from 1)) none = (q, .ok t) ∧
      ∀ jx, InB t.shape jx → t.get jx = 1) ∧
    ∃ q t, (⟨s, MsSsim.defaultWeights, true, 1 / 100000000⟩ : MsSsim).forward junk y (Tensor.ofFn [2, 1, 200, 177] fun _ => 0) (.slice (.from 2)) (.slice (.from 1)) none =
      (q, .ok t) ∧ ∀ jx, InB t.shape jx → 0 < t.get jx ∧ t.get jx ≤ 1 :=
  C61_gaussian true true (axes := [2, 3]) (raxes := [1, 2, 3]) (by rw [ndim, hy]; rfl) (by decide) (by decide) (by rw [hy]; decide) (by rw [hy]; rfl)
    (by rw [ndim, hy]; rfl) (by decide) (by norm_num) (by norm_num) (by norm_num) (by norm_num) (by rw [ndim, hy]; decide) junk

/-- C62: a single weight -/
example (junk : List Nat → ℝ) : ∃ s, SSIM.initGaussian (1 / 100) (3 / 100) true true = .ok s ∧
    (⟨s, [1], true, 1 / 100000000⟩ : MsSsim).forward junk (Tensor.ofFn [12, 13] fun ix => (ix.getD 0 0 : ℝ)) (Tensor.ofFn [12, 13] fun _ => 0)
      .none .none none = (none, .error .type) :=
  C62_gaussian_false 1 true _ true true (x := Tensor.ofFn [12, 13] fun ix => (ix.getD 0 0 : ℝ)) (y := Tensor.ofFn [12, 13] fun _ => 0) (axes := [0, 1]) (raxes := [0, 1]) rfl (by decide) (by decide)
    (by change ∀ k ∈ [0, 1], 11 < [12, 13].getD k 0; decide) rfl rfl junk

/-- C61, C80: symmetric padding without cropping, per-axis kernels of two and three samples, three weights, 9 x 13 samples -/
example (x : Tensor ℝ) (hx : x.shape = [9, 13]) (p : Padder ℝ)
    (hp : Holds p ⟨.one (0, 0), .one .symmetric, .one (0, 0), .one (0, 0), .one (none, none)⟩) :
    MsCall (.many [[1 / 2, 1 / 2], [1 / 4, 1 / 2, 1 / 4]]) (some ⟨.one (0, 0), .one .symmetric, .one (0, 0), .one (0, 0), .one (none, none)⟩)
      false 3 x .none [0, 1] (some p) ∧
    MsPossible (.many [[1 / 2, 1 / 2], [1 / 4, 1 / 2, 1 / 4]]) (some ⟨.one (0, 0), .one .symmetric, .one (0, 0), .one (0, 0), .one (none, none)⟩)
      false [0, 1] (1 / 100) (3 / 100) := by
  refine ⟨⟨by rw [ndim, hx]; rfl, by decide, by decide, rfl, ?_, ?_, ⟨p, rfl, hp⟩, ⟨trivial, trivial, trivial, trivial⟩, ?_⟩, ?_, ?_, by norm_num, by norm_num⟩
  · intro i hi
    have : i = 0 ∨ i = 1 := by simp at hi; omega
    rcases this with rfl | rfl <;> simp [Given.entry]
  · intro i hi
    rw [hx]
    have : i = 0 ∨ i = 1 := by simp at hi; omega
    rcases this with rfl | rfl <;> simp [Given.entry]
  · intro i _
    simp [PadArgs.entry, AxisPad.rule?, Given.entry]
  · intro i hi _
    have : i = 0 ∨ i = 1 := by simp at hi; omega
    rcases this with rfl | rfl <;> refine ⟨?_, ?_⟩ <;> norm_num [Given.entry]
  · intro _ g hg i _
    simp only [Option.mem_def, Option.some.injEq] at hg
    subst hg
    trivial

end TI
