import Verif.Props.MsSsim
import Verif.Props.SsimExclude

/-!
# MS-SSIM: the levels, for any blur whose maps are known
-/

set_option linter.unusedSectionVars false

namespace TI
open Tensor Spec

/-- What is known of the scores of an SSIM object on images in `R r` (`r` more levels follow), with padders in `P`: the maps, cropped, are
those of the blur `b`, and they leave the padder `after` the shape of the image. -/
structure LevelRun (s : SSIM ℝ) (junk : List Nat → ℝ) (axes : List Nat) (k1 k2 f : ℝ) (P : Option (Padder ℝ) → Prop)
    (after : List Nat → Option (Padder ℝ)) (b : Tensor ℝ → Tensor ℝ) (R : Nat → Tensor ℝ → Prop) : Prop where
  ne : axes ≠ []
  nodup : axes.Nodup
  lt : ∀ {r y}, R r y → ∀ a ∈ axes, a < y.ndim
  two_le : ∀ {r y}, R (r + 1) y → ∀ a ∈ axes, 2 ≤ y.shape.getD a 0
  next : ∀ {r y}, R (r + 1) y → R r (halved axes y)
  congr : ∀ {r x y}, R r x → y.shape = x.shape → R r y
  post : ∀ S, P (after S)
  cs : ∀ {r y1 y2 p}, R r y1 → y2.shape = y1.shape → P p → ∃ M, s.csFull junk y1 y2 (castV axes) p = (after y1.shape, .ok M) ∧
    s.cropBorder M (castV axes) (after y1.shape) = (after y1.shape, .ok (csMap k2 f b y1 y2))
  ssim : ∀ {r y1 y2 p}, R r y1 → y2.shape = y1.shape → P p → ∃ M, s.ssimFull junk y1 y2 (castV axes) p = (after y1.shape, .ok M) ∧
    s.cropBorder M (castV axes) (after y1.shape) = (after y1.shape, .ok (ssimMap k1 k2 f b y1 y2))
  shape : ∀ {r y}, R r y → (b y).shape.length = y.shape.length ∧ onesAt axes (b y).shape = onesAt axes y.shape

namespace LevelRun
variable {s : SSIM ℝ} {junk : List Nat → ℝ} {axes raxes : List Nat} {k1 k2 f eps : ℝ} {P : Option (Padder ℝ) → Prop}
  {after : List Nat → Option (Padder ℝ)} {b : Tensor ℝ → Tensor ℝ} {R : Nat → Tensor ℝ → Prop} {ms : MsSsim} {up : Bool} {y1 y2 : Tensor ℝ}
  {ax rax : Axes} {ws : List ℝ} {p : Option (Padder ℝ)}

theorem term (hu : ms.useProd = up) (he : ms.eps = eps) (w : ℝ) (S : List Nat) (v : List Nat → ℝ) :
    ms.term w (ofFn S v) = ofFn S fun jx => msTerm up eps w (v jx) := by
  simp only [MsSsim.term, hu, he]
  cases up <;> simp [map_ofFn, msTerm]

theorem mean (h : LevelRun s junk axes k1 k2 f P after b R) {r : Nat} (hR : R r y1) (F : ℝ → ℝ → ℝ → ℝ → ℝ → ℝ) :
    (pointMap F b y1 y2).meanDims (castV axes) true = .ok (meanKept (pointMap F b y1 y2) axes) :=
  meanDims_keep h.ne (by
    intro a ha
    have := (h.shape hR).1
    have h2 := h.lt hR a ha
    rw [ndim, show (pointMap F b y1 y2).shape = (b y1).shape from rfl, this]
    exact h2) h.nodup

theorem halved_ones (h : LevelRun s junk axes k1 k2 f P after b R) {r : Nat} (hR : R (r + 1) y1) :
    onesAt axes (halved axes y1).shape = onesAt axes y1.shape := by
  apply onesAt_congr (halved_ndim axes y1)
  intro k _ hk
  rw [halved_size h.nodup (h.lt hR) (h.two_le hR), if_neg hk]

theorem levels (h : LevelRun ms.base junk axes k1 k2 f P after b R) (hu : ms.useProd = up) (he : ms.eps = eps) {S : List Nat} :
    ∀ (ws : List ℝ) {y1 y2 : Tensor ℝ} {r : Nat}
    {p : Option (Padder ℝ)} {acc : Option (Tensor ℝ)} {A : List Nat → ℝ}, R (r + ws.length) y1 → P p → y2.shape = y1.shape →
    onesAt axes y1.shape = S → AccIs up S acc A → ∃ acc' q,
      ms.levels junk (castV axes) ws acc y1 y2 p = (q, .ok (acc', atLevel axes ws.length y1, atLevel axes ws.length y2)) ∧ P q ∧
      R r (atLevel axes ws.length y1) ∧ onesAt axes (atLevel axes ws.length y1).shape = S ∧
      AccIs up S acc' (fun jx => msOp up (A jx) (msTotal up ((List.range ws.length).map (csTerm up eps k2 f b axes ws y1 y2 jx)))) ∧
      (ws ≠ [] → acc' ≠ none) ∧ (ws = [] → q = p ∧ acc' = acc)
  | [], y1, y2, r, p, acc, A, hR, hP, h12, hS, hA => by
    refine ⟨acc, p, rfl, hP, hR, hS, ?_, by simp, fun _ => ⟨rfl, rfl⟩⟩
    have : (fun jx => msOp up (A jx) (msTotal up ((List.range ([] : List ℝ).length).map (csTerm up eps k2 f b axes [] y1 y2 jx)))) = A := by
      funext jx
      simp [msTotal_nil, msOp_right]
    rw [this]
    exact hA
  | w :: ws, y1, y2, r, p, acc, A, hR, hP, h12, hS, hA => by
    have hR1 : R (r + ws.length + 1) y1 := hR
    set v := meanKept (csMap k2 f b y1 y2) axes with hv
    have hvS : v = ofFn S fun jx => v.get jx := meanKept_ofFn ((h.shape hR1).2.trans hS)
    obtain ⟨M, hcs, hcrop⟩ := h.cs hR1 h12 hP
    have hmean : (csMap k2 f b y1 y2).meanDims (castV axes) true = .ok v := h.mean hR1 (csIndex (k2 ^ 2) f)
    have hacc : (match acc with
        | none => (.ok (ms.term w v) : Except Err (Tensor ℝ))
        | some a => ms.accumulate (some a) (ms.term w v)) = .ok (ofFn S fun jx => msOp up (A jx) (msTerm up eps w (v.get jx))) := by
      have ht : ms.term w v = ofFn S fun jx => msTerm up eps w (v.get jx) := by
        conv_lhs => rw [hvS]
        exact term hu he w S _
      rw [ht]
      rcases hA with ⟨rfl, rfl⟩ | rfl
      · simp only [msOp_unit]
      · simp only [MsSsim.accumulate, hu]
        cases up <;> simp [iop_ofFn, msOp]
    have hd1 := downsample_eq (x := y1) h.nodup (h.lt hR1) (h.two_le hR1) junk
    have hR2 := h.congr hR1 h12
    have hd2 := downsample_eq (x := y2) h.nodup (h.lt hR2) (h.two_le hR2) junk
    obtain ⟨acc', q, e, i0, i1, i2, i3, i4, i5⟩ := levels h hu he ws (h.next hR1) (h.post y1.shape) (halved_shape_congr h12)
      ((h.halved_ones hR1).trans hS) (Or.inr rfl : AccIs up S (some (ofFn S fun jx => msOp up (A jx) (msTerm up eps w (v.get jx)))) _)
    refine ⟨acc', q, ?_, i0, i1, i2, ?_, ?_, by simp⟩
    · simp only [MsSsim.levels]
      rw [Run.bind_ok hcs, Run.bind_ok hcrop, hmean, Run.lift_bind]
      refine (Run.bind_ok (m := Run.lift _) (congrArg (Prod.mk _) hacc)).trans ?_
      rw [hd1, Run.lift_bind, hd2, Run.lift_bind]
      exact e
    · have : (fun jx => msOp up (A jx) (msTotal up ((List.range (w :: ws).length).map (csTerm up eps k2 f b axes (w :: ws) y1 y2 jx)))) =
          fun jx => msOp up (msOp up (A jx) (msTerm up eps w (v.get jx))) (msTotal up ((List.range ws.length).map
            (csTerm up eps k2 f b axes ws (halved axes y1) (halved axes y2) jx))) := by
        funext jx
        rw [List.length_cons, List.range_succ_eq_map, List.map_cons, List.map_map, msTotal_cons, msOp_assoc]
        rfl
      rw [this]
      exact i3
    · intro _
      rcases ws with _ | ⟨w', ws⟩
      · rw [(i5 rfl).2]; simp
      · exact i4 (by simp)

/-- the formula of the scores -/
theorem formula (h : LevelRun s junk axes k1 k2 f P after b R) {L : Nat} (hw : ws.length = L + 2) (hR : R (L + 1) y1) (hP : P p)
    (hcheck : s.checkLarge ws.length y1.shape 0 (castV axes) = .ok ()) (hax : axesOf y1.ndim ax = some axes)
    (h12 : y2.shape = y1.shape) (hr : axesOf y1.ndim rax = some raxes) (hrn : raxes.Nodup) (up : Bool) (eps : ℝ) :
    (⟨s, ws, up, eps⟩ : MsSsim).forward junk y1 y2 ax rax p =
      (after (atLevel axes (L + 1) y1).shape, .ok (meanOver (msMap up eps k1 k2 f b axes ws y1 y2) raxes)) := by
  obtain ⟨ws', w, rfl⟩ : ∃ l w, ws = l ++ [w] := by
    have hne : ws ≠ [] := by rintro rfl; simp at hw
    exact ⟨_, _, (List.dropLast_append_getLast hne).symm⟩
  have hl : ws'.length = L + 1 := by simpa using hw
  have hne : ws' ≠ [] := by rintro rfl; simp at hl
  obtain ⟨acc, q, e, i0, i1, i2, i3, i4, -⟩ := levels (ms := ⟨s, ws' ++ [w], up, eps⟩) (up := up) (eps := eps) (S := onesAt axes y1.shape) h rfl rfl ws'
    (y1 := y1) (y2 := y2) (r := 0) (p := p) (acc := none) (A := fun _ => msUnit up) (by rw [Nat.zero_add, hl]; exact hR) hP h12 rfl (Or.inl ⟨rfl, rfl⟩)
  have hz : (atLevel axes ws'.length y2).shape = (atLevel axes ws'.length y1).shape := atLevel_shape_congr ws'.length h12
  obtain ⟨M, hfull, hcrop⟩ := h.ssim i1 hz i0
  have hmean : (ssimMap k1 k2 f b (atLevel axes ws'.length y1) (atLevel axes ws'.length y2)).meanDims (castV axes) true =
      .ok (meanKept (ssimMap k1 k2 f b (atLevel axes ws'.length y1) (atLevel axes ws'.length y2)) axes) := h.mean i1 (ssimIndex (k1 ^ 2) (k2 ^ 2) f)
  have hterm : MsSsim.term ⟨s, ws' ++ [w], up, eps⟩ w (meanKept (ssimMap k1 k2 f b (atLevel axes ws'.length y1) (atLevel axes ws'.length y2)) axes) =
      ofFn (onesAt axes y1.shape) fun jx =>
      msTerm up eps w ((meanKept (ssimMap k1 k2 f b (atLevel axes ws'.length y1) (atLevel axes ws'.length y2)) axes).get jx) := by
    conv_lhs => rw [meanKept_ofFn (x := ssimMap k1 k2 f b (atLevel axes ws'.length y1) (atLevel axes ws'.length y2)) ((h.shape i1).2.trans i2)]
    exact term rfl rfl w _ _
  simp only [msOp_unit] at i3
  rcases i3 with ⟨rfl, -⟩ | rfl
  · exact absurd rfl (i4 hne)
  · have hfin : MsSsim.accumulate ⟨s, ws' ++ [w], up, eps⟩ (some (ofFn (onesAt axes y1.shape) fun jx => msTotal up ((List.range ws'.length).map
        (csTerm up eps k2 f b axes ws' y1 y2 jx)))) (ofFn (onesAt axes y1.shape) fun jx => msTerm up eps w
        ((meanKept (ssimMap k1 k2 f b (atLevel axes ws'.length y1) (atLevel axes ws'.length y2)) axes).get jx)) =
        .ok (msMap up eps k1 k2 f b axes (ws' ++ [w]) y1 y2) := by
      rw [msMap_concat]
      simp only [MsSsim.accumulate]
      cases up <;> simp [iop_ofFn, msOp]
    have hm : (msMap up eps k1 k2 f b axes (ws' ++ [w]) y1 y2).meanDims (castV raxes) false =
        .ok (meanOver (msMap up eps k1 k2 f b axes (ws' ++ [w]) y1 y2) raxes) := by
      apply meanDims_eq _ hrn
      intro k hk
      have : (msMap up eps k1 k2 f b axes (ws' ++ [w]) y1 y2).ndim = y1.ndim := onesAt_length _ _
      rw [this]
      exact (checkAxes_spec hr).2 k hk
    simp only [MsSsim.forward]
    rw [if_neg (by simp [h12]), (checkAxes_spec hax).1, Run.lift_bind, (checkAxes_spec hr).1, Run.lift_bind, hcheck, Run.lift_bind,
      List.dropLast_concat, Run.bind_ok e]
    simp only
    rw [Run.bind_ok hfull, Run.bind_ok hcrop, hmean, Run.lift_bind, List.getLast?_concat]
    change (Run.lift (MsSsim.accumulate ⟨s, ws' ++ [w], up, eps⟩ _ (MsSsim.term ⟨s, ws' ++ [w], up, eps⟩ w
      (meanKept (ssimMap k1 k2 f b (atLevel axes ws'.length y1) (atLevel axes ws'.length y2)) axes))) >>= fun final =>
      Run.lift (final.meanDims (castV raxes) false)) _ = _
    rw [hterm, hfin, Run.lift_bind, hm, hl]
    rfl

theorem level (h : LevelRun s junk axes k1 k2 f P after b R) : ∀ (n : Nat) {r : Nat} {y : Tensor ℝ}, R (r + n) y → R r (atLevel axes n y)
  | 0, _, _, hR => hR
  | n + 1, _, _, hR => level h n (h.next hR)

theorem level_ones (h : LevelRun s junk axes k1 k2 f P after b R) : ∀ (n : Nat) {r : Nat} {y : Tensor ℝ}, R (r + n) y →
    onesAt axes (atLevel axes n y).shape = onesAt axes y.shape
  | 0, _, _, _ => rfl
  | n + 1, r, y, hR => by
    have hR' : R (r + n + 1) y := hR
    rw [atLevel, level_ones h n (h.next hR'), h.halved_ones hR']

theorem level_pair {Q : Tensor ℝ → Tensor ℝ → Prop} (hQ : ∀ {y1 y2}, Q y1 y2 → Q (halved axes y1) (halved axes y2)) :
    ∀ (n : Nat) {y1 y2 : Tensor ℝ}, Q y1 y2 → Q (atLevel axes n y1) (atLevel axes n y2)
  | 0, _, _, h => h
  | n + 1, _, _, h => level_pair (Q := Q) hQ n (hQ h)

/-- scores between bounds -/
theorem between (h : LevelRun s junk axes k1 k2 f P after b R) {lo hi : ℝ} {Q : Tensor ℝ → Tensor ℝ → Prop}
    (hQ : ∀ {y1 y2}, Q y1 y2 → Q (halved axes y1) (halved axes y2))
    (hcs : ∀ {r y1 y2}, R r y1 → Q y1 y2 → Between lo hi (csMap k2 f b y1 y2))
    (hss : ∀ {r y1 y2}, R r y1 → Q y1 y2 → Between lo hi (ssimMap k1 k2 f b y1 y2))
    (hpos : ∀ {r y}, R r y → ∀ a ∈ axes, 0 < (b y).shape.getD a 0)
    {L : Nat} (hR : R L y1) (h12 : Q y1 y2) {i : Nat} (hi' : i ≤ L) (last : Bool) {jx : List Nat} (hjx : InB (onesAt axes y1.shape) jx) :
    lo ≤ (levelScore k1 k2 f b axes last (atLevel axes i y1) (atLevel axes i y2)).get jx ∧
      (levelScore k1 k2 f b axes last (atLevel axes i y1) (atLevel axes i y2)).get jx ≤ hi := by
  have hRi : R (L - i + i) y1 := by rw [Nat.sub_add_cancel hi']; exact hR
  have hlev := h.level i hRi
  have hsh : Q (atLevel axes i y1) (atLevel axes i y2) := level_pair (axes := axes) (Q := Q) hQ i h12
  have hb : Between lo hi (levelScore k1 k2 f b axes last (atLevel axes i y1) (atLevel axes i y2)) := by
    rw [levelScore]
    apply meanKept_between
    · cases last with
      | true => exact hss hlev hsh
      | false => exact hcs hlev hsh
    · intro k hk _
      have := hpos hlev k hk
      cases last <;> exact this
  apply hb
  have h2 : InB (onesAt axes (b (atLevel axes i y1)).shape) jx := by rw [(h.shape hlev).2, h.level_ones i hRi]; exact hjx
  cases last <;> exact h2

end LevelRun

/-! ## from the scores of the levels to the result -/

section
variable {axes raxes : List Nat} {k1 k2 f eps : ℝ} {b : Tensor ℝ → Tensor ℝ} {x y1 y2 : Tensor ℝ} {ws : List ℝ}

theorem msResult_self
    (hlev : ∀ i < ws.length, ∀ jx, InB (onesAt axes x.shape) jx →
      (levelScore k1 k2 f b axes (decide (i + 1 = ws.length)) (atLevel axes i x) (atLevel axes i x)).get jx = 1) (heps : eps ≤ 1)
    (hpos : ∀ k ∈ reducedAxes x.ndim raxes, 0 < x.shape.getD k 0) {jx : List Nat}
    (hjx : InB (meanOver (msMap true eps k1 k2 f b axes ws x x) raxes).shape jx) :
    (meanOver (msMap true eps k1 k2 f b axes ws x x) raxes).get jx = 1 := by
  revert jx hjx
  apply meanOver_constant
  · intro ix hix
    have hix' : InB (onesAt axes x.shape) ix := hix
    rw [msMap, get_ofFn hix', msTotal, if_pos rfl]
    apply List.prod_eq_one
    intro v hv
    obtain ⟨i, hi', rfl⟩ := List.mem_map.1 hv
    rw [msLevel, hlev i (List.mem_range.1 hi') ix hix', msTerm, if_pos rfl, max_eq_left heps, Real.one_rpow]
  · exact onesAt_pos rfl hpos

theorem msResult_range
    (hlev : ∀ i < ws.length, ∀ jx, InB (onesAt axes y1.shape) jx →
      (levelScore k1 k2 f b axes (decide (i + 1 = ws.length)) (atLevel axes i y1) (atLevel axes i y2)).get jx ≤ 1)
    (heps0 : 0 < eps) (heps : eps ≤ 1) (hws : ∀ w ∈ ws, 0 ≤ w)
    (hpos : ∀ k ∈ reducedAxes y1.ndim raxes, 0 < y1.shape.getD k 0) {jx : List Nat}
    (hjx : InB (meanOver (msMap true eps k1 k2 f b axes ws y1 y2) raxes).shape jx) :
    0 < (meanOver (msMap true eps k1 k2 f b axes ws y1 y2) raxes).get jx ∧
      eps ^ ws.sum ≤ (meanOver (msMap true eps k1 k2 f b axes ws y1 y2) raxes).get jx ∧
      (meanOver (msMap true eps k1 k2 f b axes ws y1 y2) raxes).get jx ≤ 1 := by
  have hbt : Between (eps ^ ws.sum) 1 (meanOver (msMap true eps k1 k2 f b axes ws y1 y2) raxes) := by
    apply meanOver_between
    · intro ix hix
      have hix' : InB (onesAt axes y1.shape) ix := hix
      rw [msMap, get_ofFn hix', msTotal, if_pos rfl]
      have := prod_rpow_between heps0 (fun i => max ((levelScore k1 k2 f b axes (decide (i + 1 = ws.length)) (atLevel axes i y1)
        (atLevel axes i y2)).get ix) eps) ws hws 0 (by
        intro i hi'
        rw [Nat.zero_add]
        exact ⟨le_max_right _ _, max_le (hlev i hi' ix hix') heps⟩)
      simp only [Nat.zero_add] at this
      simpa only [msLevel, msTerm, if_true] using this
    · exact onesAt_pos rfl hpos
  obtain ⟨h1, h2⟩ := hbt jx hjx
  exact ⟨lt_of_lt_of_le (Real.rpow_pos_of_pos heps0 _) h1, h1, h2⟩

end

/-! ## widths of filters -/

theorem sameOps_filter {α : Type} [Field α] [LinearOrder α] [IsStrictOrderedRing α] (g : Given (List α)) (gp : PadArgs α) (S T axes : List Nat) :
    sameOps (PoolArgs.filter g) gp S axes = sameOps (PoolArgs.filter g) gp T axes := by
  have : (PoolArgs.filter g).widths S axes = (PoolArgs.filter g).widths T axes := by
    simp only [PoolArgs.widths, filter_stride, PoolArgs.samePair, sameTotal_one]
  rw [sameOps, sameOps, this]

theorem checkLarge_exclude (s : SSIM ℝ) (L : Nat) (shape : List Nat) : ∀ (as : List Int) (i : Nat),
    s.checkLarge L shape i as = ({ s with exclude := false } : SSIM ℝ).checkLarge L shape i as
  | [], _ => rfl
  | a :: as, i => by simp only [SSIM.checkLarge, checkLarge_exclude s L shape as (i + 1)]

end TI
