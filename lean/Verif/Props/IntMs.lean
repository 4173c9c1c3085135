import Verif.Model.IntMs
import Verif.Props.IntSsim
import Verif.Props.MsSsim

/-!
# Multi-scale structural similarity of images with integer entries: C148
-/

set_option linter.unusedSectionVars false

namespace TI
open Tensor Spec

section
variable {α : Type} [Field α] [LinearOrder α] [IsStrictOrderedRing α] [FloorRing α] {t : IntType}
variable {s : SSIM α} {junk : List Nat → t.Word} {P : Option (Padder α) → Prop} {p q : Option (Padder α)} {S T : List Nat}
variable {X Y : Tensor t.Word} {c : α} {g : Given (List α)} {m : Nat} {k1 k2 : α} {sc cr : Bool} {gp : Option (PadArgs α)} {ax : Axes} {axes : List Nat} {vaxes : List Int}

theorem zero_of_rel {W : Tensor t.Word} (h : (ofFn T fun _ => (0 : α)).Rel (SameInt (α := α)) W) : W = ofFn T fun _ => 0 := by
  have hs : W.shape = T := h.shape.symm
  rw [eq_ofFn_get W, hs]
  apply ofFn_congr
  intro ix hix
  obtain ⟨n, h1, h2⟩ := h.get ix
  rw [get_ofFn hix] at h1
  obtain rfl : n = 0 := Int.cast_eq_zero.1 h1.symm
  rw [h2, Int.cast_zero]

/-- the moments of blurred images that are zero -/
theorem muSigmaWord_zero (h : SteadyWord t s junk vaxes P q S T fun _ => ofFn T fun _ => 0) (hp : P p) (h1 : X.shape = S) (h2 : Y.shape = S) (hc : s.scaleFactor vaxes = .ok c) :
    s.muSigmaWord t junk X Y vaxes p = (q, .ok ⟨ofFn T fun _ => 0, ofFn T fun _ => 0, ofFn T fun _ => 0, ofFn T fun _ => 0, ofFn T fun _ => 0, ofFn T fun _ => 0, c⟩) := by
  have run : ∀ {p} (_ : P p) (Z : Tensor t.Word), Z.shape = S → s.blurWord t junk Z vaxes p = (q, .ok (ofFn T fun _ => 0)) := by
    intro p hp Z hZ
    obtain ⟨W, w1, w2⟩ := h.run p hp _ Z hZ (numbers_sameInt (α := α) Z)
    rw [w1, zero_of_rel w2]
  have prod : ∀ {A B : Tensor t.Word}, A.shape = S → B.shape = S → ∃ C : Tensor t.Word, bop (fun u v : t.Word => u * v) A B = .ok C ∧ C.shape = S := by
    intro A B hA hB
    refine ⟨ofFn S fun ix => A.get ix * B.get ix, ?_, rfl⟩
    conv_lhs => rw [eq_ofFn_get A, eq_ofFn_get B, hA, hB]
    exact bop_ofFn _ _ _ _
  obtain ⟨A, a1, a2⟩ := prod h1 h1
  obtain ⟨B, b1, b2⟩ := prod h2 h2
  obtain ⟨C, c1, c2⟩ := prod h1 h2
  have sq : (ofFn T fun _ => (0 : t.Word)).map (fun v => v ^ 2) = ofFn T fun _ => 0 := by
    rw [map_ofFn]
    apply ofFn_congr
    intro _ _
    exact zero_pow two_ne_zero
  have mu : bop (fun u v : t.Word => u * v) (ofFn T fun _ => 0) (ofFn T fun _ => 0) = .ok (ofFn T fun _ => 0) := by
    rw [bop_ofFn]
    congr 1
  have sub : bop (fun u v : t.Word => u - v) (ofFn T fun _ => 0) (ofFn T fun _ => 0) = .ok (ofFn T fun _ => 0) := by
    rw [bop_ofFn]
    congr 1
    apply ofFn_congr
    intro _ _
    exact sub_zero _
  simp only [SSIM.muSigmaWord]
  rw [Run.bind_ok (run hp X h1), Run.bind_ok (run h.post Y h2), sq, mu, Run.lift_bind, a1, Run.lift_bind, Run.bind_ok (run h.post A a2), sub, Run.lift_bind, b1, Run.lift_bind,
    Run.bind_ok (run h.post B b2), sub, Run.lift_bind, c1, Run.lift_bind, Run.bind_ok (run h.post C c2), sub, Run.lift_bind, hc, Run.lift_bind, Run.pure_apply]

theorem floats_zero : t.floats (α := α) (ofFn T fun _ => 0) = ofFn T fun _ => 0 := by
  rw [IntType.floats, map_ofFn]
  apply ofFn_congr
  intro _ _
  have h := value_wrapped (t := t) 0
  rw [wrapped_zero] at h
  rw [show (0 : t.Word) = BitVec.ofInt t.bits 0 from rfl, h, Int.cast_zero]

/-- a map of ones -/
theorem csFullWord_ones (hs : SsimOf s g m k1 k2 sc cr) (hm : g.isMany = true → axes.length = m) (h : BlurCall g gp (numbers X : Tensor α) ax axes p)
    (hmode : ∀ gp' ∈ gp, ∀ i < axes.length, forIntegers (gp'.mode.entry .unknown i) = true) (hsm : ∃ i < axes.length, Small (g.entry [] i))
    (hN : sc = true → windowSize g axes.length ≠ 1) (h12 : Y.shape = X.shape) (hk2 : k2 ≠ 0) (junk : List Nat → t.Word) :
    s.csFullWord t junk X Y (castV axes) p = (padderAfter g gp X.shape axes, .ok (pointMap (fun _ _ _ _ _ => 1) (blurred g gp axes) (numbers X : Tensor α) (numbers X))) := by
  have hmu := muSigmaWord_zero (X := X) (Y := Y) (steadyWord_small hs hm h hmode hsm junk) h rfl h12 (scaleFactor_eq hs hm hN)
  simp only [SSIM.csFullWord]
  rw [Run.bind_ok hmu]
  set T := (blurred g gp axes (numbers X : Tensor α)).shape
  set c := covFactor (α := α) sc (windowSize g axes.length)
  have e1 : SSIM.MomentsWord.plus t (⟨ofFn T fun _ => 0, ofFn T fun _ => 0, ofFn T fun _ => 0, ofFn T fun _ => 0, ofFn T fun _ => 0, ofFn T fun _ => 0, c⟩ : SSIM.MomentsWord α t)
      (ofFn T fun _ => 0) (ofFn T fun _ => 0) = .ok (ofFn T fun _ => 0) := by
    rw [SSIM.MomentsWord.plus]
    split_ifs
    · rw [floats_zero, map_ofFn, bop_ofFn]
      congr 1
      apply ofFn_congr
      intro _ _
      rw [zero_mul, add_zero]
    · rw [bop_ofFn, ok_bind]
      congr 1
      rw [← floats_zero (t := t)]
      congr 1
  have e2 : SSIM.MomentsWord.twice t (⟨ofFn T fun _ => 0, ofFn T fun _ => 0, ofFn T fun _ => 0, ofFn T fun _ => 0, ofFn T fun _ => 0, ofFn T fun _ => 0, c⟩ : SSIM.MomentsWord α t)
      (ofFn T fun _ => 0) = ofFn T fun _ => 0 := by
    rw [SSIM.MomentsWord.twice]
    split_ifs
    · rw [floats_zero, map_ofFn]
      apply ofFn_congr
      intro _ _
      rw [zero_mul, mul_zero]
    · rw [map_ofFn, ← floats_zero (t := t)]
      congr 1
  simp only
  rw [e1, Run.lift_bind, e2, map_ofFn, bop_ofFn]
  change (_, _) = _
  congr 2
  apply ofFn_congr
  intro _ _
  rw [zero_add, hs.k2_eq, div_self (pow_ne_zero _ hk2)]

theorem ssimFullWord_ones (hs : SsimOf s g m k1 k2 sc cr) (hm : g.isMany = true → axes.length = m) (h : BlurCall g gp (numbers X : Tensor α) ax axes p)
    (hmode : ∀ gp' ∈ gp, ∀ i < axes.length, forIntegers (gp'.mode.entry .unknown i) = true) (hsm : ∃ i < axes.length, Small (g.entry [] i))
    (hN : sc = true → windowSize g axes.length ≠ 1) (h12 : Y.shape = X.shape) (hk1 : k1 ≠ 0) (hk2 : k2 ≠ 0) (junk : List Nat → t.Word) :
    ∃ M, s.muSigmaWord t junk X Y (castV axes) p = (padderAfter g gp X.shape axes, .ok M) ∧
      s.combineWord t M = .ok (pointMap (fun _ _ _ _ _ => 1) (blurred g gp axes) (numbers X : Tensor α) (numbers X)) := by
  obtain ⟨M, full, f1, f2, f3, f4⟩ := ssimWord_ones hs hm h hmode hsm hN h12 hk1 hk2 junk
  refine ⟨M, f1, f2.trans ?_⟩
  congr 1
  rw [eq_ofFn_get full, f3]
  apply ofFn_congr
  intro ix hix
  exact f4 ix (f3 ▸ hix)

/-- halving an image of integers: only the shape matters here -/
theorem downsampleWord_shape (hnd : axes.Nodup) (hlt : ∀ a ∈ axes, a < X.ndim) (hsz : ∀ a ∈ axes, 2 ≤ X.shape.getD a 0) (junk : List Nat → t.Word) :
    ∃ Z, SSIM.downsampleWord α t junk X (castV axes) = .ok Z ∧ Z.shape = (halved axes (numbers X : Tensor α)).shape := by
  obtain ⟨pool, e, h⟩ := poolIs_avg (α := α) (size := .one 2) (st := .one (some 2)) (m := 1) Nat.one_pos trivial trivial (by
    intro s hs
    simp only [Given.values, List.mem_singleton] at hs
    rw [hs]; simp)
  have e' : SepPool.avgInit (α := α) (.leaf (some 2)) (.leaf (some 2)) = .ok pool := e
  have hg : (⟨Given.map avgKernel (.one 2), .one (some 2)⟩ : PoolArgs α) = halver := by
    simp [halver, Given.map, avgKernel, List.replicate]
  rw [hg] at h
  obtain ⟨Z, z1, z2⟩ := h.forwardWord_padded (padder := none) (q := none) (junk := junk) sameInt_ringRel (by intro hh; simp [halver, PoolArgs.isMany, Given.isMany] at hh)
    (show axesOf X.ndim (.seq (castV axes)) = some axes from normAxes_castV hlt)
    (by simp [SepPool.padWord, checkAxes_castV hlt]) (numbers_sameInt X) (halver_poolOps (x := (numbers X : Tensor α)) hnd hlt hsz).fitting
  refine ⟨Z, ?_, z2.shape.symm.trans (poolSeq_trunc_shape _ rfl)⟩
  rw [SSIM.downsampleWord, e', ok_bind, z1]

end

section
variable {ms : MsSsim} {g : Given (List ℝ)} {gp : Option (PadArgs ℝ)} {cr sc up : Bool} {m : Nat} {axes : List Nat} {k1 k2 eps : ℝ} {t : IntType}

theorem meanKept_ones {r : Nat} {x : Tensor ℝ} {p : Option (Padder ℝ)} {S : List Nat} (h : MsAt g gp cr r x axes p) (hS : onesAt axes x.shape = S) :
    meanKept (pointMap (fun _ _ _ _ _ => 1) (scoreBlur g gp cr axes) x x) axes = ofFn S fun _ => 1 := by
  have hb : Between 1 1 (meanKept (pointMap (fun _ _ _ _ _ => 1) (scoreBlur g gp cr axes) x x) axes) := by
    apply meanKept_between
    · intro ix hix
      rw [pointMap, get_ofFn (show InB (scoreBlur g gp cr axes x).shape ix from hix)]
      exact ⟨le_rfl, le_rfl⟩
    · intro k hk _
      obtain ⟨gp', p', e, hc, _⟩ := h.scoreCall
      rw [e]
      exact blurred_pos hc (h.pos hk)
  have hsh : onesAt axes (pointMap (fun _ _ _ _ _ => 1) (scoreBlur g gp cr axes) x x).shape = S := (h.map_shape _).2.trans hS
  rw [meanKept_ofFn hsh]
  apply ofFn_congr
  intro jx hjx
  have := hb jx (show InB (onesAt axes _) jx by rw [hsh]; exact hjx)
  exact le_antisymm this.2 this.1

theorem levelsWord_eq (h : MsOf ms g m k1 k2 sc cr up eps) (hm : g.isMany = true → axes.length = m)
    (hmode : ∀ gp' ∈ gp, ∀ i < axes.length, forIntegers (gp'.mode.entry .unknown i) = true) (hsm : ∃ i < axes.length, Small (g.entry [] i))
    (hN : sc = true → windowSize g axes.length ≠ 1) (hk2 : k2 ≠ 0) (junk : List Nat → t.Word) {S : List Nat} : ∀ (ws : List ℝ) {X Y : Tensor t.Word} {r : Nat}
    {p : Option (Padder ℝ)} {acc : Option (Tensor ℝ)} {A : List Nat → ℝ}, MsAt g gp cr (r + ws.length) (numbers X : Tensor ℝ) axes p → Y.shape = X.shape →
    onesAt axes X.shape = S → AccIs up S acc A → ∃ acc' q X' Y',
      ms.levelsWord t junk (castV axes) ws acc X Y p = (q, .ok (acc', X', Y')) ∧ MsAt g gp cr r (numbers X' : Tensor ℝ) axes q ∧ Y'.shape = X'.shape ∧ onesAt axes X'.shape = S ∧
      AccIs up S acc' (fun jx => msOp up (A jx) (msTotal up (ws.map fun w => msTerm up eps w 1))) ∧ (ws ≠ [] → acc' ≠ none) ∧ (ws = [] → acc' = acc)
  | [], X, Y, r, p, acc, A, hat, h12, hS, hA => by
    refine ⟨acc, p, X, Y, rfl, hat, h12, hS, ?_, by simp, fun _ => rfl⟩
    simp only [List.map_nil, msTotal_nil, msOp_right]
    exact hA
  | w :: ws, X, Y, r, p, acc, A, hat, h12, hS, hA => by
    have hat1 : MsAt g gp cr (r + ws.length + 1) (numbers X : Tensor ℝ) axes p := hat
    have hcs := csFullWord_ones h.base hm hat1.blurCall hmode hsm hN h12 hk2 junk
    have hcrop : ms.base.cropBorder (pointMap (fun _ _ _ _ _ => 1) (blurred g gp axes) (numbers X : Tensor ℝ) (numbers X)) (castV axes) (padderAfter g gp X.shape axes) = _ :=
      hat1.crop h.base rfl fun _ _ _ _ _ => 1
    have hmean := hat1.mean (y2 := (numbers X : Tensor ℝ)) fun _ _ _ _ _ => 1
    rw [meanKept_ones hat1 hS] at hmean
    have hacc : (match acc with
        | none => (.ok (ms.term w (ofFn S fun _ => 1)) : Except Err (Tensor ℝ))
        | some a => ms.accumulate (some a) (ms.term w (ofFn S fun _ => 1))) = .ok (ofFn S fun jx => msOp up (A jx) (msTerm up eps w 1)) := by
      rw [term_ofFn h]
      rcases hA with ⟨rfl, rfl⟩ | rfl
      · simp only [msOp_unit]
      · simp only [MsSsim.accumulate, h.prod]
        cases up <;> simp [iop_ofFn, msOp]
    obtain ⟨X', hX1, hX2⟩ := downsampleWord_shape (α := ℝ) (X := X) hat1.nodup hat1.lt hat1.two_le junk
    have hat2 := hat1.congr (y := (numbers Y : Tensor ℝ)) h12
    obtain ⟨Y', hY1, hY2⟩ := downsampleWord_shape (α := ℝ) (X := Y) hat2.nodup hat2.lt hat2.two_le junk
    have hXY : Y'.shape = X'.shape := by
      rw [hX2, hY2]
      exact halved_shape_congr h12
    have hS' : onesAt axes X'.shape = S := by
      rw [← hS, hX2]
      apply onesAt_congr (halved_ndim axes _)
      intro k _ hk
      rw [halved_size hat1.nodup hat1.lt hat1.two_le, if_neg hk]
    have hat3 : MsAt g gp cr (r + ws.length) (numbers X' : Tensor ℝ) axes (padderAfter g gp X.shape axes) := ((hat1.after X.shape).next).congr hX2
    obtain ⟨acc', q, X'', Y'', e, i1, i2, i3, i4, i5, i6⟩ := levelsWord_eq h hm hmode hsm hN hk2 junk ws hat3 hXY hS'
      (Or.inr rfl : AccIs up S (some (ofFn S fun jx => msOp up (A jx) (msTerm up eps w 1))) _)
    refine ⟨acc', q, X'', Y'', ?_, i1, i2, i3, ?_, ?_, by simp⟩
    · simp only [MsSsim.levelsWord]
      rw [Run.bind_ok hcs, Run.bind_ok hcrop, hmean, Run.lift_bind]
      refine (Run.bind_ok (m := Run.lift _) (congrArg (Prod.mk _) hacc)).trans ?_
      rw [hX1, Run.lift_bind, hY1, Run.lift_bind]
      exact e
    · simp only [List.map_cons, msTotal_cons, ← msOp_assoc]
      exact i4
    · intro _
      rcases ws with _ | ⟨w', ws⟩
      · rw [i6 rfl]; simp
      · exact i5 (by simp)

variable {s : SSIM ℝ} {pool : SepPool ℝ} {a : PoolArgs ℝ} {X Y : Tensor t.Word} {ax rax : Axes} {raxes : List Nat} {p : Option (Padder ℝ)}

/-- the scores of a call -/
theorem msWord_forward {ws : List ℝ} {w : ℝ} (hws : ws ≠ []) (hs : SsimOf s g m k1 k2 sc cr) (hm : g.isMany = true → axes.length = m)
    (h : MsCall g gp cr (ws.length + 1) (numbers X : Tensor ℝ) ax axes p)
    (hmode : ∀ gp' ∈ gp, ∀ i < axes.length, forIntegers (gp'.mode.entry .unknown i) = true) (hsm : ∃ i < axes.length, Small (g.entry [] i))
    (hN : sc = true → windowSize g axes.length ≠ 1) (h12 : Y.shape = X.shape) (hr : axesOf X.ndim rax = some raxes) (hrn : raxes.Nodup) (hk1 : k1 ≠ 0) (hk2 : k2 ≠ 0)
    (junk : List Nat → t.Word) :
    ∃ q, (⟨s, ws ++ [w], up, eps⟩ : MsSsim).forwardWord t junk X Y ax rax p =
      (q, .ok (meanOver (ofFn (onesAt axes X.shape) fun _ => msTotal up ((ws ++ [w]).map fun w => msTerm up eps w 1)) raxes)) := by
  have hms : MsOf ⟨s, ws ++ [w], up, eps⟩ g m k1 k2 sc cr up eps := ⟨hs, rfl, rfl⟩
  have hat : MsAt g gp cr (0 + ws.length) (numbers X : Tensor ℝ) axes p := by rw [Nat.zero_add]; exact h.at
  obtain ⟨acc, q, X', Y', e, i1, i2, i3, i4, i5, _⟩ := levelsWord_eq hms hm hmode hsm hN hk2 junk ws hat h12 rfl
    (Or.inl ⟨rfl, rfl⟩ : AccIs up (onesAt axes X.shape) none fun _ => msUnit up)
  obtain ⟨M, hM, hfull⟩ := ssimFullWord_ones hs hm i1.blurCall hmode hsm hN i2 hk1 hk2 junk
  have hcrop : s.cropBorder (pointMap (fun _ _ _ _ _ => 1) (blurred g gp axes) (numbers X' : Tensor ℝ) (numbers X')) (castV axes) (padderAfter g gp X'.shape axes) = _ :=
    i1.crop hs rfl fun _ _ _ _ _ => 1
  have hmean := i1.mean (y2 := (numbers X' : Tensor ℝ)) fun _ _ _ _ _ => 1
  rw [meanKept_ones i1 i3] at hmean
  refine ⟨padderAfter g gp X'.shape axes, ?_⟩
  simp only [MsSsim.forwardWord]
  have hl : (ws ++ [w]).length = ws.length + 1 := by simp
  have hax : axesOf X.ndim ax = some axes := h.axes_eq
  have hck : s.checkLarge (ws.length + 1) X.shape 0 (castV axes) = .ok () := h.check hs hm
  rw [if_neg (by simp [h12]), (checkAxes_spec hax).1, Run.lift_bind, (checkAxes_spec hr).1, Run.lift_bind, hl, hck, Run.lift_bind, List.dropLast_concat, Run.bind_ok e]
  simp only
  rw [Run.bind_ok hM, hfull, Run.lift_bind, Run.bind_ok hcrop, hmean, Run.lift_bind, List.getLast?_concat]
  simp only
  rw [term_ofFn hms]
  rcases i4 with ⟨h0, _⟩ | h0
  · exact absurd h0 (i5 hws)
  · subst h0
    have hacc : MsSsim.accumulate ⟨s, ws ++ [w], up, eps⟩ (some (ofFn (onesAt axes X.shape) fun jx => msOp up (msUnit up) (msTotal up (ws.map fun w => msTerm up eps w 1))))
        (ofFn (onesAt axes X.shape) fun _ => msTerm up eps w 1) = .ok (ofFn (onesAt axes X.shape) fun _ => msTotal up ((ws ++ [w]).map fun w => msTerm up eps w 1)) := by
      rw [List.map_append, List.map_singleton, msTotal_append]
      simp only [MsSsim.accumulate, msOp_unit]
      cases up <;> simp [iop_ofFn, msOp]
    rw [hacc, Run.lift_bind, meanDims_eq ?_ hrn]
    · rfl
    · intro k hk
      have := (checkAxes_spec hr).2 k hk
      rw [ndim]
      change k < (onesAt axes X.shape).length
      rw [onesAt_length]
      exact this

end

variable {s : SSIM ℝ} {pool : SepPool ℝ} {a : PoolArgs ℝ} {m : Nat} {gp : Option (PadArgs ℝ)} {ax rax : Axes}
  {axes raxes : List Nat} {p : Option (Padder ℝ)} {k1 k2 eps : ℝ} {sc cr : Bool} {ws : List ℝ} {t : IntType} {X Y : Tensor t.Word}

/-- **C148.** If the weights of the blur along one of the content axes are all smaller than one, MS-SSIM of any two images of integers is 1 in the product form,
for any number of levels from two on, with or without padder and cropping. -/
theorem C148_blind (hi : SSIM.init pool false k1 k2 sc cr = .ok s) (hb : Built pool a m) (hm : a.kernel.isMany = true → axes.length = m) (hw : 2 ≤ ws.length)
    (h : MsCall a.kernel gp cr ws.length (numbers X : Tensor ℝ) ax axes p) (hmode : ∀ gp' ∈ gp, ∀ i < axes.length, forIntegers (gp'.mode.entry .unknown i) = true)
    (hsm : ∃ i < axes.length, Small (a.kernel.entry [] i)) (hN : sc = true → windowSize a.kernel axes.length ≠ 1) (h12 : Y.shape = X.shape) (hr : axesOf X.ndim rax = some raxes)
    (hrn : raxes.Nodup) (hk1 : k1 ≠ 0) (hk2 : k2 ≠ 0) (heps : eps ≤ 1) (hpos : ∀ k ∈ reducedAxes X.ndim raxes, 0 < X.shape.getD k 0) (junk : List Nat → t.Word) :
    ∃ q score, (⟨s, ws, true, eps⟩ : MsSsim).forwardWord t junk X Y ax rax p = (q, .ok score) ∧ ∀ jx, InB score.shape jx → score.get jx = 1 := by
  obtain ⟨vs, v, rfl⟩ : ∃ vs v, ws = vs ++ [v] := ⟨ws.dropLast, ws.getLast (by rintro rfl; simp at hw), (List.dropLast_append_getLast _).symm⟩
  have hv : vs ≠ [] := by rintro rfl; simp at hw
  rw [show (vs ++ [v]).length = vs.length + 1 by simp] at h
  obtain ⟨q, e⟩ := msWord_forward (Y := Y) (up := true) (eps := eps) (w := v) hv (ssimOf hi hb) hm h hmode hsm hN h12 hr hrn hk1 hk2 junk
  refine ⟨q, _, e, ?_⟩
  apply meanOver_constant
  · intro ix hix
    rw [get_ofFn (show InB (onesAt axes X.shape) ix from hix), msTotal, if_pos rfl]
    apply List.prod_eq_one
    intro u hu
    obtain ⟨w, _, rfl⟩ := List.mem_map.1 hu
    rw [msTerm, if_pos rfl, max_eq_left heps, Real.one_rpow]
  · exact onesAt_pos (y := (numbers X : Tensor ℝ)) rfl hpos

/-- **C148**, sum form: the sum of the weights. -/
theorem C148_blind_sum (hi : SSIM.init pool false k1 k2 sc cr = .ok s) (hb : Built pool a m) (hm : a.kernel.isMany = true → axes.length = m) (hw : 2 ≤ ws.length)
    (h : MsCall a.kernel gp cr ws.length (numbers X : Tensor ℝ) ax axes p) (hmode : ∀ gp' ∈ gp, ∀ i < axes.length, forIntegers (gp'.mode.entry .unknown i) = true)
    (hsm : ∃ i < axes.length, Small (a.kernel.entry [] i)) (hN : sc = true → windowSize a.kernel axes.length ≠ 1) (h12 : Y.shape = X.shape) (hr : axesOf X.ndim rax = some raxes)
    (hrn : raxes.Nodup) (hk1 : k1 ≠ 0) (hk2 : k2 ≠ 0) (hpos : ∀ k ∈ reducedAxes X.ndim raxes, 0 < X.shape.getD k 0) (junk : List Nat → t.Word) :
    ∃ q score, (⟨s, ws, false, eps⟩ : MsSsim).forwardWord t junk X Y ax rax p = (q, .ok score) ∧ ∀ jx, InB score.shape jx → score.get jx = ws.sum := by
  obtain ⟨vs, v, rfl⟩ : ∃ vs v, ws = vs ++ [v] := ⟨ws.dropLast, ws.getLast (by rintro rfl; simp at hw), (List.dropLast_append_getLast _).symm⟩
  have hv : vs ≠ [] := by rintro rfl; simp at hw
  rw [show (vs ++ [v]).length = vs.length + 1 by simp] at h
  obtain ⟨q, e⟩ := msWord_forward (Y := Y) (up := false) (eps := eps) (w := v) hv (ssimOf hi hb) hm h hmode hsm hN h12 hr hrn hk1 hk2 junk
  refine ⟨q, _, e, ?_⟩
  apply meanOver_constant
  · intro ix hix
    rw [get_ofFn (show InB (onesAt axes X.shape) ix from hix), msTotal, if_neg (by simp)]
    congr 1
    conv_rhs => rw [← List.map_id (vs ++ [v])]
    apply List.map_congr_left
    intro w _
    rw [msTerm, if_neg (by simp), one_mul, id]
  · exact onesAt_pos (y := (numbers X : Tensor ℝ)) rfl hpos

/-- **C148**: two images of integers of different shapes are refused before the padder is touched. -/
theorem C148_rejects_shapes (ms : MsSsim) (h : X.shape ≠ Y.shape) (junk : List Nat → t.Word) (p : Option (Padder ℝ)) : ms.forwardWord t junk X Y ax rax p = (p, .error .assertion) := by
  simp only [MsSsim.forwardWord]
  rw [if_pos h]
  rfl

/-- **C148**: images of integers that are too small for the number of levels are refused before the padder is touched. -/
theorem C148_rejects_small (hi : SSIM.init pool false k1 k2 sc cr = .ok s) (hb : Built pool a m) (hm : a.kernel.isMany = true → axes.length = m)
    (hax : axesOf X.ndim ax = some axes) (hr : axesOf X.ndim rax = some raxes) {i : Nat} (hi' : i < axes.length)
    (hsmall : 2 * X.shape.getD (axes.getD i 0) 0 ≤ (a.kernel.entry [] i).length * 2 ^ ws.length) (h12 : Y.shape = X.shape)
    (up : Bool) (eps : ℝ) (junk : List Nat → t.Word) (p : Option (Padder ℝ)) : (⟨s, ws, up, eps⟩ : MsSsim).forwardWord t junk X Y ax rax p = (p, .error .assertion) := by
  simp only [MsSsim.forwardWord]
  rw [if_neg (by simp [h12]), (checkAxes_spec hax).1, Run.lift_bind, (checkAxes_spec hr).1, Run.lift_bind, checkLarge_small hi hb hm hax hi' hsmall]
  rfl

/-- **C148** for `MS_SSIM()`: any two images of integers of the same shape, with content axes of more than 176 samples, have a score of 1. -/
theorem C148_gaussian {k1 k2 eps : ℝ} (sc cr : Bool) (hk1 : k1 ≠ 0) (hk2 : k2 ≠ 0) (heps : eps ≤ 1) :
    ∃ s, SSIM.initGaussian k1 k2 sc cr = .ok s ∧ ∀ {t : IntType} {X Y : Tensor t.Word} {ax rax : Axes} {axes raxes : List Nat}, Y.shape = X.shape → axesOf X.ndim ax = some axes → axes ≠ [] →
      axes.Nodup → (∀ k ∈ axes, 176 < X.shape.getD k 0) → axesOf X.ndim rax = some raxes → raxes.Nodup → (∀ k ∈ reducedAxes X.ndim raxes, 0 < X.shape.getD k 0) →
      ∀ junk : List Nat → t.Word, ∃ q score, (⟨s, MsSsim.defaultWeights, true, eps⟩ : MsSsim).forwardWord t junk X Y ax rax none = (q, .ok score) ∧
        ∀ jx, InB score.shape jx → score.get jx = 1 := by
  obtain ⟨s, pool, w, h1, h2, h3, h4, h5, h6⟩ := ssim_gaussian k1 k2 sc cr
  have hl : MsSsim.defaultWeights.length = 5 := by simp [MsSsim.defaultWeights]
  refine ⟨s, h1, fun {t X Y ax rax axes raxes} h12 hax hne hnd hsz hr hrn hpos junk => ?_⟩
  have hcall : MsCall (.one w) none cr MsSsim.defaultWeights.length (numbers X : Tensor ℝ) ax axes none := by
    apply msCall_one (by rintro rfl; simp at h5) hax hne hnd
    intro k hk
    have : 176 < (numbers X : Tensor ℝ).shape.getD k 0 := hsz k hk
    rw [hl, h5]
    omega
  exact C148_blind (gp := none) h2 h3 (by intro h; cases h) (by rw [hl]; omega) hcall (by intro _ hg; cases hg) ⟨0, List.length_pos_iff.2 hne, (small_of_average h6 h4 (by omega) : Small w)⟩
    (fun _ => windowSize_ne_one (by omega) (by simpa using hne)) h12 hr hrn hk1 hk2 heps hpos junk

open IntPadExample in
/-- C148: any two photographs of 480 x 640 bytes -/
example (X Y : Tensor uint8.Word) (hX : X.shape = [1, 3, 480, 640]) (hY : Y.shape = [1, 3, 480, 640]) (junk : List Nat → uint8.Word) :
    ∃ s, SSIM.initGaussian (1 / 100) (3 / 100) true true = .ok s ∧ ∃ q score,
      (⟨s, MsSsim.defaultWeights, true, 1 / 100000000⟩ : MsSsim).forwardWord uint8 junk X Y (.slice (.from 2)) (.slice (.from 1)) none = (q, .ok score) ∧
        ∀ jx, InB score.shape jx → score.get jx = 1 := by
  obtain ⟨s, h1, h2⟩ := C148_gaussian (k1 := 1 / 100) (k2 := 3 / 100) (eps := 1 / 100000000) true true (by norm_num) (by norm_num) (by norm_num)
  exact ⟨s, h1, h2 (axes := [2, 3]) (raxes := [1, 2, 3]) (by rw [hX, hY]) (by rw [ndim, hX]; rfl) (by decide) (by decide) (by rw [hX]; decide) (by rw [ndim, hX]; rfl)
    (by decide) (by rw [ndim, hX]; decide) junk⟩

open IntPadExample in
/-- C148: 160 samples along the rows are not enough for the five levels of `MS_SSIM()`, whose window has 11 weights -/
example (X Y : Tensor uint8.Word) (hX : X.shape = [1, 3, 480, 160]) (hY : Y.shape = X.shape) (junk : List Nat → uint8.Word) (p : Option (Padder ℝ)) :
    ∃ s, SSIM.initGaussian (1 / 100) (3 / 100) true true = .ok s ∧
      (⟨s, MsSsim.defaultWeights, true, 1 / 100000000⟩ : MsSsim).forwardWord uint8 junk X Y (.slice (.from 2)) (.slice (.from 1)) p = (p, .error .assertion) := by
  obtain ⟨s, pool, w, h1, h2, h3, -, h5, -⟩ := ssim_gaussian (1 / 100) (3 / 100) true true
  refine ⟨s, h1, C148_rejects_small h2 h3 (by intro h; cases h) (axes := [2, 3]) (raxes := [1, 2, 3]) (by rw [ndim, hX]; rfl) (by rw [ndim, hX]; rfl) (i := 1) (by decide) ?_ hY
    true (1 / 100000000) junk p⟩
  rw [hX]
  change 2 * 160 ≤ w.length * 2 ^ MsSsim.defaultWeights.length
  rw [h5]
  simp [MsSsim.defaultWeights]

end TI
