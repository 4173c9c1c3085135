import Verif.Props.IntMse
import Verif.Props.Ssim

/-!
# Structural similarity of images with integer entries: C137
-/

set_option linter.unusedSectionVars false

namespace TI
open Tensor Spec

section
variable {α : Type} [Field α] [LinearOrder α] [IsStrictOrderedRing α] [FloorRing α] {t : IntType}
variable {s : SSIM α} {junk : List Nat → t.Word} {vaxes : List Int} {P : Option (Padder α) → Prop} {p q : Option (Padder α)} {S T : List Nat} {b : Tensor α → Tensor α}
variable {X Y : Tensor t.Word} {c : α}

/-- the blur succeeds on all images of shape `S`, and its results are those of `b`, up to multiples of the size of the type -/
structure SteadyWord (t : IntType) (s : SSIM α) (junk : List Nat → t.Word) (axes : List Int) (P : Option (Padder α) → Prop) (q : Option (Padder α)) (S T : List Nat)
    (b : Tensor α → Tensor α) : Prop where
  run : ∀ p, P p → ∀ (x : Tensor α) (X : Tensor t.Word), x.shape = S → x.Rel (SameInt (α := α)) X → ∃ Z, s.blurWord t junk X axes p = (q, .ok Z) ∧ (b x).Rel (SameInt (α := α)) Z
  post : P q
  shape : ∀ x : Tensor α, x.shape = S → (b x).shape = T

theorem times_rel {x y : Tensor α} {X Y : Tensor t.Word} (hx : x.Rel (SameInt (α := α)) X) (hy : y.Rel (SameInt (α := α)) Y) :
    (times x y).Rel (SameInt (α := α)) (ofFn X.shape fun ix => X.get ix * Y.get ix) :=
  rel_ofFn sameInt_ringRel.zero hx.shape fun ix _ => sameInt_ringRel.mul (hx.get ix) (hy.get ix)

/-- the map of SSIM indices of integers -/
theorem ssimWord_full (h : SteadyWord t s junk vaxes P q S T b) (hp : P p) (h1 : X.shape = S) (h2 : Y.shape = S) (hc : s.scaleFactor vaxes = .ok c) :
    ∃ M full, s.muSigmaWord t junk X Y vaxes p = (q, .ok M) ∧ s.combineWord t M = .ok full ∧ full.shape = T ∧ ∀ ix, InB T ix →
      ∃ m1 m2 e11 e22 e12 : ℤ, (b (numbers X)).get ix = m1 ∧ (b (numbers Y)).get ix = m2 ∧ (b (times (numbers X) (numbers X))).get ix = e11 ∧
        (b (times (numbers Y) (numbers Y))).get ix = e22 ∧ (b (times (numbers X) (numbers Y))).get ix = e12 ∧
        full.get ix = ssimIndexInt t (s.k1 ^ 2) (s.k2 ^ 2) c m1 m2 e11 e22 e12 := by
  have hX := numbers_sameInt (α := α) X
  have hY := numbers_sameInt (α := α) Y
  obtain ⟨A, a1, a2⟩ := h.run p hp _ X h1 hX
  obtain ⟨B, b1, b2⟩ := h.run q h.post _ Y h2 hY
  obtain ⟨AA, aa1, aa2⟩ := h.run q h.post _ _ (show (times (numbers (α := α) X) (numbers X)).shape = S from h1) (times_rel hX hX)
  obtain ⟨BB, bb1, bb2⟩ := h.run q h.post _ _ (show (times (numbers (α := α) Y) (numbers Y)).shape = S from h2) (times_rel hY hY)
  obtain ⟨AB, ab1, ab2⟩ := h.run q h.post _ _ (show (times (numbers (α := α) X) (numbers Y)).shape = S from h1) (times_rel hX hY)
  have e : ∀ {x : Tensor α} {Z : Tensor t.Word}, x.shape = S → (b x).Rel (SameInt (α := α)) Z → Z = ofFn T Z.get := by
    intro x Z hx hZ
    rw [← h.shape x hx, hZ.shape]
    exact eq_ofFn_get _
  have eA := e h1 a2
  have eB := e h2 b2
  have eAA := e (show (times (numbers (α := α) X) (numbers X)).shape = S from h1) aa2
  have eBB := e (show (times (numbers (α := α) Y) (numbers Y)).shape = S from h2) bb2
  have eAB := e (show (times (numbers (α := α) X) (numbers Y)).shape = S from h1) ab2
  have hM : s.muSigmaWord t junk X Y vaxes p = (q, .ok ⟨ofFn T fun ix => A.get ix ^ 2, ofFn T fun ix => B.get ix ^ 2, ofFn T fun ix => A.get ix * B.get ix,
      ofFn T fun ix => AA.get ix - A.get ix ^ 2, ofFn T fun ix => BB.get ix - B.get ix ^ 2, ofFn T fun ix => AB.get ix - A.get ix * B.get ix, c⟩) := by
    have mA : A.map (fun v => v ^ 2) = ofFn T fun ix => A.get ix ^ 2 := by conv_lhs => rw [eA, map_ofFn]
    have mB : B.map (fun v => v ^ 2) = ofFn T fun ix => B.get ix ^ 2 := by conv_lhs => rw [eB, map_ofFn]
    have mAB : bop (fun u v : t.Word => u * v) A B = .ok (ofFn T fun ix => A.get ix * B.get ix) := by
      conv_lhs => rw [eA, eB]
      exact bop_ofFn _ _ _ _
    have sub : ∀ {Z : Tensor t.Word}, Z = ofFn T Z.get → ∀ g : List Nat → t.Word, bop (fun u v : t.Word => u - v) Z (ofFn T g) = .ok (ofFn T fun ix => Z.get ix - g ix) := by
      intro Z hZ g
      conv_lhs => rw [hZ]
      exact bop_ofFn _ _ _ _
    have pr : ∀ {U V : Tensor t.Word}, U.shape = V.shape → bop (fun u v : t.Word => u * v) U V = .ok (ofFn U.shape fun ix => U.get ix * V.get ix) := fun hs => bop_same hs
    simp only [SSIM.muSigmaWord]
    rw [Run.bind_ok a1, Run.bind_ok b1, mAB, Run.lift_bind, pr rfl, Run.lift_bind, Run.bind_ok aa1, mA, sub eAA, Run.lift_bind, pr rfl, Run.lift_bind, Run.bind_ok bb1,
      mB, sub eBB, Run.lift_bind, pr (h1.trans h2.symm), Run.lift_bind, Run.bind_ok ab1, sub eAB, Run.lift_bind, hc, Run.lift_bind, Run.pure_apply]
  set M : SSIM.MomentsWord α t := ⟨ofFn T fun ix => A.get ix ^ 2, ofFn T fun ix => B.get ix ^ 2, ofFn T fun ix => A.get ix * B.get ix,
      ofFn T fun ix => AA.get ix - A.get ix ^ 2, ofFn T fun ix => BB.get ix - B.get ix ^ 2, ofFn T fun ix => AB.get ix - A.get ix * B.get ix, c⟩ with hMdef
  have hT : M.twice t M.sigma12 = ofFn T fun ix => if c = 1 then ((t.value (2 * (AB.get ix - A.get ix * B.get ix)) : ℤ) : α) else
      2 * (((t.value (AB.get ix - A.get ix * B.get ix) : ℤ) : α) * c) := by
    rw [SSIM.MomentsWord.twice]
    by_cases h0 : c = 1
    · simp [hMdef, h0, IntType.floats, map_ofFn]
    · simp [hMdef, h0, IntType.floats, map_ofFn]
  have hP : M.plus t M.sigma1Sq M.sigma2Sq = .ok (ofFn T fun ix => if c = 1 then ((t.value ((AA.get ix - A.get ix ^ 2) + (BB.get ix - B.get ix ^ 2)) : ℤ) : α) else
      ((t.value (AA.get ix - A.get ix ^ 2) : ℤ) : α) * c + ((t.value (BB.get ix - B.get ix ^ 2) : ℤ) : α) * c) := by
    rw [SSIM.MomentsWord.plus]
    by_cases h0 : c = 1
    · simp only [hMdef, h0, ne_eq, not_true_eq_false, if_false, bop_ofFn, ok_bind, IntType.floats, map_ofFn, if_true]
    · simp only [hMdef, h0, ne_eq, not_false_eq_true, if_true, bop_ofFn, IntType.floats, map_ofFn, if_false]
  refine ⟨M, ofFn T fun ix => ((((t.value (2 * (A.get ix * B.get ix)) : ℤ) : α) + s.k1 ^ 2) * ((if c = 1 then ((t.value (2 * (AB.get ix - A.get ix * B.get ix)) : ℤ) : α) else
      2 * (((t.value (AB.get ix - A.get ix * B.get ix) : ℤ) : α) * c)) + s.k2 ^ 2)) /
      ((((t.value (A.get ix ^ 2 + B.get ix ^ 2) : ℤ) : α) + s.k1 ^ 2) *
        ((if c = 1 then ((t.value ((AA.get ix - A.get ix ^ 2) + (BB.get ix - B.get ix ^ 2)) : ℤ) : α) else
          ((t.value (AA.get ix - A.get ix ^ 2) : ℤ) : α) * c + ((t.value (BB.get ix - B.get ix ^ 2) : ℤ) : α) * c) + s.k2 ^ 2)), hM, ?_, ?_, ?_⟩
  · simp only [SSIM.combineWord, hT, hP, ok_bind]
    simp only [hMdef, IntType.floats, map_ofFn, bop_ofFn, ok_bind]
  · rfl
  · intro ix hix
    obtain ⟨m1, x1, y1⟩ := a2.get ix
    obtain ⟨m2, x2, y2⟩ := b2.get ix
    obtain ⟨e11, x3, y3⟩ := aa2.get ix
    obtain ⟨e22, x4, y4⟩ := bb2.get ix
    obtain ⟨e12, x5, y5⟩ := ab2.get ix
    refine ⟨m1, m2, e11, e22, e12, x1, x2, x3, x4, x5, ?_⟩
    have v : ∀ {w : t.Word} {n : ℤ}, w = ((n : ℤ) : t.Word) → t.value w = wrapped t n := by
      intro w n hw
      rw [hw, ← value_wrapped]
      rfl
    rw [get_ofFn hix, ssimIndexInt, twiceInt, plusInt]
    rw [v (n := 2 * (m1 * m2)) (by rw [y1, y2]; push_cast; rfl), v (w := A.get ix ^ 2 + B.get ix ^ 2) (n := m1 ^ 2 + m2 ^ 2) (by rw [y1, y2]; push_cast; rfl),
      v (n := 2 * (e12 - m1 * m2)) (by rw [y1, y2, y5]; push_cast; rfl), v (w := AB.get ix - A.get ix * B.get ix) (n := e12 - m1 * m2) (by rw [y1, y2, y5]; push_cast; rfl),
      v (w := (AA.get ix - A.get ix ^ 2) + (BB.get ix - B.get ix ^ 2)) (n := (e11 - m1 ^ 2) + (e22 - m2 ^ 2)) (by rw [y1, y2, y3, y4]; push_cast; rfl),
      v (w := AA.get ix - A.get ix ^ 2) (n := e11 - m1 ^ 2) (by rw [y1, y3]; push_cast; rfl),
      v (w := BB.get ix - B.get ix ^ 2) (n := e22 - m2 ^ 2) (by rw [y2, y4]; push_cast; rfl)]

variable {pool : SepPool α} {a : PoolArgs α} {g : Given (List α)} {m : Nat} {k1 k2 : α} {sc cr : Bool} {gp : Option (PadArgs α)} {ax rax : Axes} {axes raxes : List Nat}

theorem blurredInt_shape (h : BlurCall g gp (numbers X : Tensor α) ax axes p) {x : Tensor α} (hx : x.shape = X.shape) :
    (blurredInt g gp axes x).shape = (blurred g gp axes (numbers X : Tensor α)).shape := by
  cases gp with
  | none => exact poolSeq_trunc_shape _ hx
  | some gp => exact filteredInt_shape g gp (show x.shape = (numbers X : Tensor α).shape from hx) axes

/-- the blur, without statistics -/
theorem steadyWord (hs : SsimOf s g m k1 k2 sc cr) (hm : g.isMany = true → axes.length = m) (h : BlurCall g gp (numbers X : Tensor α) ax axes p)
    (hmode : ∀ gp' ∈ gp, ∀ i < axes.length, forWords (gp'.mode.entry .unknown i)) (junk : List Nat → t.Word) :
    SteadyWord t s junk (castV axes) (fun p => BlurCall g gp (numbers X : Tensor α) ax axes p) (padderAfter g gp X.shape axes) X.shape
      (blurred g gp axes (numbers X : Tensor α)).shape (blurredInt g gp axes) where
  run := by
    intro p' hp' y Z hy hZ
    have hm' := filter_many hm
    cases gp with
    | none =>
      obtain ⟨rfl, h1, h2⟩ := hp'
      have hlt := (checkAxes_spec h1).2
      have hZs : Z.shape = X.shape := hZ.shape.symm.trans hy
      have hax : axesOf Z.ndim (.seq (castV axes)) = some axes := by
        rw [ndim, hZs]
        exact normAxes_castV hlt
      obtain ⟨W, w1, w2⟩ := hs.pool.forwardWord_padded (padder := none) (q := none) (junk := junk) sameInt_ringRel hm' hax
        (by simp [SepPool.padWord, checkAxes_castV (show ∀ k ∈ axes, k < Z.ndim by rw [ndim, hZs]; exact hlt)]) hZ (Fitting_congr hy.symm h2)
      exact ⟨W, w1, w2⟩
    | some gp =>
      obtain ⟨⟨p0, rfl, h1⟩, h2⟩ := hp'
      obtain ⟨W, w1, w2⟩ := hs.pool.forwardWord_same hZ (SameCall.congr (SameCall_seq h2) hy) hm' h1 (hmode gp rfl) junk
      refine ⟨W, ?_, w2⟩
      rw [hy] at w1
      exact w1
  post := by
    cases gp with
    | none => exact ⟨rfl, h.2⟩
    | some gp => exact ⟨⟨_, rfl, holds_withWidths _ _ _⟩, h.2⟩
  shape := fun y hy => blurredInt_shape h hy

/-- the blur with weights smaller than one, for all modes -/
theorem steadyWord_small (hs : SsimOf s g m k1 k2 sc cr) (hm : g.isMany = true → axes.length = m) (h : BlurCall g gp (numbers X : Tensor α) ax axes p)
    (hmode : ∀ gp' ∈ gp, ∀ i < axes.length, forIntegers (gp'.mode.entry .unknown i) = true) (hsm : ∃ i < axes.length, Small (g.entry [] i)) (junk : List Nat → t.Word) :
    SteadyWord t s junk (castV axes) (fun p => BlurCall g gp (numbers X : Tensor α) ax axes p) (padderAfter g gp X.shape axes) X.shape
      (blurred g gp axes (numbers X : Tensor α)).shape (fun _ => ofFn (blurred g gp axes (numbers X : Tensor α)).shape fun _ => 0) where
  run := by
    intro p' hp' y Z hy hZ
    have hm' := filter_many hm
    have hZs : Z.shape = X.shape := hZ.shape.symm.trans hy
    have zero : ∀ {W : Tensor t.Word}, W.shape = (blurred g gp axes (numbers X : Tensor α)).shape → (∀ ix, W.get ix = 0) →
        (ofFn (blurred g gp axes (numbers X : Tensor α)).shape fun _ => (0 : α)).Rel (SameInt (α := α)) W := by
      intro W hW h0
      rw [eq_ofFn_get W]
      exact rel_ofFn sameInt_ringRel.zero hW.symm fun ix _ => by rw [h0]; exact sameInt_ringRel.zero
    cases gp with
    | none =>
      obtain ⟨rfl, h1, h2⟩ := hp'
      have hlt := (checkAxes_spec h1).2
      have hax : axesOf Z.ndim (.seq (castV axes)) = some axes := by
        rw [ndim, hZs]
        exact normAxes_castV hlt
      obtain ⟨W, w1, w2⟩ := hs.pool.forwardWord_padded (padder := none) (q := none) (junk := junk) sameInt_ringRel hm' hax
        (by simp [SepPool.padWord, checkAxes_castV (show ∀ k ∈ axes, k < Z.ndim by rw [ndim, hZs]; exact hlt)]) hZ (Fitting_congr hy.symm h2)
      refine ⟨W, w1, zero (w2.shape.symm.trans (poolSeq_trunc_shape _ hy)) (zero_of_small (g := PoolArgs.filter g) (rel_reduces w2) hsm)⟩
    | some gp =>
      obtain ⟨⟨p0, rfl, h1⟩, h2⟩ := hp'
      have hc := SameCall.congr (SameCall_seq h2) hy
      obtain ⟨V, v1, v2⟩ := hs.pool.padWord_shape (hZ.shape.symm) hc hm' h1 (hmode gp rfl) junk
      obtain ⟨W, w1, w2⟩ := hs.pool.forwardWord_padded (ax := .seq (castV axes)) sameInt_ringRel hm' (by rw [← hZ.ndim]; exact hc.axes_eq) v1 (numbers_sameInt V)
        (Fitting.congr (show (numbers V : Tensor α).shape = _ from v2).symm hc.poolOps.fitting)
      rw [hy] at w1
      refine ⟨W, w1, zero ?_ (zero_of_small (g := PoolArgs.filter g) (rel_reduces w2) hsm)⟩
      rw [← w2.shape, poolSeq_trunc_shape (x := (numbers V : Tensor α)) _ v2, ← blurred_congr (gp := some gp) (ax := ax) (p := some p0) ⟨⟨p0, rfl, h1⟩, h2⟩ hy]
      rfl
  post := by
    cases gp with
    | none => exact ⟨rfl, h.2⟩
    | some gp => exact ⟨⟨_, rfl, holds_withWidths _ _ _⟩, h.2⟩
  shape := fun _ _ => rfl

/-- a call of `forward`, once the map is known -/
theorem ssimWord_forward {full score : Tensor α} {M : SSIM.MomentsWord α t} (h12 : Y.shape = X.shape) (hax : axesOf X.ndim ax = some axes) (hr : axesOf X.ndim rax = some raxes)
    (hM : s.muSigmaWord t junk X Y (castV axes) p = (q, .ok M)) (hf : s.combineWord t M = .ok full)
    (hsc : s.reduce full (castV axes) (castV raxes) q = (q, .ok score)) : s.forwardWord t junk X Y ax rax p = (q, .ok (score, full)) := by
  simp only [SSIM.forwardWord]
  rw [if_neg (by rw [h12]; simp), (checkAxes_spec hax).1, Run.lift_bind, (checkAxes_spec hr).1, Run.lift_bind, Run.bind_ok hM, hf, Run.lift_bind, Run.bind_ok hsc, Run.pure_apply]

theorem ssimWord_reduce (hs : SsimOf s g m k1 k2 sc cr) (hc : cr = false ∨ gp = none) {full : Tensor α} (hd : ∀ k ∈ raxes, k < full.ndim) (hrn : raxes.Nodup) :
    s.reduce full (castV axes) (castV raxes) (padderAfter g gp X.shape axes) = (padderAfter g gp X.shape axes, .ok (meanOver full raxes)) := by
  have hcrop : s.cropBorder full (castV axes) (padderAfter g gp X.shape axes) = (padderAfter g gp X.shape axes, .ok full) := by
    rcases hc with rfl | rfl
    · simp only [SSIM.cropBorder, hs.crop]
      cases gp <;> rfl
    · rfl
  simp only [SSIM.reduce]
  rw [Run.bind_ok hcrop, meanDims_eq hd hrn]
  rfl

/-- **C137.** SSIM of two images of machine integers: the images are blurred with the weights without their digits after the point, and all sums, products and powers of integers are
taken modulo the size of the type, up to the point where the constants (or the factor of the sample covariance) are floating-point numbers. -/
theorem C137_formula (hi : SSIM.init pool false k1 k2 sc cr = .ok s) (hb : Built pool a m) (hm : a.kernel.isMany = true → axes.length = m)
    (h : BlurCall a.kernel gp (numbers X : Tensor α) ax axes p) (hmode : ∀ gp' ∈ gp, ∀ i < axes.length, forWords (gp'.mode.entry .unknown i))
    (hN : sc = true → windowSize a.kernel axes.length ≠ 1) (h12 : Y.shape = X.shape) (hr : axesOf X.ndim rax = some raxes) (hrn : raxes.Nodup) (hc : cr = false ∨ gp = none)
    (junk : List Nat → t.Word) :
    ∃ full : Tensor α, s.forwardWord t junk X Y ax rax p = (padderAfter a.kernel gp X.shape axes, .ok (meanOver full raxes, full)) ∧
      full.shape = (blurred a.kernel gp axes (numbers X : Tensor α)).shape ∧ ∀ ix, InB full.shape ix → ∃ m1 m2 e11 e22 e12 : ℤ,
        (blurredInt a.kernel gp axes (numbers X : Tensor α)).get ix = m1 ∧ (blurredInt a.kernel gp axes (numbers Y : Tensor α)).get ix = m2 ∧
        (blurredInt a.kernel gp axes (times (numbers X : Tensor α) (numbers X))).get ix = e11 ∧ (blurredInt a.kernel gp axes (times (numbers Y : Tensor α) (numbers Y))).get ix = e22 ∧
        (blurredInt a.kernel gp axes (times (numbers X : Tensor α) (numbers Y))).get ix = e12 ∧
        full.get ix = ssimIndexInt t (k1 ^ 2) (k2 ^ 2) (covFactor sc (windowSize a.kernel axes.length)) m1 m2 e11 e22 e12 := by
  have hs := ssimOf hi hb
  obtain ⟨M, full, f1, f2, f3, f4⟩ := ssimWord_full (X := X) (Y := Y) (steadyWord hs hm h hmode junk) h rfl h12 (scaleFactor_eq hs hm hN)
  have hnd : full.ndim = X.ndim := by
    rw [ndim, f3]
    exact blurred_ndim h
  refine ⟨full, ssimWord_forward h12 h.axes_eq hr f1 f2 (ssimWord_reduce hs hc (by rw [hnd]; exact (checkAxes_spec hr).2) hrn), f3, fun ix hix => ?_⟩
  rw [← hs.k1_eq, ← hs.k2_eq]
  exact f4 ix (f3 ▸ hix)

theorem wrapped_zero : wrapped t 0 = 0 := (wrapped_eq_zero 0).2 (dvd_zero _)

theorem ssimIndexInt_zero (hk1 : k1 ≠ 0) (hk2 : k2 ≠ 0) (f : α) : ssimIndexInt t (k1 ^ 2) (k2 ^ 2) f 0 0 0 0 0 = 1 := by
  rw [ssimIndexInt, twiceInt, plusInt]
  simp only [mul_zero, sub_zero, add_zero, zero_mul, wrapped_zero, Int.cast_zero, ite_self, ne_eq, OfNat.ofNat_ne_zero, not_false_eq_true, zero_pow, zero_add]
  exact div_self (mul_ne_zero (pow_ne_zero _ hk1) (pow_ne_zero _ hk2))

/-- the map of two images whose blurred versions are zero -/
theorem ssimWord_ones (hs : SsimOf s g m k1 k2 sc cr) (hm : g.isMany = true → axes.length = m) (h : BlurCall g gp (numbers X : Tensor α) ax axes p)
    (hmode : ∀ gp' ∈ gp, ∀ i < axes.length, forIntegers (gp'.mode.entry .unknown i) = true) (hsm : ∃ i < axes.length, Small (g.entry [] i))
    (hN : sc = true → windowSize g axes.length ≠ 1) (h12 : Y.shape = X.shape) (hk1 : k1 ≠ 0) (hk2 : k2 ≠ 0) (junk : List Nat → t.Word) :
    ∃ M full, s.muSigmaWord t junk X Y (castV axes) p = (padderAfter g gp X.shape axes, .ok M) ∧ s.combineWord t M = .ok full ∧
      full.shape = (blurred g gp axes (numbers X : Tensor α)).shape ∧ ∀ ix, InB full.shape ix → full.get ix = 1 := by
  obtain ⟨M, full, f1, f2, f3, f4⟩ := ssimWord_full (X := X) (Y := Y) (steadyWord_small hs hm h hmode hsm junk) h rfl h12 (scaleFactor_eq hs hm hN)
  refine ⟨M, full, f1, f2, f3, fun ix hix => ?_⟩
  obtain ⟨m1, m2, e11, e22, e12, x1, x2, x3, x4, x5, e⟩ := f4 ix (f3 ▸ hix)
  rw [get_ofFn (f3 ▸ hix)] at x1 x2 x3 x4 x5
  obtain rfl : m1 = 0 := Int.cast_eq_zero.1 x1.symm
  obtain rfl : m2 = 0 := Int.cast_eq_zero.1 x2.symm
  obtain rfl : e11 = 0 := Int.cast_eq_zero.1 x3.symm
  obtain rfl : e22 = 0 := Int.cast_eq_zero.1 x4.symm
  obtain rfl : e12 = 0 := Int.cast_eq_zero.1 x5.symm
  rw [e, hs.k1_eq, hs.k2_eq, ssimIndexInt_zero hk1 hk2]

/-- **C137.** If the weights of the blur along one of the content axes are all smaller than one, the similarity of any two images of integers (of the same shape) is 1, everywhere. -/
theorem C137_blind (hi : SSIM.init pool false k1 k2 sc cr = .ok s) (hb : Built pool a m) (hm : a.kernel.isMany = true → axes.length = m)
    (h : BlurCall a.kernel gp (numbers X : Tensor α) ax axes p) (hmode : ∀ gp' ∈ gp, ∀ i < axes.length, forIntegers (gp'.mode.entry .unknown i) = true)
    (hsm : ∃ i < axes.length, Small (a.kernel.entry [] i)) (hN : sc = true → windowSize a.kernel axes.length ≠ 1) (h12 : Y.shape = X.shape) (hr : axesOf X.ndim rax = some raxes)
    (hrn : raxes.Nodup) (hc : cr = false ∨ gp = none) (hk1 : k1 ≠ 0) (hk2 : k2 ≠ 0) (hpos : ∀ k ∈ reducedAxes X.ndim raxes, 0 < X.shape.getD k 0) (junk : List Nat → t.Word) :
    ∃ q score full, s.forwardWord t junk X Y ax rax p = (q, .ok (score, full)) ∧ full.shape = (blurred a.kernel gp axes (numbers X : Tensor α)).shape ∧
      (∀ ix, InB full.shape ix → full.get ix = 1) ∧ ∀ jx, InB score.shape jx → score.get jx = 1 := by
  have hs := ssimOf hi hb
  obtain ⟨M, full, f1, f2, f3, f4⟩ := ssimWord_ones hs hm h hmode hsm hN h12 hk1 hk2 junk
  have hnd : full.ndim = X.ndim := by
    rw [ndim, f3]
    exact blurred_ndim h
  refine ⟨_, _, full, ssimWord_forward h12 h.axes_eq hr f1 f2 (ssimWord_reduce hs hc (by rw [hnd]; exact (checkAxes_spec hr).2) hrn), f3, f4, meanOver_constant f4 ?_⟩
  intro k _ hk
  rw [hnd] at hk
  rw [f3]
  exact blurred_pos h (hpos k hk)

/-- **C137** with cropping (kernels not longer than the axes; not `periodize` on an axis of odd size) -/
theorem C137_cropped {gp : PadArgs α} {p : Padder α} (hi : SSIM.init pool false k1 k2 sc true = .ok s) (hb : Built pool a m) (hm : a.kernel.isMany = true → axes.length = m)
    (hcall : SameCall (PoolArgs.filter a.kernel) gp (numbers X : Tensor α) ax axes) (hp : Holds p gp)
    (hmode : ∀ i < axes.length, forIntegers (gp.mode.entry .unknown i) = true)
    (hper : ∀ i < axes.length, (gp.mode.entry .unknown i).isPeriodize = false ∨ X.shape.getD (axes.getD i 0) 0 % 2 = 0)
    (hk : ∀ i < axes.length, (a.kernel.entry [] i).length ≤ X.shape.getD (axes.getD i 0) 0)
    (hsm : ∃ i < axes.length, Small (a.kernel.entry [] i)) (hN : sc = true → windowSize a.kernel axes.length ≠ 1) (h12 : Y.shape = X.shape) (hr : axesOf X.ndim rax = some raxes)
    (hrn : raxes.Nodup) (hk1 : k1 ≠ 0) (hk2 : k2 ≠ 0) (hpos : ∀ k ∈ reducedAxes X.ndim raxes, 0 < X.shape.getD k 0) (junk : List Nat → t.Word) :
    ∃ q score full, s.forwardWord t junk X Y ax rax (some p) = (q, .ok (score, full)) ∧ full.shape = X.shape ∧
      (∀ ix, InB full.shape ix → full.get ix = 1) ∧ ∀ jx, InB score.shape jx → score.get jx = 1 := by
  have hs := ssimOf hi hb
  have h : BlurCall a.kernel (some gp) (numbers X : Tensor α) ax axes (some p) := ⟨⟨p, rfl, hp⟩, hcall⟩
  obtain ⟨M, full, f1, f2, f3, f4⟩ := ssimWord_ones hs hm h (fun gp' hg => by cases hg; exact hmode) hsm hN h12 hk1 hk2 junk
  have hfs : full.shape = X.shape := f3.trans (blur_shape_kept hcall hper)
  set v : Tensor α := ofFn (valid a.kernel axes (numbers X : Tensor α)).shape fun _ => 1 with hv
  have hfit := fitting_of_sizes hcall.toSameReq hk
  have hco := filtered_cropOf hcall hfit
  have hcb : s.cropBorder full (castV axes) (padderAfter a.kernel (some gp) X.shape axes) = (padderAfter a.kernel (some gp) X.shape axes, .ok v) := by
    refine cropBorder_eq hs hcall.toSameReq hk hfs rfl ⟨?_, ?_, ?_⟩
    · have := hco.ndim
      rw [ndim, f3]
      exact this
    · intro k hk'
      rw [f3]
      exact hco.size k hk'
    · intro ix hix
      rw [f4 _ (by rw [f3]; exact hco.inB hix), hv, get_ofFn (show InB (valid a.kernel axes (numbers X : Tensor α)).shape ix from hix)]
  have hvn : v.ndim = X.ndim := poolSeq_ndim _ _
  have hred : s.reduce full (castV axes) (castV raxes) (padderAfter a.kernel (some gp) X.shape axes) = (padderAfter a.kernel (some gp) X.shape axes, .ok (meanOver v raxes)) := by
    simp only [SSIM.reduce]
    rw [Run.bind_ok hcb, meanDims_eq (by rw [hvn]; exact (checkAxes_spec hr).2) hrn]
    rfl
  refine ⟨_, _, full, ssimWord_forward h12 hcall.axes_eq hr f1 f2 hred, hfs, f4, meanOver_constant (fun ix hix => get_ofFn (show InB (valid a.kernel axes (numbers X : Tensor α)).shape ix from hix)) ?_⟩
  intro k _ hk'
  rw [hvn] at hk'
  exact blurred_pos (gp := none) (p := none) ⟨rfl, hcall.axes_eq, hfit⟩ (hpos k hk')

theorem small_of_average {w : List α} (hpw : ∀ v ∈ w, 0 < v) (hw : IsAverage w) (hl : 2 ≤ w.length) : Small w :=
  ⟨by intro h; rw [h] at hl; simp at hl, average_small hpw hw.2 hl⟩

/-- **C137** for `SSIM(blur="mean")`: any two images of integers with content axes of at least 11 samples have similarity 1. -/
theorem C137_mean {k1 k2 : α} (sc cr : Bool) (hk1 : k1 ≠ 0) (hk2 : k2 ≠ 0) :
    ∃ s, SSIM.initMean k1 k2 sc cr = .ok s ∧ ∀ {t : IntType} {X Y : Tensor t.Word} {ax rax : Axes} {axes raxes : List Nat}, Y.shape = X.shape → axesOf X.ndim ax = some axes → axes ≠ [] →
      axes.Nodup → (∀ k ∈ axes, 11 ≤ X.shape.getD k 0) → axesOf X.ndim rax = some raxes → raxes.Nodup → (∀ k ∈ reducedAxes X.ndim raxes, 0 < X.shape.getD k 0) →
      ∀ junk : List Nat → t.Word, ∃ q score full, s.forwardWord t junk X Y ax rax none = (q, .ok (score, full)) ∧
        (∀ ix, InB full.shape ix → full.get ix = 1) ∧ ∀ jx, InB score.shape jx → score.get jx = 1 := by
  obtain ⟨s, pool, w, h1, h2, h3, h4, h5, h6⟩ := ssim_mean k1 k2 sc cr
  refine ⟨s, h1, fun {t X Y ax rax axes raxes} h12 hax hne hnd hsz hr hrn hpos junk => ?_⟩
  obtain ⟨q, score, full, e1, _, e3, e4⟩ := C137_blind (X := X) (Y := Y) (gp := none) (p := none) h2 h3 (by intro h; cases h)
    (blurCall_one (x := (numbers X : Tensor α)) hax hnd (by rw [h5]; exact hsz)) (by intro _ hg; cases hg) ⟨0, List.length_pos_iff.2 hne, (small_of_average h6 h4 (by omega) : Small w)⟩
    (fun _ => windowSize_ne_one (by omega) (by simpa using hne)) h12 hr hrn (Or.inr rfl) hk1 hk2 hpos junk
  exact ⟨q, score, full, e1, e3, e4⟩

end

/-- **C137** for `SSIM()` -/
theorem C137_gaussian {k1 k2 : ℝ} (sc cr : Bool) (hk1 : k1 ≠ 0) (hk2 : k2 ≠ 0) :
    ∃ s, SSIM.initGaussian k1 k2 sc cr = .ok s ∧ ∀ {t : IntType} {X Y : Tensor t.Word} {ax rax : Axes} {axes raxes : List Nat}, Y.shape = X.shape → axesOf X.ndim ax = some axes → axes ≠ [] →
      axes.Nodup → (∀ k ∈ axes, 11 ≤ X.shape.getD k 0) → axesOf X.ndim rax = some raxes → raxes.Nodup → (∀ k ∈ reducedAxes X.ndim raxes, 0 < X.shape.getD k 0) →
      ∀ junk : List Nat → t.Word, ∃ q score full, s.forwardWord t junk X Y ax rax none = (q, .ok (score, full)) ∧
        (∀ ix, InB full.shape ix → full.get ix = 1) ∧ ∀ jx, InB score.shape jx → score.get jx = 1 := by
  obtain ⟨s, pool, w, h1, h2, h3, h4, h5, h6⟩ := ssim_gaussian k1 k2 sc cr
  refine ⟨s, h1, fun {t X Y ax rax axes raxes} h12 hax hne hnd hsz hr hrn hpos junk => ?_⟩
  obtain ⟨q, score, full, e1, _, e3, e4⟩ := C137_blind (X := X) (Y := Y) (gp := none) (p := none) h2 h3 (by intro h; cases h)
    (blurCall_one (x := (numbers X : Tensor ℝ)) hax hnd (by rw [h5]; exact hsz)) (by intro _ hg; cases hg) ⟨0, List.length_pos_iff.2 hne, (small_of_average h6 h4 (by omega) : Small w)⟩
    (fun _ => windowSize_ne_one (by omega) (by simpa using hne)) h12 hr hrn (Or.inr rfl) hk1 hk2 hpos junk
  exact ⟨q, score, full, e1, e3, e4⟩

namespace IntSsimExample
open SsimExample AdjointExample EnergyExample IntPadExample IntImageExample

/-- two different signals, blurred with circular padding, with cropping -/
example (junk : List Nat → uint8.Word) : ∃ (pool : SepPool ℚ) (s : SSIM ℚ) (q : Option (Padder ℚ)) (score full : Tensor ℚ),
    SepPool.init (PoolArgs.pyKernel (avgKernel 2)) (PoolArgs.pyStride (some 1)) = .ok pool ∧ SSIM.init pool false (1 / 100) (3 / 100) true true = .ok s ∧
    s.forwardWord uint8 junk (img uint8 [10, 20, 200, 250]) (img uint8 [255, 0, 1, 17]) .none .none (some ((args .circular).padder 1)) = (q, .ok (score, full)) ∧
    full.shape = [4] ∧ (∀ ix, InB full.shape ix → full.get ix = 1) ∧ ∀ jx, InB score.shape jx → score.get jx = 1 := by
  obtain ⟨pool, e1, b1⟩ := one_built (avgKernel (α := ℚ) 2)
  obtain ⟨f, hf, _⟩ := b1.poolIs.1.toFilter
  have hi : SSIM.init pool false (1 / 100) (3 / 100) true true = .ok ⟨f, false, 1 / 100, 3 / 100, true, true⟩ := by simp only [SSIM.init, hf, ok_bind]
  obtain ⟨q, score, full, h1, h2, h3, h4⟩ := C137_cropped (t := uint8) (Y := img uint8 [255, 0, 1, 17]) (ax := .none) (rax := .none) (raxes := [0]) hi b1 (by intro h; cases h)
    (call (mode := .circular) (by simp) uint8 (avgKernel 2)) (holds_padder _ 1) (fun i _ => by simp [args, Given.entry, forIntegers])
    (fun i _ => .inl (by simp [args, Given.entry, Mode.isPeriodize])) (fun i hi => by
      obtain rfl : i = 0 := by simpa using hi
      decide) ⟨0, by simp, avgKernel_small (by norm_num)⟩ (fun _ => by decide) rfl rfl (by simp) (by norm_num) (by norm_num) (by decide) junk
  exact ⟨pool, _, q, score, full, e1, hi, h1, h2, h3, h4⟩

/-- a blur by integer weights -/
example (junk : List Nat → int8.Word) : ∃ (pool : SepPool ℚ) (s : SSIM ℚ) (full : Tensor ℚ),
    SepPool.init (PoolArgs.pyKernel [1, 2, 1]) (PoolArgs.pyStride (some 1)) = .ok pool ∧ SSIM.init pool false 1 2 false false = .ok s ∧
    (s.forwardWord int8 junk (img int8 [10, 20, 200, 250]) (img int8 [255, 0, 1, 17]) .none .none (some ((args .circular).padder 1))).2 = .ok (meanOver full [0], full) ∧ full.shape = [4] := by
  obtain ⟨pool, e1, b1⟩ := one_built [1, 2, 1]
  obtain ⟨f, hf, _⟩ := b1.poolIs.1.toFilter
  have hi : SSIM.init pool false 1 2 false false = .ok ⟨f, false, 1, 2, false, false⟩ := by simp only [SSIM.init, hf, ok_bind]
  have hc := call (mode := .circular) (by simp) int8 [1, 2, 1]
  obtain ⟨full, h1, h2, _⟩ := C137_formula (t := int8) (Y := img int8 [255, 0, 1, 17]) (gp := some (args .circular)) (p := some ((args .circular).padder 1)) (ax := .none) (rax := .none)
    (raxes := [0]) hi b1 (by intro h; cases h) ⟨⟨_, rfl, holds_padder _ 1⟩, hc⟩ (fun gp' hg i _ => by cases hg; simp [args, Given.entry, forWords, forIntegers, isStat]) (by intro h; cases h) rfl rfl
    (by simp) (Or.inl rfl) junk
  refine ⟨pool, _, full, e1, hi, by rw [h1], h2.trans ?_⟩
  exact blur_shape_kept hc (fun i _ => .inl (by simp [args, Given.entry, Mode.isPeriodize]))

/-- the map of similarities of two signals -/
def runSsim (t : IntType) (w : List ℚ) (sc : Bool) (a b : List ℤ) : Option (List ℚ × List ℚ) :=
  match (SepPool.init (PoolArgs.pyKernel w) (PoolArgs.pyStride (some 1))).bind fun pool => SSIM.init pool false 1 2 sc false with
  | .ok s => match (s.forwardWord t (fun _ => 0) (img t a) (img t b) .none .none (some ((args .circular).padder 1))).2 with
    | .ok z => some (z.1.data, z.2.data)
    | .error _ => none
  | .error _ => none

end IntSsimExample

open IntSsimExample IntPadExample in
/-- **C137**: black and white are alike for a blur; with integer weights sums and products wrap around, so that indices may exceed 1. -/
theorem C137_differ :
    runSsim uint8 [1 / 2, 1 / 2] true [255, 255, 255, 255] [0, 0, 0, 0] = some ([1], [1, 1, 1, 1]) ∧
    runSsim uint8 [1, 1] false [1, 2, 3, 4] [2, 2, 3, 3] = some ([264401 / 268320], [119 / 120, 25 / 26, 1, 85 / 86]) ∧
    runSsim int8 [1, 1] false [1, 2, 3, 100] [2, 2, 3, 3] = some ([77039 / 66144], [55 / 24, 25 / 26, 1, 43 / 106]) ∧
    runSsim int8 [1, 1] true [1, 2, 3, 100] [2, 2, 3, 3] = some ([74719 / 63388], [54 / 23, 25 / 26, 1, 43 / 106]) := by
  decide +kernel

end TI
