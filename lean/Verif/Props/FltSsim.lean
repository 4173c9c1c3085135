import Verif.Proofs.FltSsim
import Verif.Props.FltMore
import Verif.Spec.FltSsim

/-!
# Structural similarity of images with entries that are not finite: C140
-/

set_option linter.unusedSectionVars false

namespace TI
open Tensor Spec

section
variable {α : Type} [Field α] [LinearOrder α] [IsStrictOrderedRing α]
variable {s : SSIM α} {x y : Tensor α} {X Y : Tensor (Flt α)} {p q : Option (Padder α)} {ax rax : Axes} {vaxes vraxes : List Int} {junk : List Nat → α} {junk' : List Nat → Flt α}

/-- **C138.** Which pixels an entry of a filtered image depends on is settled by the shape and the settings: for every entry there is a set of pixels (and of entries of the memory
that the padding leaves uninitialized) such that, for all images, the entry is finite exactly if all of these are. -/
theorem C138_support (pool : SepPool α) (padder : Option (Padder α)) (hm : ∀ p, padder = some p → PlainModes p) (shape : List Nat) (ax : Axes) :
    ∃ pixels memory : List Nat → List Nat → Prop, ∀ (X : Tensor (Flt α)) (junk : List Nat → Flt α) (Z : Tensor (Flt α)), X.shape = shape → (pool.forwardFlt padder junk X ax).2 = .ok Z →
      ∀ ix, InB Z.shape ix → (IsFinite (Z.get ix) ↔ (∀ jx, pixels ix jx → IsFinite (X.get jx)) ∧ ∀ jx, memory ix jx → IsFinite (junk jx)) := by
  obtain ⟨U, hU⟩ := forwardFlt_uses pool hm shape ax
  refine ⟨fun ix jx => (U ix).uses (.inl jx), fun ix jx => (U ix).uses (.inr jx), fun X junk Z hX hZ ix _ => ?_⟩
  rw [show IsFinite (Z.get ix) ↔ _ from hU X junk Z hX hZ ix]
  exact Sum.forall

/-- the map -/
def mapFlt (s : SSIM α) (c : Flt α) (B : Tensor (Flt α) → Tensor (Flt α)) (T : List Nat) (X Y : Tensor (Flt α)) : Tensor (Flt α) :=
  ofFn T fun ix => SSIM.indexFlt (s.k1 ^ 2) (s.k2 ^ 2) c ((B X).get ix) ((B Y).get ix) ((B (timesFlt X X)).get ix) ((B (timesFlt Y Y)).get ix) ((B (timesFlt X Y)).get ix)

theorem scaleFactorFlt_of {c : α} (h : s.scaleFactor vaxes = .ok c) : s.scaleFactorFlt vaxes = .ok (.num c) := by
  unfold SSIM.scaleFactor at h
  unfold SSIM.scaleFactorFlt
  split_ifs at h ⊢ with hs
  · cases hn : s.nPixels vaxes with
    | error e => rw [hn] at h; cases h
    | ok n =>
      rw [hn, ok_bind] at h
      rw [ok_bind]
      split_ifs at h ⊢ with h1
      cases h
      rfl
  · cases h
    rfl

theorem scaleFactorFlt_error {e : Err} (h : s.scaleFactor vaxes = .error e) (hN : s.sampleCov = true → s.nPixels vaxes ≠ .ok 1) : s.scaleFactorFlt vaxes = .error e := by
  unfold SSIM.scaleFactor at h
  unfold SSIM.scaleFactorFlt
  split_ifs at h ⊢ with hs
  · cases hn : s.nPixels vaxes with
    | error e => rw [hn] at h; cases h; rfl
    | ok n =>
      rw [hn, ok_bind] at h
      split_ifs at h ⊢ with h1
      exact absurd (h1 ▸ hn) (hN hs)

/-- the blurs of filled images -/
theorem blur_agrees (hex : s.exclude = false) (hp : PlainPadder p) (hj : ∀ ix a, junk' ix = .num a → junk ix = a) {S T : List Nat}
    (hb : Steady s junk vaxes (fun r => Alike r p) q S T (blurOf s junk vaxes p)) (hB : SteadyFlt s junk' vaxes (fun r => Alike r p) q S T (blurFltOf s junk' vaxes p))
    (hS : x.shape = S) (hx : x.Rel Flt.Agrees X) : (blurOf s junk vaxes p x).Rel Flt.Agrees (blurFltOf s junk' vaxes p X) := by
  have h := (rel_blurFlt (s := s) (junk := junk) (junk' := junk') (axes := vaxes) Flt.agrees_ringRel Flt.agrees_num hex hp hj hx).2
  rw [hb.run p (Alike.refl p) x hS, hB.run p (Alike.refl p) X (hx.shape ▸ hS)] at h
  cases h with
  | ok h => exact h

theorem times_agrees (hx : x.Rel Flt.Agrees X) (hy : y.Rel Flt.Agrees Y) : (times x y).Rel Flt.Agrees (timesFlt X Y) :=
  rel_ofFn Flt.agrees_ringRel.zero hx.shape fun ix _ => Flt.agrees_ringRel.mul (hx.get ix) (hy.get ix)

/-- entries of the map, with the numbers that `x` and `y` fill in -/
theorem mapFlt_get (hex : s.exclude = false) (hp : PlainPadder p) (hj : ∀ ix a, junk' ix = .num a → junk ix = a) {S T : List Nat} {c : α}
    (hb : Steady s junk vaxes (fun r => Alike r p) q S T (blurOf s junk vaxes p)) (hB : SteadyFlt s junk' vaxes (fun r => Alike r p) q S T (blurFltOf s junk' vaxes p))
    (h1 : x.shape = S) (h2 : y.shape = S) (hx : x.Rel Flt.Agrees X) (hy : y.Rel Flt.Agrees Y) {ix : List Nat} (hix : InB T ix) :
    (¬ (IsFinite ((blurFltOf s junk' vaxes p X).get ix) ∧ IsFinite ((blurFltOf s junk' vaxes p Y).get ix)) → (mapFlt s (.num c) (blurFltOf s junk' vaxes p) T X Y).get ix = .nan) ∧
    (IsFinite ((blurFltOf s junk' vaxes p X).get ix) ∧ IsFinite ((blurFltOf s junk' vaxes p Y).get ix) →
      (mapFlt s (.num c) (blurFltOf s junk' vaxes p) T X Y).get ix = SSIM.indexFlt (s.k1 ^ 2) (s.k2 ^ 2) (.num c) (.num ((blurOf s junk vaxes p x).get ix))
        (.num ((blurOf s junk vaxes p y).get ix)) (.num ((blurOf s junk vaxes p (times x x)).get ix)) (.num ((blurOf s junk vaxes p (times y y)).get ix))
        (.num ((blurOf s junk vaxes p (times x y)).get ix))) := by
  have hX : X.shape = S := hx.shape ▸ h1
  have hY : Y.shape = S := hy.shape ▸ h2
  unfold mapFlt
  rw [get_ofFn hix]
  refine ⟨fun hf => SSIM.indexFlt_nan _ _ _ hf, fun ⟨f1, f2⟩ => ?_⟩
  have f11 := (blur_uses hp hB hX hX ix).1.2 f1
  have f22 := (blur_uses hp hB hY hY ix).1.2 f2
  have f12 := (blur_uses hp hB hX hY ix).2.2 ⟨f1, f2⟩
  have key : ∀ {u : Tensor α} {U : Tensor (Flt α)}, u.shape = S → u.Rel Flt.Agrees U → IsFinite ((blurFltOf s junk' vaxes p U).get ix) →
      (blurFltOf s junk' vaxes p U).get ix = .num ((blurOf s junk vaxes p u).get ix) := by
    rintro u U hu hU ⟨a, ha⟩
    rw [ha, (blur_agrees hex hp hj hb hB hu hU).get ix a ha]
  rw [key h1 hx f1, key h2 hy f2, key (show (times x x).shape = S from h1) (times_agrees hx hx) f11, key (show (times y y).shape = S from h2) (times_agrees hy hy) f22,
    key (show (times x y).shape = S from h1) (times_agrees hx hy) f12]

/-- the two maps -/
theorem rel_ssimFull (hex : s.exclude = false) (hp : PlainPadder p) (hj : ∀ ix a, junk' ix = .num a → junk ix = a) (hx : x.Rel Flt.Agrees X) (hy : y.Rel Flt.Agrees Y)
    (hxy : x.shape = y.shape) (hN : s.sampleCov = true → s.nPixels vaxes ≠ .ok 1) :
    (s.ssimFull junk x y vaxes p).1 = (s.ssimFullFlt junk' X Y vaxes p).1 ∧ ExRel (Tensor.Rel Flt.Agrees) (s.ssimFull junk x y vaxes p).2 (s.ssimFullFlt junk' X Y vaxes p).2 := by
  cases hblur : s.blur junk x vaxes p with
  | mk q r =>
    cases r with
    | error e =>
      obtain ⟨e1, e2⟩ := rel_blurFlt (s := s) (junk := junk) (junk' := junk') (axes := vaxes) Flt.agrees_ringRel Flt.agrees_num hex hp hj hx
      rw [hblur] at e1 e2
      have hB : s.blurFlt junk' X vaxes p = (q, .error e) := by
        generalize s.blurFlt junk' X vaxes p = b at e1 e2
        obtain ⟨b1, b2⟩ := b
        cases e2
        rw [show q = b1 from e1]
      simp only [SSIM.ssimFull, SSIM.ssimFullFlt, SSIM.muSigma, SSIM.muSigmaFlt]
      rw [Run.bind_error (Run.bind_error hblur), Run.bind_error (Run.bind_error hB)]
      exact ⟨rfl, .error _⟩
    | ok m1 =>
      obtain ⟨hb, hB⟩ := blur_runs hex hp hblur junk'
      have hX : X.shape = x.shape := hx.shape.symm
      have hY : Y.shape = x.shape := hy.shape.symm.trans hxy.symm
      cases hc : s.scaleFactor vaxes with
      | error e =>
        have hc' := scaleFactorFlt_error hc hN
        have e1 : s.muSigma junk x y vaxes p = (q, .error e) := SSIM.muSigma_error hb (Alike.refl p) rfl hxy.symm hc
        have e2 : s.muSigmaFlt junk' X Y vaxes p = (q, .error e) := SSIM.muSigmaFlt_error hB (Alike.refl p) hX hY hc'
        simp only [SSIM.ssimFull, SSIM.ssimFullFlt]
        rw [Run.bind_error e1, Run.bind_error e2]
        exact ⟨rfl, .error _⟩
      | ok c =>
        rw [SSIM.ssimFull_eq hb (Alike.refl p) rfl hxy.symm hc, SSIM.ssimFullFlt_eq hB (Alike.refl p) hX hY (scaleFactorFlt_of hc)]
        refine ⟨rfl, .ok (rel_ofFn Flt.agrees_ringRel.zero rfl fun ix hix => ?_)⟩
        obtain ⟨k1, k2⟩ := mapFlt_get (c := c) hex hp hj hb hB rfl hxy.symm hx hy hix
        unfold mapFlt at k1 k2
        rw [get_ofFn hix] at k1 k2
        by_cases hf : IsFinite ((blurFltOf s junk' vaxes p X).get ix) ∧ IsFinite ((blurFltOf s junk' vaxes p Y).get ix)
        · rw [k2 hf, SSIM.indexFlt_num]
          intro d hd
          by_cases h0 : ((blurOf s junk vaxes p x).get ix ^ 2 + (blurOf s junk vaxes p y).get ix ^ 2 + s.k1 ^ 2) *
              (c * ((blurOf s junk vaxes p (times x x)).get ix - (blurOf s junk vaxes p x).get ix ^ 2) +
                c * ((blurOf s junk vaxes p (times y y)).get ix - (blurOf s junk vaxes p y).get ix ^ 2) + s.k2 ^ 2) = 0
          · rw [h0, Flt.div_zero'] at hd
            split_ifs at hd
          · rw [Flt.div_num h0] at hd
            exact Flt.num.inj hd
        · rw [k1 hf]
          intro d hd
          cases hd

theorem rel_cropBorder (x : Tensor α) (X : Tensor (Flt α)) (hx : x.Rel Flt.Agrees X) :
    (s.cropBorder x vaxes p).1 = (s.cropBorderFlt X vaxes p).1 ∧ ExRel (Tensor.Rel Flt.Agrees) (s.cropBorder x vaxes p).2 (s.cropBorderFlt X vaxes p).2 := by
  simp only [SSIM.cropBorder, SSIM.cropBorderFlt]
  rw [Run.bind_ok (show Run.padder p = (p, .ok p) from rfl), Run.bind_ok (show Run.padder p = (p, .ok p) from rfl)]
  cases p with
  | none => exact ⟨rfl, .ok hx⟩
  | some p =>
    by_cases hc : s.crop = true
    · simp only [hc, if_true]
      rw [← hx.shape, ← hx.ndim]
      cases SSIM.cropIdx p.padWidth x.shape 0 vaxes (List.replicate x.ndim .full) with
      | error e => exact ⟨rfl, .error _⟩
      | ok idx =>
        refine ⟨rfl, .ok ?_⟩
        simp only [getSlice]
        rw [← hx.shape]
        exact rel_ofFn Flt.agrees_ringRel.zero rfl fun ix _ => hx.get _
    · simp only [hc]
      exact ⟨rfl, .ok hx⟩

theorem rel_meanDims (hx : x.Rel Flt.Agrees X) : ExRel (Tensor.Rel Flt.Agrees) (x.meanDims vraxes false) (meanDimsFlt X vraxes false) := by
  refine rel_reduceDims Flt.agrees_ringRel.zero ?_ hx vraxes false
  intro l L h
  by_cases h0 : L = []
  · rw [if_pos h0]
    intro c hc
    cases hc
  · rw [if_neg h0]
    intro c hc
    obtain ⟨u, v, h1, h2, rfl⟩ := Flt.mul_eq_num hc
    rw [← Flt.num.inj h2, ← h.length_eq, ← rel_forall_sum Flt.agrees_ringRel h u h1, mul_one_div]

theorem Run.rel_bind {β γ β' γ' : Type} {R : β → β' → Prop} {R' : γ → γ' → Prop} {m : Run α β} {m' : Run α β'} {f : β → Run α γ} {f' : β' → Run α γ'}
    (h : (m p).1 = (m' p).1 ∧ ExRel R (m p).2 (m' p).2)
    (hf : ∀ q b b', m p = (q, .ok b) → R b b' → (f b q).1 = (f' b' q).1 ∧ ExRel R' (f b q).2 (f' b' q).2) :
    ((m >>= f) p).1 = ((m' >>= f') p).1 ∧ ExRel R' ((m >>= f) p).2 ((m' >>= f') p).2 := by
  obtain ⟨h1, h2⟩ := h
  generalize hm : m p = u at h1 h2
  generalize hm' : m' p = u' at h1 h2
  obtain ⟨u1, u2⟩ := u
  obtain ⟨v1, v2⟩ := u'
  cases (show u1 = v1 from h1)
  cases h2 with
  | error e =>
    rw [Run.bind_error hm, Run.bind_error hm']
    exact ⟨rfl, .error _⟩
  | ok h =>
    rw [Run.bind_ok hm, Run.bind_ok hm']
    exact hf _ _ _ hm h

theorem Run.bind_assoc' {β γ δ : Type} (m : Run α β) (f : β → Run α γ) (g : γ → Run α δ) : ((m >>= f) >>= g) p = (m >>= fun b => f b >>= g) p := by
  cases hm : m p with
  | mk q r => cases r with
    | error e => rw [Run.bind_error (Run.bind_error hm), Run.bind_error hm]
    | ok b =>
      rw [Run.bind_ok hm]
      cases hf : f b q with
      | mk q' r => cases r with
        | error e => rw [Run.bind_error ((Run.bind_ok hm).trans hf), Run.bind_error hf]
        | ok c => rw [Run.bind_ok ((Run.bind_ok hm).trans hf), Run.bind_ok hf]

/-- **C140.** The structural similarity of images in which some entries are infinite or NaN: the exceptions, the padder left behind, and the finite entries of the map and of the
scores are the same for all numbers in their place. -/
theorem C140_forward (hex : s.exclude = false) (hp : ∀ p', p = some p' → PlainModes p') (hx : FillsIn x X) (hy : FillsIn y Y) (hj : ∀ ix a, junk' ix = .num a → junk ix = a)
    (hN : ∀ axes, checkAxes X.ndim ax = .ok axes → s.sampleCov = true → s.nPixels axes ≠ .ok 1) :
    (s.forward junk x y ax rax p).1 = (s.forwardFlt junk' X Y ax rax p).1 ∧ AlikePair (s.forward junk x y ax rax p).2 (s.forwardFlt junk' X Y ax rax p).2 := by
  have hx' := fillsIn_iff.1 hx
  have hy' := fillsIn_iff.1 hy
  have key : (s.forward junk x y ax rax p).1 = (s.forwardFlt junk' X Y ax rax p).1 ∧
      ExRel (fun u U => u.1.Rel Flt.Agrees U.1 ∧ u.2.Rel Flt.Agrees U.2) (s.forward junk x y ax rax p).2 (s.forwardFlt junk' X Y ax rax p).2 := by
    simp only [SSIM.forward, SSIM.forwardFlt]
    rw [← hx'.shape, ← hy'.shape, ← hx'.ndim]
    by_cases hxy : x.shape = y.shape
    · rw [if_neg (not_not.2 hxy), if_neg (not_not.2 hxy)]
      rw [← hx'.ndim] at hN
      cases hax : checkAxes x.ndim ax with
      | error e => exact ⟨rfl, .error _⟩
      | ok vaxes =>
        cases hrax : checkAxes x.ndim rax with
        | error e => exact ⟨rfl, .error _⟩
        | ok vraxes =>
          rw [Run.lift_bind, Run.lift_bind, Run.lift_bind, Run.lift_bind]
          refine Run.rel_bind (rel_ssimFull hex hp hj hx' hy' hxy (hN vaxes hax)) fun q z Z _ hZ => ?_
          simp only [SSIM.reduce]
          rw [Run.bind_assoc']
          refine Run.rel_bind (rel_cropBorder z Z hZ) fun q' u U _ hU => ?_
          have hm := rel_meanDims (vraxes := vraxes) hU
          generalize u.meanDims vraxes false = a at hm ⊢
          generalize meanDimsFlt U vraxes false = b at hm ⊢
          cases hm with
          | error e => exact ⟨rfl, .error _⟩
          | ok h => exact ⟨rfl, .ok ⟨h, hZ⟩⟩
    · rw [if_pos hxy, if_pos hxy]
      exact ⟨rfl, .error _⟩
  refine ⟨key.1, ?_⟩
  generalize (s.forward junk x y ax rax p).2 = r at key
  generalize (s.forwardFlt junk' X Y ax rax p).2 = r' at key
  cases key.2 with
  | error e => exact .inl ⟨e, rfl, rfl⟩
  | ok h => exact .inr ⟨_, _, _, _, rfl, rfl, fillsIn_iff.2 h.1, fillsIn_iff.2 h.2⟩

theorem range_lt {lo hi st i n : Nat} (hn : hi ≤ n) (h : i < (hi - lo + (st - 1)) / st) : lo + st * i < n := by
  rcases Nat.eq_zero_or_pos st with h0 | h0
  · rw [h0, Nat.div_zero] at h
    exact absurd h (Nat.not_lt_zero _)
  · have h1 := (Nat.le_div_iff_mul_le h0).1 (Nat.succ_le_of_lt h)
    have h2 : (i + 1) * st = st * i + st := by ring
    rw [Nat.succ_eq_add_one, h2] at h1
    omega

theorem resolve_lt (sl : PySlice) {n i : Nat} (h : i < (sl.resolve n).cnt) : (sl.resolve n).lo + (sl.resolve n).step * i < n := by
  obtain ⟨a, b, st⟩ := sl
  cases b with
  | none => exact range_lt (le_refl n) h
  | some v => exact range_lt (normBound_le n v) h

theorem rngMap_inB : ∀ (sls : List PySlice) (S ix : List Nat), InB ((resolveAll sls S).map (·.cnt)) ix → InB S (rngMap (resolveAll sls S) ix)
  | _, [], [], _ => by
    unfold resolveAll rngMap
    trivial
  | [], n :: S, i :: ix, h => ⟨resolve_lt .full h.1, rngMap_inB [] S ix h.2⟩
  | sl :: sls, n :: S, i :: ix, h => ⟨resolve_lt sl h.1, rngMap_inB sls S ix h.2⟩

/-- the entries that remain after cropping -/
theorem cropBorderFlt_inv {Z C : Tensor (Flt α)} (h : s.cropBorderFlt Z vaxes p = (q, .ok C)) :
    p = q ∧ (p = none ∨ s.crop = false → C = Z) ∧ ∀ ix, InB C.shape ix → ∃ jx, InB Z.shape jx ∧ C.get ix = Z.get jx := by
  simp only [SSIM.cropBorderFlt] at h
  rw [Run.bind_ok (show Run.padder p = (p, .ok p) from rfl)] at h
  cases p with
  | none =>
    cases h
    exact ⟨rfl, fun _ => rfl, fun ix hix => ⟨ix, hix, rfl⟩⟩
  | some p =>
    by_cases hc : s.crop = true
    · simp only [hc, if_true] at h
      cases hi : SSIM.cropIdx p.padWidth Z.shape 0 vaxes (List.replicate Z.ndim .full) with
      | error e => rw [hi] at h; cases h
      | ok idx =>
        rw [hi] at h
        cases h
        refine ⟨rfl, fun h => ?_, fun ix hix => ⟨rngMap (resolveAll idx Z.shape) ix, rngMap_inB _ _ _ hix, ?_⟩⟩
        · rcases h with h | h
          · cases h
          · rw [hc] at h; cases h
        · simp only [getSlice]
          rw [get_ofFn (show InB ((resolveAll idx Z.shape).map (·.cnt)) ix from hix)]
    · simp only [hc] at h
      cases h
      exact ⟨rfl, fun _ => rfl, fun ix hix => ⟨ix, hix, rfl⟩⟩

theorem quotient_eq (n d : α) : (Flt.num n / Flt.num d : Flt α) = quotient n d := by
  unfold quotient
  by_cases hd : d = 0
  · subst hd
    rw [Flt.div_zero', if_neg (not_not.2 rfl : ¬ (0 : α) ≠ 0)]
    by_cases hn : n = 0
    · rw [if_pos hn, if_pos hn]
    · rw [if_neg hn, if_neg hn]
      rcases lt_or_gt_of_ne hn with h | h
      · rw [if_neg (not_lt.2 h.le), decide_eq_true h]
      · rw [if_pos h, decide_eq_false (not_lt.2 h.le)]
  · rw [Flt.div_num hd, if_pos hd]

/-- what a successful call has done -/
theorem forwardFlt_inv {V Z : Tensor (Flt α)} (hex : s.exclude = false) (hp : PlainPadder p) (h : s.forwardFlt junk' X Y ax rax p = (q, .ok (V, Z))) :
    ∃ vaxes vraxes T c C q1, X.shape = Y.shape ∧ checkAxes X.ndim ax = .ok vaxes ∧ checkAxes X.ndim rax = .ok vraxes ∧ s.scaleFactorFlt vaxes = .ok c ∧
      (∀ junk : List Nat → α, Steady s junk vaxes (fun r => Alike r p) q1 X.shape T (blurOf s junk vaxes p)) ∧
      SteadyFlt s junk' vaxes (fun r => Alike r p) q1 X.shape T (blurFltOf s junk' vaxes p) ∧
      Z = mapFlt s c (blurFltOf s junk' vaxes p) T X Y ∧ s.cropBorderFlt Z vaxes q1 = (q, .ok C) ∧ meanDimsFlt C vraxes false = .ok V := by
  simp only [SSIM.forwardFlt] at h
  by_cases hxy : X.shape = Y.shape
  · rw [if_neg (not_not.2 hxy)] at h
    cases hax : checkAxes X.ndim ax with
    | error e => rw [hax] at h; cases h
    | ok vaxes =>
      cases hrax : checkAxes X.ndim rax with
      | error e => rw [hax, hrax] at h; cases h
      | ok vraxes =>
        rw [hax, hrax, Run.lift_bind, Run.lift_bind] at h
        obtain ⟨q1, Z', hfull, h⟩ := Run.bind_inv h
        obtain ⟨q2, C, hcrop, h⟩ := Run.bind_inv h
        have hS : ∀ junk : List Nat → α, ∃ m1 : Tensor α, ∃ q0, s.blur junk (ofFn X.shape fun _ => (0 : α)) vaxes p = (q0, .ok m1) := by
          intro junk
          simp only [SSIM.ssimFullFlt, SSIM.muSigmaFlt] at hfull
          obtain ⟨q3, M, hM, _⟩ := Run.bind_inv hfull
          obtain ⟨q4, M1, hM1, _⟩ := Run.bind_inv hM
          obtain ⟨e1, e2⟩ := rel_blurFlt (s := s) (junk := junk) (junk' := junk') (axes := vaxes) (p := p) trueFlt (fun _ => trivial) hex hp (fun _ => trivial)
            (rel_true (x := ofFn X.shape fun _ => (0 : α)) (X := X) rfl)
          rw [hM1] at e1 e2
          generalize s.blur junk (ofFn X.shape fun _ => (0 : α)) vaxes p = r at e1 e2
          obtain ⟨r1, r2⟩ := r
          cases e2 with
          | ok _ => exact ⟨_, _, rfl⟩
        obtain ⟨m0, q0, h0⟩ := hS fun _ => 0
        obtain ⟨_, hB⟩ := blur_runs hex hp h0 junk'
        have hb : ∀ junk : List Nat → α, Steady s junk vaxes (fun r => Alike r p) q0 X.shape m0.shape (blurOf s junk vaxes p) := by
          intro junk
          obtain ⟨m1, q1, h1⟩ := hS junk
          obtain ⟨hb, hB'⟩ := blur_runs hex hp h1 junk'
          have eT : m0.shape = m1.shape := (hB.shape X rfl).symm.trans (hB'.shape X rfl)
          have eq : q0 = q1 := congrArg Prod.fst ((hB.run p (Alike.refl p) X rfl).symm.trans (hB'.run p (Alike.refl p) X rfl))
          rw [eT, eq]
          exact hb
        cases hc : s.scaleFactorFlt vaxes with
        | error e =>
          have e1 := SSIM.muSigmaFlt_error hB (Alike.refl p) rfl hxy.symm hc
          simp only [SSIM.ssimFullFlt] at hfull
          rw [Run.bind_error e1] at hfull
          cases hfull
        | ok c =>
          rw [SSIM.ssimFullFlt_eq hB (Alike.refl p) rfl hxy.symm hc] at hfull
          cases hfull
          cases hV : meanDimsFlt C vraxes false with
          | error e => rw [hV] at h; cases h
          | ok V' =>
            rw [hV] at h
            cases h
            exact ⟨vaxes, vraxes, m0.shape, c, C, q1, hxy, rfl, rfl, hc, hb, hB, rfl, hcrop, hV⟩
  · rw [if_pos hxy] at h
    cases h

/-- **C140.** The entries of the map, for a window of more than one sample or without sample covariance: NaN if one of the two means is not finite; otherwise all five means are
finite, they are those of any numbers filled in, and the entry is the SSIM index, a quotient of floating-point numbers. -/
theorem C140_map {V Z : Tensor (Flt α)} {f : α} (hex : s.exclude = false) (hp : ∀ p', p = some p' → PlainModes p') (hx : FillsIn x X) (hy : FillsIn y Y)
    (hj : ∀ ix a, junk' ix = .num a → junk ix = a) (h : s.forwardFlt junk' X Y ax rax p = (q, .ok (V, Z))) (hax : checkAxes X.ndim ax = .ok vaxes) (hf : s.scaleFactor vaxes = .ok f) :
    ∃ M1 M2 m1 m2 e11 e22 e12, (s.blurFlt junk' X vaxes p).2 = .ok M1 ∧ (s.blurFlt junk' Y vaxes p).2 = .ok M2 ∧ (s.blur junk x vaxes p).2 = .ok m1 ∧ (s.blur junk y vaxes p).2 = .ok m2 ∧
      (s.blur junk (times x x) vaxes p).2 = .ok e11 ∧ (s.blur junk (times y y) vaxes p).2 = .ok e22 ∧ (s.blur junk (times x y) vaxes p).2 = .ok e12 ∧ Z.shape = M1.shape ∧
      ∀ ix, InB Z.shape ix → (¬ (IsFinite (M1.get ix) ∧ IsFinite (M2.get ix)) → Z.get ix = .nan) ∧
        (IsFinite (M1.get ix) ∧ IsFinite (M2.get ix) → Z.get ix = quotient (ssimNumer (s.k1 ^ 2) (s.k2 ^ 2) f (m1.get ix) (m2.get ix) (e12.get ix))
          (ssimDenom (s.k1 ^ 2) (s.k2 ^ 2) f (m1.get ix) (m2.get ix) (e11.get ix) (e22.get ix))) := by
  obtain ⟨vaxes', vraxes, T, c, C, q1, hxy, hax', _, hc, hb, hB, rfl, _, _⟩ := forwardFlt_inv hex hp h
  cases hax.symm.trans hax'
  cases hc.symm.trans (scaleFactorFlt_of hf)
  have h1 : x.shape = X.shape := hx.1
  have h2 : y.shape = X.shape := hy.1.trans hxy.symm
  have b := hb junk
  refine ⟨_, _, _, _, _, _, _, congrArg Prod.snd (hB.run p (Alike.refl p) X rfl), congrArg Prod.snd (hB.run p (Alike.refl p) Y hxy.symm), congrArg Prod.snd (b.run p (Alike.refl p) x h1),
    congrArg Prod.snd (b.run p (Alike.refl p) y h2), congrArg Prod.snd (b.run p (Alike.refl p) (times x x) h1), congrArg Prod.snd (b.run p (Alike.refl p) (times y y) h2),
    congrArg Prod.snd (b.run p (Alike.refl p) (times x y) h1), (hB.shape X rfl).symm, fun ix hix => ?_⟩
  obtain ⟨k1, k2⟩ := mapFlt_get (c := f) hex hp hj b hB h1 h2 (fillsIn_iff.1 hx) (fillsIn_iff.1 hy) (show InB T ix from hix)
  refine ⟨k1, fun hf' => ?_⟩
  rw [k2 hf', SSIM.indexFlt_num, quotient_eq]
  rfl

/-- **C140**: division: a quotient of numbers as above; dividing by an infinity is multiplying by zero; an infinity divided by a number that is not zero is multiplied by its
inverse, and divided by zero it stays; NaN propagates. -/
theorem C140_division (n d b : α) (s : Bool) (a : Flt α) : (Flt.num n / Flt.num d : Flt α) = quotient n d ∧ a / .inf s = a * .num 0 ∧
    (Flt.inf s / .num b : Flt α) = (if b = 0 then .inf s else .inf s * .num b⁻¹) ∧ a / .nan = .nan ∧ (Flt.nan / a : Flt α) = .nan := by
  refine ⟨quotient_eq n d, ?_, ?_, by cases a <;> rfl, by cases a <;> rfl⟩
  · cases a with
    | num v => exact congrArg Flt.num (mul_zero v).symm
    | inf r => exact (if_pos rfl).symm
    | nan => rfl
  · by_cases hb : b = 0
    · subst hb
      rw [if_pos rfl]
      show Flt.inf (s != decide ((0 : α) < 0)) = Flt.inf s
      simp
    · rw [if_neg hb]
      show Flt.inf (s != decide (b < 0)) = if b⁻¹ = 0 then Flt.nan else Flt.inf (s != decide (b⁻¹ < 0))
      rw [if_neg (inv_ne_zero hb)]
      simp only [inv_lt_zero]

/-- **C140.** With sample covariance and a window of a single sample every entry of the map and every score is NaN, whatever the images. -/
theorem C140_single {V Z : Tensor (Flt α)} (hex : s.exclude = false) (hp : ∀ p', p = some p' → PlainModes p') (h : s.forwardFlt junk' X Y ax rax p = (q, .ok (V, Z)))
    (hax : checkAxes X.ndim ax = .ok vaxes) (hs : s.sampleCov = true) (hN : s.nPixels vaxes = .ok 1) :
    (∀ ix, InB Z.shape ix → Z.get ix = .nan) ∧ ∀ jx, InB V.shape jx → V.get jx = .nan := by
  obtain ⟨vaxes', vraxes, T, c, C, q1, hxy, hax', hrax, hc, hb, hB, rfl, hC, hV⟩ := forwardFlt_inv hex hp h
  cases hax.symm.trans hax'
  have hc' : s.scaleFactorFlt vaxes = .ok (.inf false) := by
    simp only [SSIM.scaleFactorFlt, hs, hN, if_true, ok_bind]
  cases hc.symm.trans hc'
  have hz : ∀ ix, InB T ix → (mapFlt s (.inf false) (blurFltOf s junk' vaxes p) T X Y).get ix = .nan := by
    intro ix hix
    unfold mapFlt
    rw [get_ofFn hix, SSIM.indexFlt_single]
  refine ⟨hz, fun jx hjx => ?_⟩
  have hC' : ∀ ix, InB C.shape ix → C.get ix = .nan := by
    intro ix hix
    obtain ⟨kx, hk, e⟩ := (cropBorderFlt_inv hC).2.2 ix hix
    rw [e, hz kx hk]
  unfold meanDimsFlt Tensor.reduce at hV
  cases hd : reduceDims C.ndim vraxes with
  | error e => rw [hd] at hV; cases hV
  | ok ds =>
    rw [hd, ok_bind] at hV
    cases hV
    rw [get_ofFn (show InB (collapse ds (if false = true then some 1 else none) C.shape) jx from hjx)]
    generalize hl : List.map C.get (List.filter (fun ix => decide (collapse ds (if false = true then some 0 else none) ix = jx)) (indices C.shape)) = l
    show (if l = [] then _ else _) = _
    split_ifs with h0
    · rfl
    · have hn : ∀ l : List (Flt α), (∀ b ∈ l, b = .nan) → l ≠ [] → l.sum = .nan := by
        intro l hl hne
        cases l with
        | nil => exact absurd rfl hne
        | cons b l =>
          rw [List.sum_cons, hl b (by simp)]
          rfl
      rw [hn l _ h0]
      · rfl
      · intro b hb
        rw [← hl] at hb
        obtain ⟨ix, hix, rfl⟩ := List.mem_map.1 hb
        exact hC' ix (mem_indices.1 (List.mem_filter.1 hix).1)

theorem sequence_convDim_inv {n : Nat} : ∀ {axes l : List Nat}, NdSpec.sequence ((castV axes).map fun d => convDim n d) = .ok l → l = axes
  | [], l, h => by cases h; rfl
  | a :: axes, l, h => by
    simp only [castV, List.map_cons] at h
    cases h1 : convDim n (a : Int) with
    | error e => rw [h1] at h; cases h
    | ok d =>
      rw [h1] at h
      unfold NdSpec.sequence at h
      cases h2 : NdSpec.sequence ((castV axes).map fun d => convDim n d) with
      | error e =>
        rw [castV] at h2
        rw [h2] at h
        cases h
      | ok l' =>
        have e := sequence_convDim_inv h2
        rw [castV] at h2
        rw [h2] at h
        cases h
        rw [e]
        have hn : ¬ ((a : ℤ) < 0) := by omega
        simp only [convDim, hn, if_false] at h1
        split_ifs at h1
        cases h1
        simp

theorem reduceDims_inv {n : Nat} {axes ds : List Nat} (h : reduceDims n (castV axes) = .ok ds) : ds = reducedAxes n axes := by
  unfold reduceDims at h
  cases h1 : NdSpec.sequence ((castV axes).map fun d => convDim (max n 1) d) with
  | error e => rw [h1] at h; cases h
  | ok l =>
    rw [h1, ok_bind] at h
    split_ifs at h
    all_goals
      cases h
      rw [← sequence_convDim_inv h1]
      simp [reducedAxes, *]

/-- **C140.** The scores: means over what is left of the map after cropping. A score is finite exactly if all entries of the map that it covers are, and there are some; otherwise it is
not a number or infinite. -/
theorem C140_score {V Z : Tensor (Flt α)} {raxes : List Nat} (hex : s.exclude = false) (hp : ∀ p', p = some p' → PlainModes p') (h : s.forwardFlt junk' X Y ax rax p = (q, .ok (V, Z)))
    (hax : checkAxes X.ndim ax = .ok vaxes) (hrax : axesOf X.ndim rax = some raxes) :
    ∃ C, s.cropBorderFlt Z vaxes q = (q, .ok C) ∧ (q = none ∨ s.crop = false → C = Z) ∧ (∀ ix, InB C.shape ix → ∃ jx, InB Z.shape jx ∧ C.get ix = Z.get jx) ∧
      V.shape = onKept (reducedAxes C.ndim raxes) C.shape ∧
        ∀ jx, InB V.shape jx → (IsFinite (V.get jx) ↔ collected C.shape (reducedAxes C.ndim raxes) jx ≠ [] ∧ ∀ ix ∈ collected C.shape (reducedAxes C.ndim raxes) jx, IsFinite (C.get ix)) := by
  obtain ⟨vaxes', vraxes, T, c, C, q1, hxy, hax', hrax', hc, hb, hB, rfl, hC, hV⟩ := forwardFlt_inv hex hp h
  cases hax.symm.trans hax'
  cases (checkAxes_spec hrax).1.symm.trans hrax'
  obtain ⟨rfl, h1, h2⟩ := cropBorderFlt_inv hC
  unfold meanDimsFlt Tensor.reduce at hV
  cases hd : reduceDims C.ndim (castV raxes) with
  | error e => rw [hd] at hV; cases hV
  | ok ds =>
    rw [hd, ok_bind] at hV
    rw [reduceDims_inv hd] at hV
    simp only [Bool.false_eq_true, if_false, collapse_none] at hV
    cases hV
    refine ⟨C, hC, h1, h2, rfl, fun jx hjx => ?_⟩
    rw [get_ofFn (show InB (onKept (reducedAxes C.ndim raxes) C.shape) jx from hjx)]
    change IsFinite (if (collected C.shape (reducedAxes C.ndim raxes) jx).map _ = [] then _ else _) ↔ _
    by_cases he : collected C.shape (reducedAxes C.ndim raxes) jx = []
    · have : ¬ IsFinite (Flt.nan : Flt α) := fun ⟨_, h⟩ => by cases h
      simpa [he] using this
    rw [if_neg (by simpa using he), Flt.finite_mul, Flt.finite_sum, List.forall_mem_map]
    simp only [ne_eq, he, not_false_eq_true, true_and, Flt.finite_num, and_true]
    rfl

/-- **C140.** Without a padder a pixel that is not finite, in either image, makes exactly those entries of the map NaN whose windows contain it, whatever the weights; the others
are the SSIM indices of windows of finite pixels. -/
theorem C140_pixels {V Z : Tensor (Flt α)} {k1 k2 : α} {sc cr : Bool} {pool : SepPool α} {a : PoolArgs α} {m : Nat} {axes : List Nat} {ops : List (PoolOp α)}
    (hi : SSIM.init pool false k1 k2 sc cr = .ok s) (hb : Built pool a m) (hm : a.kernel.isMany = true → axes.length = m) (hx : FillsIn x X) (hy : FillsIn y Y)
    (h : s.forwardFlt junk' X Y ax rax none = (q, .ok (V, Z))) (hax : axesOf X.ndim ax = some axes) (hN : sc = true → windowSize a.kernel axes.length ≠ 1)
    (hops : ops = (PoolArgs.filter a.kernel).ops axes) (ho : PoolOps x ops) (hne : ∀ o ∈ ops, o.kernel ≠ []) :
    Z.shape = (corrNd x ops).shape ∧ ∀ ix, InB Z.shape ix →
      ((∃ j, InB (ops.map fun o => o.kernel.length) j ∧ ¬ (IsFinite (X.get (corrSource ops ix j)) ∧ IsFinite (Y.get (corrSource ops ix j)))) → Z.get ix = .nan) ∧
      ((∀ j, InB (ops.map fun o => o.kernel.length) j → IsFinite (X.get (corrSource ops ix j)) ∧ IsFinite (Y.get (corrSource ops ix j))) →
        Z.get ix = quotient
          (ssimNumer (k1 ^ 2) (k2 ^ 2) (covFactor sc (windowSize a.kernel axes.length)) ((corrNd x ops).get ix) ((corrNd y ops).get ix) ((corrNd (times x y) ops).get ix))
          (ssimDenom (k1 ^ 2) (k2 ^ 2) (covFactor sc (windowSize a.kernel axes.length)) ((corrNd x ops).get ix) ((corrNd y ops).get ix) ((corrNd (times x x) ops).get ix)
            ((corrNd (times y y) ops).get ix))) := by
  have hs := ssimOf hi hb
  have hbf : Built s.pool (PoolArgs.filter a.kernel) m := by
    cases hf : pool.toFilter with
    | error e => rw [SSIM.init, hf] at hi; cases hi
    | ok pool' =>
      rw [SSIM.init, hf, ok_bind] at hi
      cases hi
      exact Built.filter hb hf
  have hm' : (PoolArgs.filter a.kernel).isMany = true → axes.length = m := by rw [filter_isMany]; exact hm
  obtain ⟨hca, hlt⟩ := checkAxes_spec hax
  have hax' : axesOf X.ndim (.seq (castV axes)) = some axes := normAxes_castV hlt
  have hXY : X.shape = Y.shape := by
    by_contra hc
    simp only [SSIM.forwardFlt] at h
    rw [if_pos hc] at h
    cases h
  have hp : ∀ p', (none : Option (Padder α)) = some p' → PlainModes p' := by intro p' e; cases e
  -- the tensors of this shape
  have move : ∀ {z : Tensor α}, z.shape = X.shape → PoolOps z ops := by
    intro z hz
    have hzx : z.shape = x.shape := hz.trans hx.1.symm
    exact ⟨ho.nodup, fun o ho' hk => by have := ho.axis o ho' hk; simpa [Tensor.ndim, hzx] using this, ho.stride, fun o ho' hk => by rw [hzx]; exact ho.fits o ho' hk⟩
  set junk0 : List Nat → α := fun ix => match junk' ix with | .num a => a | _ => 0 with hj0
  have hj : ∀ ix a, junk' ix = .num a → junk0 ix = a := by
    intro ix a e
    simp only [hj0, e]
  obtain ⟨M1, M2, m1, m2, e11, e22, e12, b1, b2, b3, b4, b5, b6, b7, hZ, hent⟩ := C140_map hs.exclude hp hx hy hj h hca (scaleFactor_eq hs hm hN)
  -- the blurs of numbers
  have hcall : ∀ {z : Tensor α}, z.shape = X.shape → BlurCall a.kernel none z (.seq (castV axes)) axes none := by
    intro z hz
    refine ⟨rfl, ?_, ?_⟩
    · have : z.ndim = X.ndim := by simp [Tensor.ndim, hz]
      rw [this]; exact hax'
    · rw [← hops]; exact (move hz).fitting
  have real : ∀ {z w : Tensor α}, z.shape = X.shape → (s.blur junk0 z (castV axes) none).2 = .ok w → w = corrNd z ops := by
    intro z w hz hw
    have hr := (blur_steady hs hm (hcall hz) junk0).run none (hcall hz) z rfl
    rw [hr] at hw
    cases hw
    show poolSeq z ((PoolArgs.filter a.kernel).ops axes) = _
    rw [← hops]
    exact poolSeq_eq_corrNd (move hz) hne
  have hx1 : x.shape = X.shape := hx.1
  have hy1 : y.shape = X.shape := hy.1.trans hXY.symm
  rw [real hx1 b3, real hy1 b4, real (show (times x x).shape = X.shape from hx1) b5, real (show (times y y).shape = X.shape from hy1) b6,
    real (show (times x y).shape = X.shape from hx1) b7, hs.k1_eq, hs.k2_eq] at hent
  have win : ∀ {U W : Tensor (Flt α)}, U.shape = X.shape → (s.blurFlt junk' U (castV axes) none).2 = .ok W → W.shape = (corrNd x ops).shape ∧
      ∀ ix, InB W.shape ix → (IsFinite (W.get ix) ↔ ∀ j, InB (ops.map fun o => o.kernel.length) j → IsFinite (U.get (corrSource ops ix j))) := by
    intro U W hU hW
    have hUs : (U.map (spoiled (α := α))).shape = X.shape := hU
    have hUn : axesOf U.ndim (.seq (castV axes)) = some axes := by
      have : U.ndim = X.ndim := by simp [Tensor.ndim, hU]
      rw [this]; exact hax'
    have hpad : s.pool.padFlt none junk' U (.seq (castV axes)) = (none, .ok U) := by
      rw [SepPool.padFlt, (checkAxes_spec hUn).1]
    obtain ⟨W', e1, e2, e3⟩ := C138_windows hbf hm' hUn hpad (by rw [← hops]; exact move hUs) (by rw [← hops]; exact hne)
    rw [← hops] at e2 e3
    have : W' = W := by
      have hW' : (s.blurFlt junk' U (castV axes) none).2 = .ok W' := by
        rw [SSIM.blurFlt, e1]
      exact Except.ok.inj (hW'.symm.trans hW)
    subst this
    refine ⟨e2.trans ?_, e3⟩
    show ops.foldl (fun s o => s.set o.axis (windowCount (U.shape.getD o.axis 0) o.kernel.length o.stride 1)) U.shape =
      ops.foldl (fun s o => s.set o.axis (windowCount (x.shape.getD o.axis 0) o.kernel.length o.stride 1)) x.shape
    rw [hU, hx1]
  obtain ⟨w1, w2⟩ := win rfl b1
  obtain ⟨w3, w4⟩ := win hXY.symm b2
  refine ⟨hZ.trans w1, fun ix hix => ?_⟩
  have f1 := w2 ix (hZ ▸ hix)
  have f2 := w4 ix (by rw [w3, ← w1, ← hZ]; exact hix)
  obtain ⟨g1, g2⟩ := hent ix hix
  refine ⟨fun ⟨j, hj, hn⟩ => g1 fun hf => hn ⟨f1.1 hf.1 j hj, f2.1 hf.2 j hj⟩, fun hf => g2 ⟨f1.2 fun j hj => (hf j hj).1, f2.2 fun j hj => (hf j hj).2⟩⟩

end

namespace FltSsimExample
open SsimExample AdjointExample EnergyExample IntPadExample

/-- a signal -/
def sigFlt (l : List (Flt ℚ)) : Tensor (Flt ℚ) := ofFn [l.length] fun ix => l.getD (ix.getD 0 0) 0

/-- the score, and the entries of the map -/
def run (w : List ℚ) (k1 k2 : ℚ) (sc crop : Bool) (a b : List (Flt ℚ)) (p : Option (Padder ℚ)) : Option (List (Flt ℚ)) :=
  match (SepPool.init (PoolArgs.pyKernel w) (PoolArgs.pyStride (some 1))).bind fun pool => SSIM.init pool false k1 k2 sc crop with
  | .ok s => match (s.forwardFlt (fun _ => .nan) (sigFlt a) (sigFlt b) .none .none p).2 with
    | .ok z => some (z.1.data ++ z.2.data)
    | .error _ => none
  | .error _ => none

/-- an average of two samples, one NaN: all hypotheses hold, two of the three windows contain it -/
example (junk : List Nat → Flt ℚ) : ∃ (pool : SepPool ℚ) (s : SSIM ℚ) (q : Option (Padder ℚ)) (V Z : Tensor (Flt ℚ)),
    SepPool.init (PoolArgs.pyKernel (avgKernel 2)) (PoolArgs.pyStride (some 1)) = .ok pool ∧ SSIM.init pool false (1 / 100) (3 / 100) true true = .ok s ∧
    s.forwardFlt junk (sigFlt [.num 1, .nan, .num 4, .num 6]) (sigFlt [.num 1, .num 2, .num 3, .num 5]) .none .none none = (q, .ok (V, Z)) ∧ Z.shape = [3] ∧
    Z.get [0] = .nan ∧ Z.get [1] = .nan ∧ IsFinite (Z.get [2]) := by
  obtain ⟨pool, e1, b1⟩ := one_built (avgKernel (α := ℚ) 2)
  obtain ⟨f, hf, _⟩ := b1.poolIs.1.toFilter
  have hi : SSIM.init pool false (1 / 100) (3 / 100) true true = .ok (⟨f, false, 1 / 100, 3 / 100, true, true⟩ : SSIM ℚ) := by simp only [SSIM.init, hf, ok_bind]
  have hs := ssimOf hi b1
  have hx : FillsIn (sig [1, 7, 4, 6]) (sigFlt [.num 1, .nan, .num 4, .num 6]) := by
    refine ⟨rfl, fun ix hix a ha => ?_⟩
    have : ix = [0] ∨ ix = [1] ∨ ix = [2] ∨ ix = [3] := by
      have := mem_indices.2 hix
      simpa [sigFlt, ofFn, indices, List.range_succ] using this
    rcases this with rfl | rfl | rfl | rfl
    · exact Flt.num.inj ha
    · cases ha
    · exact Flt.num.inj ha
    · exact Flt.num.inj ha
  have hy : FillsIn (sig [1, 2, 3, 5]) (sigFlt [.num 1, .num 2, .num 3, .num 5]) := by
    refine ⟨rfl, fun ix hix a ha => ?_⟩
    have : ix = [0] ∨ ix = [1] ∨ ix = [2] ∨ ix = [3] := by
      have := mem_indices.2 hix
      simpa [sigFlt, ofFn, indices, List.range_succ] using this
    rcases this with rfl | rfl | rfl | rfl <;> exact Flt.num.inj ha
  have ho : PoolOps (sig [1, 7, 4, 6]) ((PoolArgs.filter (.one (avgKernel (α := ℚ) 2))).ops [0]) := ⟨by decide, by decide +kernel, by decide +kernel, by decide +kernel⟩
  set junk0 : List Nat → ℚ := fun ix => match junk ix with | .num a => a | _ => 0 with hj0
  have hj : ∀ ix a, junk ix = .num a → junk0 ix = a := by
    intro ix a e
    simp only [hj0, e]
  obtain ⟨h1, h2⟩ := C140_forward (s := (⟨f, false, 1 / 100, 3 / 100, true, true⟩ : SSIM ℚ)) (p := none) (ax := .none) (rax := .none) rfl (by intro p' e; cases e) hx hy hj
    (by
      intro axes hax _ hn
      have e : axes = castV [0] := by
        have := (checkAxes_spec (n := 1) (ax := .none) (axes := [0]) rfl).1
        exact Except.ok.inj (hax.symm.trans this)
      rw [e, windowSize_eq hs (by intro h; cases h)] at hn
      exact absurd hn (by decide))
  have hr := ssim_forward_uncropped (y2 := sig [1, 2, 3, 5]) (rax := .none) (raxes := [0]) hs (by intro h; cases h)
    (show BlurCall (.one (avgKernel 2)) none (sig [1, 7, 4, 6]) .none [0] none from ⟨rfl, rfl, ho.fitting⟩) (by intro _; decide) rfl rfl (by simp) (Or.inr rfl) junk0
  rw [hr] at h1 h2
  rcases h2 with ⟨e, h2, _⟩ | ⟨v, z, V, Z, h2, h3, _, _⟩
  · cases h2
  have h4 : SSIM.forwardFlt (⟨f, false, 1 / 100, 3 / 100, true, true⟩ : SSIM ℚ) junk (sigFlt [.num 1, .nan, .num 4, .num 6]) (sigFlt [.num 1, .num 2, .num 3, .num 5]) .none .none none =
      (_, .ok (V, Z)) := Prod.ext rfl h3
  obtain ⟨h5, h6⟩ := C140_pixels hi b1 (by intro h; cases h) hx hy h4 (axes := [0]) rfl (by intro _; decide) rfl ho (by decide +kernel)
  have h7 : Z.shape = [3] := h5
  rw [h7] at h6
  refine ⟨pool, _, _, V, Z, e1, hi, h4, h7, (h6 [0] (by decide)).1 ⟨[1], by decide, ?_⟩, (h6 [1] (by decide)).1 ⟨[0], by decide, ?_⟩, ?_⟩
  · rintro ⟨⟨a, ha⟩, _⟩
    cases ha
  · rintro ⟨⟨a, ha⟩, _⟩
    cases ha
  · have hall : ∀ j, InB [2] j → IsFinite ((sigFlt [.num 1, .nan, .num 4, .num 6]).get (corrSource ((PoolArgs.filter (.one (avgKernel (α := ℚ) 2))).ops [0]) [2] j)) ∧
        IsFinite ((sigFlt [.num 1, .num 2, .num 3, .num 5]).get (corrSource ((PoolArgs.filter (.one (avgKernel (α := ℚ) 2))).ops [0]) [2] j)) := by
      intro j hj
      have : j = [0] ∨ j = [1] := by
        have := mem_indices.2 hj
        simpa [indices, List.range_succ] using this
      rcases this with rfl | rfl
      · exact ⟨⟨4, rfl⟩, 3, rfl⟩
      · exact ⟨⟨6, rfl⟩, 5, rfl⟩
    rw [(h6 [2] (by decide)).2 hall]
    unfold quotient
    rw [if_pos (by decide +kernel)]
    exact ⟨_, rfl⟩

end FltSsimExample

open FltSsimExample SsimExample in
/-- **C140**: a NaN in one image spoils the windows that contain it, and the score unless the cropping removes them; an image with an infinity is not similar to itself; with constants zero
indices of flat windows are NaN or infinite; with sample covariance and a window of one sample there are no similarities at all. -/
theorem C140_differ :
    run [1 / 2, 1 / 2] 1 1 false false [.num 1, .nan, .num 4, .num 6] [.num 1, .num 2, .num 3, .num 5] none = some [.nan, .nan, .nan, .num (41 / 42)] ∧
    run [1 / 2, 1 / 2] 1 1 false false [.num 1, .inf true, .num 4, .num 6] [.num 1, .inf true, .num 4, .num 6] none = some [.nan, .nan, .nan, .num 1] ∧
    run [1 / 3, 1 / 3, 1 / 3] 1 1 false true [.num 1, .num 2, .num 4, .num 6] [.num 1, .num 2, .num 4, .num 5] (some ((args .empty).padder 1)) =
      some [.num (25163 / 25756), .nan, .num 1, .num (12285 / 12878), .nan] ∧
    run [1 / 3, 1 / 3, 1 / 3] 1 1 false false [.num 1, .num 2, .num 4, .num 6] [.num 1, .num 2, .num 4, .num 5] (some ((args .empty).padder 1)) =
      some [.nan, .nan, .num 1, .num (12285 / 12878), .nan] ∧
    run [1 / 2, 1 / 2] 0 0 false false [.num 1, .num 1, .num 1] [.num 1, .num 1, .num 1] none = some [.nan, .nan, .nan] ∧
    run [1, -1] 1 0 false false [.num 3, .num 1] [.num 1, .num 2] none = some [.inf true, .inf true] ∧
    run [1, -1] 5 0 false false [.num 3, .num 1] [.num 1, .num 2] none = some [.inf false, .inf false] ∧
    run [1] 1 1 true false [.num 1, .num 2] [.num 1, .num 2] none = some [.nan, .nan, .nan] := by
  decide +kernel

end TI
