import Verif.Model.FltSsim
import Verif.Proofs.Support
import Verif.Proofs.Ssim

/-!
# SSIM of images with entries that are not finite
-/

set_option linter.unusedSectionVars false

namespace TI
open Tensor Spec

section
variable {α : Type} [Field α] [LinearOrder α] [IsStrictOrderedRing α]

namespace Flt

theorem div_num {a b : α} (h : b ≠ 0) : (num a / num b : Flt α) = num (a / b) := by
  show (if b = 0 then _ else _) = _
  rw [if_neg h]

theorem div_zero' (a : α) : (num a / num 0 : Flt α) = if a = 0 then nan else inf (decide (a < 0)) := by
  show (if (0 : α) = 0 then _ else _) = _
  rw [if_pos rfl]

/-- a quotient of numbers that are not finite -/
theorem div_nan {b c : Flt α} (hb : ¬ IsFinite b) (hc : ¬ IsFinite c) : b / c = nan := by
  cases b with
  | num b => exact absurd ⟨b, rfl⟩ hb
  | inf s => cases c with
    | num c => exact absurd ⟨c, rfl⟩ hc
    | inf r => rfl
    | nan => rfl
  | nan => cases c <;> rfl

end Flt

/-- the product of two images -/
def timesFlt (x y : Tensor (Flt α)) : Tensor (Flt α) := ofFn x.shape fun ix => x.get ix * y.get ix

variable {s : SSIM α} {junk : List Nat → α} {junk' : List Nat → Flt α} {axes : List Int} {P : Option (Padder α) → Prop} {p q : Option (Padder α)}
  {S T : List Nat} {B : Tensor (Flt α) → Tensor (Flt α)} {Y1 Y2 : Tensor (Flt α)} {c : Flt α}

/-- cf. `Steady` -/
structure SteadyFlt (s : SSIM α) (junk : List Nat → Flt α) (axes : List Int) (P : Option (Padder α) → Prop) (q : Option (Padder α))
    (S T : List Nat) (B : Tensor (Flt α) → Tensor (Flt α)) : Prop where
  run : ∀ p, P p → ∀ x : Tensor (Flt α), x.shape = S → s.blurFlt junk x axes p = (q, .ok (B x))
  post : P q
  shape : ∀ x : Tensor (Flt α), x.shape = S → (B x).shape = T

theorem bop_timesFlt {x y : Tensor (Flt α)} (h : x.shape = y.shape) : bop (fun u v : Flt α => u * v) x y = .ok (timesFlt x y) := bop_same h

/-- a covariance -/
def scaledFlt (c v : Flt α) : Flt α := if c ≠ .num 1 then v * c else v

namespace SSIM

theorem muSigmaFlt_eq (h : SteadyFlt s junk' axes P q S T B) (hp : P p) (h1 : Y1.shape = S) (h2 : Y2.shape = S) (hc : s.scaleFactorFlt axes = .ok c) :
    s.muSigmaFlt junk' Y1 Y2 axes p = (q, .ok
      ⟨ofFn T fun ix => (B Y1).get ix * (B Y1).get ix, ofFn T fun ix => (B Y2).get ix * (B Y2).get ix, ofFn T fun ix => (B Y1).get ix * (B Y2).get ix,
        ofFn T fun ix => scaledFlt c ((B (timesFlt Y1 Y1)).get ix - (B Y1).get ix * (B Y1).get ix),
        ofFn T fun ix => scaledFlt c ((B (timesFlt Y2 Y2)).get ix - (B Y2).get ix * (B Y2).get ix),
        ofFn T fun ix => scaledFlt c ((B (timesFlt Y1 Y2)).get ix - (B Y1).get ix * (B Y2).get ix)⟩) := by
  have e : ∀ x : Tensor (Flt α), x.shape = S → B x = ofFn T (B x).get := by
    intro x hx
    rw [← h.shape x hx]
    exact eq_ofFn_get _
  have t11 : (timesFlt Y1 Y1).shape = S := h1
  have t22 : (timesFlt Y2 Y2).shape = S := h2
  have t12 : (timesFlt Y1 Y2).shape = S := h1
  have m : ∀ x : Tensor (Flt α), x.shape = S → (B x).map (fun v => v * v) = ofFn T fun ix => (B x).get ix * (B x).get ix := by
    intro x hx
    conv_lhs => rw [e x hx]
    rw [map_ofFn]
  have hs : ∀ f : List Nat → Flt α, (if c ≠ .num 1 then (ofFn T f).map (fun v => v * c) else ofFn T f) = ofFn T fun ix => scaledFlt c (f ix) := by
    intro f
    unfold scaledFlt
    split_ifs with hc1
    · rw [map_ofFn]
    · rfl
  have b12 : bop (fun u v : Flt α => u * v) (B Y1) (B Y2) = .ok (ofFn T fun ix => (B Y1).get ix * (B Y2).get ix) := by
    conv_lhs => rw [e Y1 h1, e Y2 h2]
    exact bop_ofFn _ _ _ _
  have sub : ∀ (x : Tensor (Flt α)), x.shape = S → ∀ g : List Nat → Flt α, bop (fun u v : Flt α => u - v) (B x) (ofFn T g) =
      .ok (ofFn T fun ix => (B x).get ix - g ix) := by
    intro x hx g
    conv_lhs => rw [e x hx]
    exact bop_ofFn _ _ _ _
  simp only [muSigmaFlt]
  rw [Run.bind_ok (h.run p hp Y1 h1), Run.bind_ok (h.run q h.post Y2 h2), b12, Run.lift_bind, bop_timesFlt rfl, Run.lift_bind,
    Run.bind_ok (h.run q h.post _ t11), m Y1 h1, sub _ t11, Run.lift_bind, bop_timesFlt rfl, Run.lift_bind,
    Run.bind_ok (h.run q h.post _ t22), m Y2 h2, sub _ t22, Run.lift_bind, bop_timesFlt (h1.trans h2.symm), Run.lift_bind,
    Run.bind_ok (h.run q h.post _ t12), sub _ t12, Run.lift_bind, hc, Run.lift_bind, Run.pure_apply]
  simp only [hs]

theorem muSigma_error {junk : List Nat → α} {b : Tensor α → Tensor α} {y1 y2 : Tensor α} {e0 : Err} (h : Steady s junk axes P q S T b) (hp : P p) (h1 : y1.shape = S)
    (h2 : y2.shape = S) (hc : s.scaleFactor axes = .error e0) : s.muSigma junk y1 y2 axes p = (q, .error e0) := by
  have e : ∀ x : Tensor α, x.shape = S → b x = ofFn T (b x).get := by
    intro x hx
    rw [← h.shape x hx]
    exact eq_ofFn_get _
  have t11 : (times y1 y1).shape = S := h1
  have t22 : (times y2 y2).shape = S := h2
  have t12 : (times y1 y2).shape = S := h1
  have m : ∀ x : Tensor α, x.shape = S → (b x).map (fun v => v ^ 2) = ofFn T fun ix => (b x).get ix ^ 2 := by
    intro x hx
    conv_lhs => rw [e x hx]
    rw [map_ofFn]
  have b12 : bop (fun u v : α => u * v) (b y1) (b y2) = .ok (ofFn T fun ix => (b y1).get ix * (b y2).get ix) := by
    conv_lhs => rw [e y1 h1, e y2 h2]
    exact bop_ofFn _ _ _ _
  have sub : ∀ (x : Tensor α), x.shape = S → ∀ g : List Nat → α, bop (fun u v : α => u - v) (b x) (ofFn T g) =
      .ok (ofFn T fun ix => (b x).get ix - g ix) := by
    intro x hx g
    conv_lhs => rw [e x hx]
    exact bop_ofFn _ _ _ _
  simp only [muSigma]
  rw [Run.bind_ok (h.run p hp y1 h1), Run.bind_ok (h.run q h.post y2 h2), b12, Run.lift_bind, bop_times rfl, Run.lift_bind,
    Run.bind_ok (h.run q h.post _ t11), m y1 h1, sub _ t11, Run.lift_bind, bop_times rfl, Run.lift_bind,
    Run.bind_ok (h.run q h.post _ t22), m y2 h2, sub _ t22, Run.lift_bind, bop_times (h1.trans h2.symm), Run.lift_bind,
    Run.bind_ok (h.run q h.post _ t12), sub _ t12, Run.lift_bind, hc]
  rfl

theorem muSigmaFlt_error {y1 y2 : Tensor (Flt α)} {e0 : Err} (h : SteadyFlt s junk' axes P q S T B) (hp : P p) (h1 : y1.shape = S)
    (h2 : y2.shape = S) (hc : s.scaleFactorFlt axes = .error e0) : s.muSigmaFlt junk' y1 y2 axes p = (q, .error e0) := by
  have e : ∀ x : Tensor (Flt α), x.shape = S → B x = ofFn T (B x).get := by
    intro x hx
    rw [← h.shape x hx]
    exact eq_ofFn_get _
  have t11 : (timesFlt y1 y1).shape = S := h1
  have t22 : (timesFlt y2 y2).shape = S := h2
  have t12 : (timesFlt y1 y2).shape = S := h1
  have m : ∀ x : Tensor (Flt α), x.shape = S → (B x).map (fun v => v * v) = ofFn T fun ix => (B x).get ix * (B x).get ix := by
    intro x hx
    conv_lhs => rw [e x hx]
    rw [map_ofFn]
  have b12 : bop (fun u v : Flt α => u * v) (B y1) (B y2) = .ok (ofFn T fun ix => (B y1).get ix * (B y2).get ix) := by
    conv_lhs => rw [e y1 h1, e y2 h2]
    exact bop_ofFn _ _ _ _
  have sub : ∀ (x : Tensor (Flt α)), x.shape = S → ∀ g : List Nat → Flt α, bop (fun u v : Flt α => u - v) (B x) (ofFn T g) =
      .ok (ofFn T fun ix => (B x).get ix - g ix) := by
    intro x hx g
    conv_lhs => rw [e x hx]
    exact bop_ofFn _ _ _ _
  simp only [muSigmaFlt]
  rw [Run.bind_ok (h.run p hp y1 h1), Run.bind_ok (h.run q h.post y2 h2), b12, Run.lift_bind, bop_timesFlt rfl, Run.lift_bind,
    Run.bind_ok (h.run q h.post _ t11), m y1 h1, sub _ t11, Run.lift_bind, bop_timesFlt rfl, Run.lift_bind,
    Run.bind_ok (h.run q h.post _ t22), m y2 h2, sub _ t22, Run.lift_bind, bop_timesFlt (h1.trans h2.symm), Run.lift_bind,
    Run.bind_ok (h.run q h.post _ t12), sub _ t12, Run.lift_bind, hc]
  rfl

/-- the index in floating-point numbers -/
def indexFlt (c1 c2 : α) (f m1 m2 e11 e22 e12 : Flt α) : Flt α :=
  ((2 * (m1 * m2) + .num c1) * (2 * scaledFlt f (e12 - m1 * m2) + .num c2)) /
    ((m1 * m1 + m2 * m2 + .num c1) * (scaledFlt f (e11 - m1 * m1) + scaledFlt f (e22 - m2 * m2) + .num c2))

theorem ssimFullFlt_eq (h : SteadyFlt s junk' axes P q S T B) (hp : P p) (h1 : Y1.shape = S) (h2 : Y2.shape = S) (hc : s.scaleFactorFlt axes = .ok c) :
    s.ssimFullFlt junk' Y1 Y2 axes p = (q, .ok (ofFn T fun ix => indexFlt (s.k1 ^ 2) (s.k2 ^ 2) c ((B Y1).get ix) ((B Y2).get ix)
      ((B (timesFlt Y1 Y1)).get ix) ((B (timesFlt Y2 Y2)).get ix) ((B (timesFlt Y1 Y2)).get ix))) := by
  simp only [ssimFullFlt]
  rw [Run.bind_ok (muSigmaFlt_eq h hp h1 h2 hc)]
  simp only [combineFlt, twicePlusFlt, addPlusFlt, map_ofFn, bop_ofFn, ok_bind]
  rfl

/-- all moments finite -/
theorem indexFlt_num (c1 c2 f m1 m2 e11 e22 e12 : α) : indexFlt c1 c2 (.num f) (.num m1) (.num m2) (.num e11) (.num e22) (.num e12) =
    .num ((2 * (m1 * m2) + c1) * (2 * (f * (e12 - m1 * m2)) + c2)) / .num ((m1 ^ 2 + m2 ^ 2 + c1) * (f * (e11 - m1 ^ 2) + f * (e22 - m2 ^ 2) + c2)) := by
  have hs : ∀ v : α, scaledFlt (.num f) (.num v) = .num (f * v) := by
    intro v
    unfold scaledFlt
    split_ifs with h
    · rw [Flt.mul_num, mul_comm]
    · rw [Flt.num.inj (not_not.1 h), one_mul]
  have h2 : (2 : Flt α) = .num 2 := rfl
  simp only [indexFlt, h2, hs, Flt.mul_num, Flt.sub_num, Flt.add_num, pow_two]

theorem finite_scaled {f : α} {v : Flt α} : IsFinite (scaledFlt (.num f) v) ↔ IsFinite v := by
  unfold scaledFlt
  split_ifs
  · rw [Flt.finite_mul]
    exact ⟨fun h => h.1, fun h => ⟨h, f, rfl⟩⟩
  · rfl

/-- a mean is not finite -/
theorem indexFlt_nan (c1 c2 : α) (f : Flt α) {m1 m2 e11 e22 e12 : Flt α} (h : ¬ (IsFinite m1 ∧ IsFinite m2)) : indexFlt c1 c2 f m1 m2 e11 e22 e12 = .nan := by
  apply Flt.div_nan
  · intro hf
    rw [Flt.finite_mul, Flt.finite_add, Flt.finite_mul, Flt.finite_mul] at hf
    exact h hf.1.1.2
  · intro hf
    rw [Flt.finite_mul, Flt.finite_add, Flt.finite_add, Flt.finite_mul, Flt.finite_mul] at hf
    exact h ⟨hf.1.1.1.1, hf.1.1.2.1⟩

/-- the factor is infinite -/
theorem indexFlt_single (c1 c2 : α) (r : Bool) (m1 m2 e11 e22 e12 : Flt α) : indexFlt c1 c2 (.inf r) m1 m2 e11 e22 e12 = .nan := by
  have hs : ∀ v : Flt α, ¬ IsFinite (scaledFlt (.inf r) v) := by
    intro v hv
    unfold scaledFlt at hv
    rw [if_pos (by simp), Flt.finite_mul] at hv
    obtain ⟨a, ha⟩ := hv.2
    cases ha
  apply Flt.div_nan
  · intro hf
    rw [Flt.finite_mul, Flt.finite_add (b := 2 * _) (d := .num c2), Flt.finite_mul] at hf
    exact hs _ hf.2.1.2
  · intro hf
    rw [Flt.finite_mul, Flt.finite_add (d := .num c2), Flt.finite_add (b := scaledFlt _ _)] at hf
    exact hs _ hf.2.1.1

end SSIM

/-! ### the blur -/

theorem trueFlt : RingRel (fun (_ : α) (_ : Flt α) => True) :=
  ⟨trivial, fun _ => trivial, fun _ => trivial, fun _ => trivial, fun _ _ => trivial, fun _ _ => trivial, fun _ _ => trivial⟩

/-- only modes without statistics and callables -/
def PlainPadder (p : Option (Padder α)) : Prop := ∀ p', p = some p' → PlainModes p'

theorem PlainPadder.alike {R : α → Flt α → Prop} (hR : RingRel R) (hn : ∀ a, R a (.num a)) (h : PlainPadder p) : ∀ p', p = some p' → ModesAlike R p' := by
  intro p' e q hq i m hm y y' hy idx axis
  obtain ⟨h1, h2⟩ := h p' e i m (by rw [← hq.modeAt]; exact hm)
  exact rel_runModeFlt hR hn q i h1 (fun hs => by rw [h2] at hs; cases hs) hy idx axis

theorem PlainPadder.congr (h : PlainPadder p) (ha : Alike q p) : PlainPadder q := by
  intro q' e i m hm
  subst e
  cases p with
  | none => exact ha.elim
  | some p => exact h p rfl i m (by rw [← SameSettings.modeAt (show SameSettings q' p from ha)]; exact hm)

/-- the blurs of an image of numbers and of one with entries that are not finite -/
theorem rel_blurFlt {R : α → Flt α → Prop} (hR : RingRel R) (hn : ∀ a, R a (.num a)) (hex : s.exclude = false) (hp : PlainPadder p) (hj : ∀ ix, R (junk ix) (junk' ix))
    {x : Tensor α} {X : Tensor (Flt α)} (h : x.Rel R X) :
    (s.blur junk x axes p).1 = (s.blurFlt junk' X axes p).1 ∧ ExRel (Tensor.Rel R) (s.blur junk x axes p).2 (s.blurFlt junk' X axes p).2 := by
  simp only [SSIM.blur, SSIM.blurFlt, hex, Bool.false_eq_true, if_false]
  exact rel_poolForwardFlt (hR.dotRel hn) s.pool p (hp.alike hR hn) hj h _

/-- the outcome of the blur -/
def blurOf (s : SSIM α) (junk : List Nat → α) (axes : List Int) (p : Option (Padder α)) (x : Tensor α) : Tensor α :=
  match (s.blur junk x axes p).2 with
  | .ok y => y
  | .error _ => x

/-- the outcome of the blur -/
def blurFltOf (s : SSIM α) (junk : List Nat → Flt α) (axes : List Int) (p : Option (Padder α)) (x : Tensor (Flt α)) : Tensor (Flt α) :=
  match (s.blurFlt junk x axes p).2 with
  | .ok y => y
  | .error _ => x

theorem blurFlt_indep (hp : PlainPadder p) (h : Alike q p) (x : Tensor (Flt α)) : (s.blurFlt junk' x axes q).2 = (s.blurFlt junk' x axes p).2 := by
  cases p with
  | none => cases q with
    | none => rfl
    | some q => exact h.elim
  | some p => cases q with
    | none => exact h.elim
    | some q => exact (forwardFlt_indep s.pool (hp p rfl) (SameSettings.symm h) junk' x _).symm

theorem rel_true {x : Tensor α} {X : Tensor (Flt α)} (h : x.shape = X.shape) : x.Rel (fun _ _ => True) X := rel_of_get trivial h fun _ _ => trivial

/-- the blur of one image of numbers succeeds: so do all, with numbers or not -/
theorem blur_runs (hex : s.exclude = false) (hp : PlainPadder p) {x y : Tensor α} (h : s.blur junk x axes p = (q, .ok y)) (junk' : List Nat → Flt α) :
    Steady s junk axes (fun r => Alike r p) q x.shape y.shape (blurOf s junk axes p) ∧ SteadyFlt s junk' axes (fun r => Alike r p) q x.shape y.shape (blurFltOf s junk' axes p) := by
  have hq : Alike q p := by
    have := blur_alike s junk x axes p
    rwa [h] at this
  have key : ∀ r, Alike r p → ∀ X : Tensor (Flt α), X.shape = x.shape → s.blurFlt junk' X axes r = (q, .ok (blurFltOf s junk' axes p X)) ∧ (blurFltOf s junk' axes p X).shape = y.shape := by
    intro r hr X hX
    have hx := blur_indep hr.symm h
    obtain ⟨h1, h2⟩ := rel_blurFlt (junk := junk) (junk' := junk') (axes := axes) trueFlt (fun _ => trivial) hex (hp.congr hr) (fun _ => trivial) (rel_true hX.symm)
    rw [hx] at h1 h2
    have e := blurFlt_indep (s := s) (junk' := junk') (axes := axes) hp hr X
    generalize hb : s.blurFlt junk' X axes r = b at h1 h2 e ⊢
    obtain ⟨b1, b2⟩ := b
    cases h2 with
    | ok hy =>
      rename_i Z
      have eZ : blurFltOf s junk' axes p X = Z := by
        unfold blurFltOf
        rw [← e]
      rw [eZ]
      exact ⟨by rw [show q = b1 from h1], hy.shape.symm⟩
  have key' : ∀ r, Alike r p → ∀ x' : Tensor α, x'.shape = x.shape → s.blur junk x' axes r = (q, .ok (blurOf s junk axes p x')) ∧ (blurOf s junk axes p x').shape = y.shape := by
    have run : ∀ x' : Tensor α, x'.shape = x.shape → s.blur junk x' axes p = (q, .ok (blurOf s junk axes p x')) ∧ (blurOf s junk axes p x').shape = y.shape := by
      intro x' hx'
      have hX : (x'.map Flt.num).shape = x.shape := hx'
      obtain ⟨e1, e2⟩ := key p (Alike.refl p) _ hX
      obtain ⟨h1, h2⟩ := rel_blurFlt (junk := junk) (junk' := junk') (axes := axes) trueFlt (fun _ => trivial) hex hp (fun _ => trivial) (rel_true (x := x') (X := x'.map Flt.num) rfl)
      rw [e1] at h1 h2
      generalize hb : s.blur junk x' axes p = b at h1 h2 ⊢
      obtain ⟨b1, b2⟩ := b
      cases h2 with
      | ok hy =>
        rename_i z
        have ez : blurOf s junk axes p x' = z := by
          unfold blurOf
          rw [hb]
        rw [ez]
        exact ⟨by rw [show b1 = q from h1], hy.shape.trans e2⟩
    intro r hr x' hx'
    exact ⟨blur_indep hr.symm (run x' hx').1, (run x' hx').2⟩
  exact ⟨⟨fun r hr x' hx' => (key' r hr x' hx').1, hq, fun x' hx' => (key' p (Alike.refl p) x' hx').2⟩,
    ⟨fun r hr X hX => (key r hr X hX).1, hq, fun X hX => (key p (Alike.refl p) X hX).2⟩⟩

/-- what `get` reads at any index -/
theorem get_cases {β : Type} [Zero β] (S j : List Nat) :
    (∃ i, InB S i ∧ ∀ Z : Tensor β, Z.shape = S → Z.get j = Z.get i) ∨ ∀ Z : Tensor β, Z.shape = S → Z.get j = 0 := by
  by_cases h : ravel S j < numel S
  · left
    have hl : ravel S j < (indices S).length := by rwa [indices_length]
    have hi : InB S (indices S)[ravel S j] := mem_indices.1 (List.getElem_mem hl)
    refine ⟨_, hi, fun Z hZ => ?_⟩
    have e : ravel S (indices S)[ravel S j] = ravel S j := by
      have h1 := indices_getElem? hi
      rw [List.getElem?_eq_some_iff] at h1
      obtain ⟨h2, h3⟩ := h1
      exact (List.Nodup.getElem_inj_iff (indices_nodup S)).1 h3
    unfold Tensor.get
    rw [hZ, e]
  · right
    intro Z hZ
    unfold Tensor.get
    rw [List.getD_eq_getElem?_getD, List.getElem?_eq_none (by rw [Z.wf, hZ]; exact not_lt.1 h)]
    rfl

/-- which means are finite -/
theorem blur_uses (hp : PlainPadder p) (hB : SteadyFlt s junk' axes (fun r => Alike r p) q S T (blurFltOf s junk' axes p)) {X Y : Tensor (Flt α)} (hX : X.shape = S) (hY : Y.shape = S)
    (ix : List Nat) :
    (IsFinite ((blurFltOf s junk' axes p (timesFlt X X)).get ix) ↔ IsFinite ((blurFltOf s junk' axes p X).get ix)) ∧
    (IsFinite ((blurFltOf s junk' axes p (timesFlt X Y)).get ix) ↔ IsFinite ((blurFltOf s junk' axes p X).get ix) ∧ IsFinite ((blurFltOf s junk' axes p Y).get ix)) := by
  obtain ⟨U, hU⟩ := forwardFlt_uses s.pool hp S (.seq axes)
  have hr : ∀ Z : Tensor (Flt α), Z.shape = S → UsesRel Z junk' (U ix) ((blurFltOf s junk' axes p Z).get ix) := by
    intro Z hZ
    refine hU Z junk' _ hZ ?_ ix
    have := hB.run p (Alike.refl p) Z hZ
    exact congrArg Prod.snd this
  have ht : ∀ (V W : Tensor (Flt α)), V.shape = S → W.shape = S → ∀ j, Sound (timesFlt V W) junk' j ↔ Sound V junk' j ∧ Sound W junk' j := by
    intro V W hV hW j
    unfold Sound
    cases j with
    | inr j => simp
    | inl j =>
      simp only [Sum.elim_inl]
      rcases get_cases (β := Flt α) S j with ⟨i, hi, e⟩ | h0
      · rw [e _ (show (timesFlt V W).shape = S from hV), e V hV, e W hW, timesFlt, get_ofFn (hV ▸ hi), Flt.finite_mul]
      · rw [h0 _ (show (timesFlt V W).shape = S from hV), h0 V hV, h0 W hW]
        exact iff_of_true ⟨0, rfl⟩ ⟨⟨0, rfl⟩, 0, rfl⟩
  have e1 : IsFinite _ ↔ _ := hr _ (show (timesFlt X X).shape = S from hX)
  have e2 : IsFinite _ ↔ _ := hr _ (show (timesFlt X Y).shape = S from hX)
  have e3 : IsFinite _ ↔ _ := hr X hX
  have e4 : IsFinite _ ↔ _ := hr Y hY
  rw [e1, e2, e3, e4]
  simp only [ht _ _ hX hX, ht _ _ hX hY, and_self]
  exact ⟨trivial, ⟨fun h => ⟨fun j hj => (h j hj).1, fun j hj => (h j hj).2⟩, fun h j hj => ⟨h.1 j hj, h.2 j hj⟩⟩⟩

end

end TI
