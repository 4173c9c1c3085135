import Verif.Proofs.IntPadRun

/-!
# Padding of images with integer entries: C132
-/

set_option linter.unusedSectionVars false

namespace TI
open Tensor Spec

section
variable {α : Type} [Field α] [LinearOrder α] [IsStrictOrderedRing α] [FloorRing α] {t : IntType}
variable {p q : Padder α} {X : Tensor t.Word} {ax : Axes} {axes : List Nat} {ss : List (AxisPad α)}

/-- **C132**: an integer image is refused exactly if the image of its numbers is, with the same exception, and the shapes of the results agree (`mean` and callables aside). -/
theorem C132_outcome (hm : ∀ i m, p.modeAt i = .ok m → forIntegers m = true) (X : Tensor t.Word) (ax : Axes) (junk : List Nat → t.Word) (junk' : List Nat → α) :
    (∃ e, p.forward junk' (numbers X) ax = .error e ∧ p.forwardInt t junk X ax = .error e) ∨
      ∃ z Z, p.forward junk' (numbers X) ax = .ok z ∧ p.forwardInt t junk X ax = .ok Z ∧ Z.shape = z.shape := by
  have h := rel_forwardWith (R := fun _ _ => True) (run := p.runMode true) (run' := p.runModeInt t true) (p := p) (p' := p) trivial rfl rfl (junk := junk') (junk' := junk)
    (fun _ => trivial) ((numbers_rel X).mono fun _ _ _ => trivial) ax fun axes _ i _ =>
      ⟨rfl, fun m hm' y y' h idx axis => rel_runModeInt_shape p i (hm i m hm') h idx axis⟩
  rw [forward_with, Padder.forwardInt]
  rcases h.cases with ⟨e, h1, h2⟩ | ⟨z, Z, h1, h2, h3⟩
  · exact Or.inl ⟨e, h1, h2⟩
  · exact Or.inr ⟨z, Z, h1, h2, h3.shape.symm⟩

theorem intAxis_before (s : AxisPad α) : (intAxis s).before = s.before := by rw [intAxis]; split <;> rfl
theorem intAxis_after (s : AxisPad α) : (intAxis s).after = s.after := by rw [intAxis]; split <;> rfl

theorem intAxis_mode (s : AxisPad α) : s.mode = (intAxis s).mode ∨ s.mode = .linearRamp ∧ (intAxis s).mode = .constant := by
  rw [intAxis]
  split
  · exact Or.inr ⟨‹_›, rfl⟩
  · exact Or.inl rfl

theorem intAxis_not_ramp (s : AxisPad α) : (intAxis s).mode ≠ .linearRamp := by
  rw [intAxis]
  split
  · simp
  · assumption

theorem convert_trunc (a : α) : t.convert ((towardZero a : ℤ) : α) = t.convert a := by
  rw [IntType.convert, IntType.convert, truncate_eq, truncate_eq, towardZero_int]

theorem zipRight_intAxis (axes : List Nat) (ss : List (AxisPad α)) : zipRight axes (ss.map intAxis) = intOps (zipRight axes ss) := by
  rw [zipRight, zipRight, intOps, List.length_map, List.zip_map_right]
  rfl

theorem okImp_runModeInt {i : Int} {s : AxisPad α} (h1 : Reads p i s) (h2 : Reads q i (intAxis s)) (y : Tensor t.Word) (idx : List PySlice) (axis : Nat) :
    OkImp (p.runModeInt t true i s.mode y idx axis) (q.runModeInt t true i (intAxis s).mode y idx axis) := by
  obtain ⟨b, a, m, cv, ev, sl⟩ := s
  cases m
  case stat =>
    have e1 := h1.sl
    have e2 := h2.sl
    simp only [intAxis] at e1 e2 ⊢
    unfold Padder.runModeInt
    rw [e1, e2]
    exact .refl _
  case constant =>
    have e1 := h1.cv
    have e2 := h2.cv
    simp only [intAxis] at e1 e2 ⊢
    unfold Padder.runModeInt
    simp only [e1, e2, bind, Except.bind, convert_trunc]
    exact .refl _
  case linearRamp =>
    have e1 := h1.ev
    have e2 := h2.cv
    simp only [intAxis] at e1 e2 ⊢
    unfold Padder.runModeInt
    simp only [e1, e2, bind, Except.bind, convert_trunc]
    exact linearRampInt_constant _ _ _ _ _
  all_goals exact .refl _

theorem forwardInt_core {x : Tensor α} (h : PadCallRep p x ax axes ss) (hm : ∀ s ∈ ss, forIntegers s.mode = true) {R : α → t.Word → Prop} (hx : x.Rel R X) (hR : ∀ a v, IsNumber t a v → R a v)
    (hrun : ∀ (q : Padder α) i, ∀ s ∈ ss, Reads q i (intAxis s) → ∀ (y : Tensor α) (y' : Tensor t.Word), y.Rel R y' → ∀ idx axis,
      ExRel (Tensor.Rel R) (q.runMode true i (intAxis s).mode y idx axis) (q.runModeInt t true i (intAxis s).mode y' idx axis)) (junk : List Nat → t.Word) :
    ∃ Y, p.forwardInt t junk X ax = .ok Y ∧ (padSeq x (intOps (zipRight axes ss))).Rel R Y := by
  have hc := checkAxes_spec h.axes_eq
  have hk : p.nPadded (castV axes) = ss.length := by
    rw [h.len, Padder.nPadded]; simp [castV]
  have hmem : ∀ axes', checkAxes x.ndim ax = .ok axes' → ∀ i ∈ Padder.negRange (p.nPadded axes'), ∃ j, ∃ hj : j < ss.length, i = (j : Int) - ss.length := by
    intro axes' ha i hi
    have e : axes' = castV axes := by
      have := ha.symm.trans hc.1
      exact Except.ok.inj this
    rw [e, hk, Padder.negRange, List.mem_map] at hi
    obtain ⟨j, hj, rfl⟩ := hi
    exact ⟨j, List.mem_range.1 hj, rfl⟩
  -- the integer run has a result
  have hA := forward_call_rep h fun ix => ((t.value (junk ix) : ℤ) : α)
  obtain ⟨Y, hY⟩ : ∃ Y, p.forwardInt t junk X ax = .ok Y := by
    have h1 := rel_forwardWith (R := fun _ _ => True) (run := p.runMode true) (run' := p.runModeInt t true) (p := p) (p' := p) trivial rfl rfl
      (junk := fun ix => ((t.value (junk ix) : ℤ) : α)) (junk' := junk)
      (fun _ => trivial) (hx.mono fun _ _ _ => trivial) ax fun axes' ha i hi => ⟨rfl, fun m hm' y y' h' idx axis => by
        obtain ⟨j, hj, rfl⟩ := hmem axes' ha i hi
        have e := (h.reads j hj).mode
        rw [hm'] at e
        cases e
        exact rel_runModeInt_shape p _ (hm _ (List.getElem_mem hj)) h' idx axis⟩
    rw [← forward_with, hA, ← Padder.forwardInt] at h1
    generalize p.forwardInt t junk X ax = r at h1
    cases h1 with
    | ok _ => exact ⟨_, rfl⟩
  -- the padder with the settings in effect
  let q := listPadder p (ss.map intAxis)
  have hlen : (ss.map intAxis).length = ss.length := List.length_map ..
  have hreads : ∀ j (hj : j < ss.length), Reads q ((j : Int) - ss.length) (intAxis ss[j]) := by
    intro j hj
    have h1 := listPadder_reads (p := p) (ss := ss.map intAxis) (j := j) (by simpa using hj) (by
      simp only [hlen, List.getElem_map, intAxis_before, intAxis_after]
      exact (h.reads j hj).width)
    simpa only [hlen, List.getElem_map] using h1
  have hcall : PadCallRep q x ax axes (ss.map intAxis) := by
    refine ⟨h.ndim_ne, h.axes_eq, ?_, ?_, ?_, ?_⟩
    · rw [zipRight_intAxis]
      intro o ho hw
      rw [intOps, List.mem_map] at ho
      obtain ⟨o, ho, rfl⟩ := ho
      have e : (intOps (zipRight axes ss)).map Prod.fst = (zipRight axes ss).map Prod.fst := by
        rw [intOps, List.map_map]; rfl
      rw [e]
      refine h.once o ho ?_
      rcases intAxis_mode o.2 with h1 | ⟨_, h1⟩
      · rw [h1]; exact hw
      · rw [h1] at hw; simp [Mode.whole] at hw
    · rw [List.length_map]; exact h.len
    · intro j hj
      have hj' : j < ss.length := by simpa using hj
      simpa only [hlen, List.getElem_map] using hreads j hj'
    · rw [zipRight_intAxis]
      intro o ho hnz
      rw [intOps, List.mem_map] at ho
      obtain ⟨o, ho, rfl⟩ := ho
      simp only [intAxis_before, intAxis_after] at hnz
      obtain ⟨h1, h2, h3⟩ := h.valued o ho hnz
      refine ⟨?_, ?_, h3⟩
      · obtain ⟨k, b, a, m, cv, ev, sl⟩ := o
        cases m <;> simp_all [intAxis, AxisPad.rule?]
      · rcases intAxis_mode o.2 with h4 | ⟨_, h4⟩
        · simp only; rw [← h4]; exact h2
        · simp only; rw [h4]; simp
  have hB := forward_call_rep hcall fun ix => ((t.value (junk ix) : ℤ) : α)
  have hQ : q.forwardInt t junk X ax = .ok Y := by
    refine okImp_forward (p := p) (q := q) (run := p.runModeInt t true) (run' := q.runModeInt t true) rfl rfl junk X ax (fun axes' ha i hi => ?_) Y hY
    obtain ⟨j, hj, rfl⟩ := hmem axes' (by rw [Tensor.ndim, hx.shape]; exact ha) i hi
    have r1 := h.reads j hj
    have r2 := hreads j hj
    refine ⟨_, _, r1.mode, r2.mode, intAxis_mode _, fun y idx axis => ?_⟩
    exact okImp_runModeInt r1 r2 y idx axis
  have hrel := rel_forwardWith (R := R) (run := q.runMode true) (run' := q.runModeInt t true) (p := q) (p' := q) (hR _ _ isNumber_zero) rfl rfl
      (junk := fun ix => ((t.value (junk ix) : ℤ) : α)) (junk' := junk) (fun ix => hR _ _ rfl) hx ax
      fun axes' ha i hi => ⟨rfl, fun m hm' y y' h' idx axis => by
        obtain ⟨j, hj, rfl⟩ := hmem axes' ha i hi
        have e := (hreads j hj).mode
        rw [hm'] at e
        cases e
        exact hrun q _ _ (List.getElem_mem hj) (hreads j hj) _ _ h' idx axis⟩
  rw [← forward_with, hB, ← Padder.forwardInt, hQ] at hrel
  cases hrel with
  | ok h' => exact ⟨Y, hY, by rwa [zipRight_intAxis] at h'⟩

theorem constantsIn_ring {i : Int} {s : AxisPad α} (h : Reads q i (intAxis s)) : ConstantsIn (t := t) (SameInt (α := α)) q i := by
  intro cv hcv
  rw [h.cv] at hcv
  cases hcv
  have e : ∀ a : α, SameInt (α := α) ((towardZero a : ℤ) : α) (t.convert ((towardZero a : ℤ) : α)) := fun a => by
    refine ⟨towardZero a, rfl, ?_⟩
    rw [IntType.convert, truncate_eq, towardZero_int]
    rfl
  rw [intAxis]
  split
  · exact ⟨e _, e _⟩
  · exact ⟨e _, e _⟩

/-- padding keeps the agreement modulo the size of the type -/
theorem forwardInt_rel {x : Tensor α} (hx : x.Rel (SameInt (α := α)) X) (h : PadCallRep p x ax axes ss) (hm : ∀ s ∈ ss, forIntegers s.mode = true ∧ isStat s.mode = false)
    (junk : List Nat → t.Word) : ∃ Y, p.forwardInt t junk X ax = .ok Y ∧ (padSeq x (intOps (zipRight axes ss))).Rel (SameInt (α := α)) Y :=
  forwardInt_core h (fun s hs => (hm s hs).1) (R := SameInt (α := α)) hx (fun a v h => h.sameInt) (fun q i s hs hr y y' hy idx axis =>
    rel_runModeInt_ring sameInt_ringRel (constantsIn_ring hr)
      (by rcases intAxis_mode s with h1 | ⟨_, h1⟩
          · rw [← h1]; exact (hm s hs).1
          · rw [h1]; rfl)
      (by rcases intAxis_mode s with h1 | ⟨_, h1⟩
          · rw [← h1]; exact (hm s hs).2
          · rw [h1]; rfl) (intAxis_not_ramp s) hy idx axis) junk

/-- **C132.** Padding an image of machine integers with any mode but the statistics: the result is the exact padding of the numbers, with the padding constants cut to integers and
every ramp replaced by its constant end value, reduced modulo the size of the type. -/
theorem C132_wraps (h : PadCallRep p (numbers X) ax axes ss) (hm : ∀ s ∈ ss, forIntegers s.mode = true ∧ isStat s.mode = false) (junk : List Nat → t.Word) :
    ∃ Y, p.forwardInt t junk X ax = .ok Y ∧ Y.shape = (padSeq (numbers X) (intOps (zipRight axes ss))).shape ∧
      ∀ ix, ∃ n : ℤ, (padSeq (numbers X) (intOps (zipRight axes ss))).get ix = (n : α) ∧ Y.get ix = BitVec.ofInt t.bits n := by
  obtain ⟨Y, h1, h2⟩ := forwardInt_rel ((numbers_rel X).mono fun a v h => h.sameInt) h hm junk
  exact ⟨Y, h1, h2.shape.symm, fun ix => h2.get ix⟩

/-- **C132**: if the numbers of the padded image fit into the type they are the result, whatever happened in between. -/
theorem C132_fits (hb : 0 < t.bits) (h : PadCallRep p (numbers X) ax axes ss) (hm : ∀ s ∈ ss, forIntegers s.mode = true ∧ isStat s.mode = false)
    (hf : ∀ ix, InB (padSeq (numbers X) (intOps (zipRight axes ss))).shape ix → ∀ n : ℤ,
      (padSeq (numbers X) (intOps (zipRight axes ss))).get ix = (n : α) → Holdable t n) (junk : List Nat → t.Word) :
    ∃ Y, p.forwardInt t junk X ax = .ok Y ∧ numbers Y = padSeq (numbers X) (intOps (zipRight axes ss)) := by
  obtain ⟨Y, h1, h2, h3⟩ := C132_wraps h hm junk
  refine ⟨Y, h1, ext_get h2 fun ix hix => ?_⟩
  have hix : InB Y.shape ix := hix
  obtain ⟨n, e1, e2⟩ := h3 ix
  rw [numbers, get_map _ _ hix, e1, e2, value_ofInt hb (hf ix (h2 ▸ hix) n e1)]

/-- **C132**: modes that only copy and compare numbers are exact on integer images (given padding constants in the range of the type). -/
theorem C132_exact (hb : 0 < t.bits) (h : PadCallRep p (numbers X) ax axes ss) (hm : ∀ s ∈ ss, forIntegers s.mode = true ∧ isArithmetic s.mode = false)
    (hc : ∀ s ∈ ss, (s.mode = .constant → Holdable t (towardZero s.cv.1) ∧ Holdable t (towardZero s.cv.2)) ∧
      (s.mode = .linearRamp → Holdable t (towardZero s.ev.1) ∧ Holdable t (towardZero s.ev.2))) (junk : List Nat → t.Word) :
    ∃ Y, p.forwardInt t junk X ax = .ok Y ∧ numbers Y = padSeq (numbers X) (intOps (zipRight axes ss)) := by
  have key : ∀ (q : Padder α) i, ∀ s ∈ ss, Reads q i (intAxis s) → (intAxis s).mode = .constant → ConstantsIn (IsNumber t) q i := by
    intro q i s hs hr hmc cv hcv
    rw [hr.cv] at hcv
    cases hcv
    have e : ∀ a : α, Holdable t (towardZero a) → IsNumber t ((towardZero a : ℤ) : α) (t.convert ((towardZero a : ℤ) : α)) := fun a ha => by
      rw [IsNumber, IntType.convert, truncate_eq, towardZero_int, value_ofInt hb ha]
    have h1 := hc s hs
    rw [intAxis] at hmc ⊢
    split at hmc
    · next hl => simp only [hl] at h1 ⊢; exact ⟨e _ (h1.2 trivial).1, e _ (h1.2 trivial).2⟩
    · next hl =>
      have hmc : s.mode = .constant := hmc
      simp only [hmc] at h1 ⊢
      exact ⟨e _ (h1.1 trivial).1, e _ (h1.1 trivial).2⟩
  obtain ⟨Y, h1, h2⟩ := forwardInt_core h (fun s hs => (hm s hs).1) (R := IsNumber t) (numbers_rel X) (fun a v h => h) (fun q i s hs hr y y' hy idx axis => by
    have hA : forIntegers (intAxis s).mode = true := by
      rcases intAxis_mode s with h1 | ⟨_, h1⟩
      · rw [← h1]; exact (hm s hs).1
      · rw [h1]; rfl
    have hB : isArithmetic (intAxis s).mode = false := by
      rcases intAxis_mode s with h1 | ⟨_, h1⟩
      · rw [← h1]; exact (hm s hs).2
      · rw [h1]; rfl
    exact rel_runModeInt_copy hb (key q i s hs hr) hA hB (intAxis_not_ramp s) hy idx axis) junk
  refine ⟨Y, h1, ext_get h2.shape.symm fun ix hix => ?_⟩
  have hix : InB Y.shape ix := hix
  rw [numbers, get_map _ _ hix, h2.get ix]

/-- **C132**, in terms of calls only: on integer images `linear_ramp` does the same as `constant` with the end values. -/
theorem C132_ramp {ss' : List (AxisPad α)} (h : PadCallRep p (numbers X) ax axes ss) (h' : PadCallRep q (numbers X) ax axes ss')
    (hs : List.Forall₂ (fun s s' => s.mode = .linearRamp ∧ s'.mode = .constant ∧ s'.cv = s.ev ∧ s'.before = s.before ∧ s'.after = s.after) ss ss')
    (junk junk' : List Nat → t.Word) : p.forwardInt t junk X ax = q.forwardInt t junk' X ax := by
  have hlen := hs.length_eq
  have hg : ∀ j (h1 : j < ss.length) (h2 : j < ss'.length), ss[j].mode = .linearRamp ∧ ss'[j].mode = .constant ∧ ss'[j].cv = ss[j].ev ∧ ss'[j].before = ss[j].before ∧
      ss'[j].after = ss[j].after := fun j h1 h2 => (List.forall₂_iff_get.1 hs).2 j h1 h2
  obtain ⟨Y, h1, h2, h3⟩ := C132_wraps h (fun s hs' => by
    obtain ⟨j, hj, rfl⟩ := List.mem_iff_getElem.1 hs'
    rw [(hg j hj (by omega)).1]; exact ⟨rfl, rfl⟩) junk
  obtain ⟨Y', h1', h2', h3'⟩ := C132_wraps h' (fun s hs' => by
    obtain ⟨j, hj, rfl⟩ := List.mem_iff_getElem.1 hs'
    rw [(hg j (by omega) hj).2.1]; exact ⟨rfl, rfl⟩) junk'
  have e : padSeq (numbers X) (intOps (zipRight axes ss)) = padSeq (numbers (α := α) X) (intOps (zipRight axes ss')) := by
    have hz : List.Forall₂ (fun o o' : Nat × AxisPad α => ∀ x, padStep x o = padStep x o') (intOps (zipRight axes ss)) (intOps (zipRight axes ss')) := by
      rw [List.forall₂_iff_get]
      refine ⟨by simp [intOps, zipRight, hlen], fun j h1 h2 x => ?_⟩
      simp only [intOps, zipRight, List.length_map, List.length_zip, List.length_drop] at h1 h2
      have hj := hg j (by omega) (by omega)
      simp only [intOps, zipRight, List.get_eq_getElem, List.getElem_map, List.getElem_zip, hlen]
      generalize ss[j] = s at hj ⊢
      generalize ss'[j] = s' at hj ⊢
      obtain ⟨b, a, m, cv, ev, sl⟩ := s
      obtain ⟨b', a', m', cv', ev', sl'⟩ := s'
      obtain ⟨r1, r2, r3, r4, r5⟩ := hj
      simp only at r1 r2 r3 r4 r5
      subst r1 r2 r3 r4 r5
      rfl
    rw [padSeq, padSeq]
    generalize numbers (α := α) X = x
    clear h h' h1 h1' h2 h2' h3 h3'
    generalize intOps (zipRight axes ss) = os at hz ⊢
    generalize intOps (zipRight axes ss') = os' at hz ⊢
    induction hz generalizing x with
    | nil => rfl
    | cons hh _ ih => rw [List.foldl_cons, List.foldl_cons, hh x]; exact ih _
  rw [h1, h1']
  congr 1
  refine ext_get (by rw [h2, h2', e]) fun ix _ => ?_
  obtain ⟨n, a1, a2⟩ := h3 ix
  obtain ⟨n', a1', a2'⟩ := h3' ix
  rw [← e, a1, Int.cast_inj] at a1'
  rw [a2, a2', a1']

/-- **C132**: an integer image cannot be padded with means, even where the numbers have an integer mean. -/
theorem C132_mean_rejects (h : PadReq p (numbers (α := α) X) ax axes ss) (hm : ∀ s ∈ ss, ¬ (s.before = 0 ∧ s.after = 0) → s.mode = .stat .mean)
    (hn : ∃ o ∈ zipRight axes ss, ¬ (o.2.before = 0 ∧ o.2.after = 0)) (junk : List Nat → t.Word) : p.forwardInt t junk X ax = .error .runtime := by
  have hc := checkAxes_spec h.axes_eq
  have hle := h.len_le
  have hne : castV axes ≠ [] := by
    rintro e
    have : axes = [] := by simpa [castV] using e
    subst this
    obtain ⟨o, ho, _⟩ := hn
    simp [zipRight] at ho
  have hf : List.Forall₂ (fun i (o : Nat × AxisPad α) => pyIndex (castV axes) i = .ok (o.1 : Int) ∧ Reads p i o.2)
      (Padder.negRange (p.nPadded (castV axes))) (zipRight axes ss) := by
    have hk : p.nPadded (castV axes) = ss.length := by
      rw [h.len, Padder.nPadded]; simp [castV]
    rw [hk, List.forall₂_iff_get]
    refine ⟨by simp [Padder.negRange, zipRight]; omega, ?_⟩
    intro j h1 h2
    have hj : j < ss.length := by simpa [Padder.negRange] using h1
    have e : (Padder.negRange ss.length).get ⟨j, h1⟩ = (j : Int) - ss.length := by
      simp [Padder.negRange]
    rw [e]
    have e2 : (zipRight axes ss).get ⟨j, h2⟩ =
        (axes[axes.length - ss.length + j]'(by omega), ss[j]) := by
      simp [zipRight, List.getElem_drop]
    rw [e2]
    refine ⟨?_, h.reads j hj⟩
    rw [pyIndex_neg (by simpa [castV] using hle) hj]
    simp [castV]
  have hlt : ∀ o ∈ zipRight axes ss, o.1 < X.ndim := fun o ho => hc.2 _ (zipRight_mem ho).1
  rcases forwardWith_prefix (p.runModeInt t true) p junk X ax (castV axes) (zipRight axes ss) h.ndim_ne hc.1 hne hf (zipRight_nodup h.nodup hle) hlt with ⟨_, h2⟩ | ⟨y, W, h1, hW, hl, h3⟩
  · obtain ⟨o, ho, hnz⟩ := hn
    exact absurd (h2 o ho) hnz
  · rw [Padder.forwardInt, h1]
    refine fillLoopInt_mean _ y W X.shape _ _ hf (fun o ho => ?_) (fun o ho => hm _ (zipRight_mem ho).2) hn
    have h4 := h3 o ho
    have hlen : W.length = y.shape.length := List.Forall₂.length_eq hW
    have h5 := hlt o ho
    simp only [Tensor.ndim] at h5 ⊢
    exact ⟨by omega, by omega, h4.1, h4.2⟩

end

namespace IntPadExample

abbrev uint8 : IntType := ⟨8, false⟩
abbrev int8 : IntType := ⟨8, true⟩

/-- `x = torch.tensor(l, dtype=...)` -/
def img (t : IntType) (l : List ℤ) : Tensor t.Word := ⟨[l.length], l.map (BitVec.ofInt t.bits), by simp [numel]⟩

/-- `Padder(pad_width=(2, 1), mode=m, constant_values=c, end_values=(1.9, 5))` -/
def p (m : Mode ℚ) (c : ℚ) : Padder ℚ where
  padWidth := ⟨.seq [.leaf 2, .leaf 1], [2], 0⟩
  mode := ⟨.leaf m, [], 0⟩
  constantValues := ⟨.seq [.leaf c, .leaf 5], [2], 0⟩
  endValues := ⟨.seq [.leaf (19 / 10), .leaf 5], [2], 0⟩
  statLength := ⟨.seq [.leaf none, .leaf none], [2], 0⟩
  ndim := 0

def s (m : Mode ℚ) (c : ℚ) : AxisPad ℚ := ⟨2, 1, m, (c, 5), (19 / 10, 5), (none, none)⟩

theorem reads (m : Mode ℚ) (c : ℚ) (i : Int) : Reads (p m c) i (s m c) := ⟨rfl, rfl, rfl, rfl, rfl⟩

theorem call {m : Mode ℚ} (c : ℚ) (hv : (s m c).rule? ≠ none ∧ m ≠ .zeros) (t : IntType) :
    PadCallRep (p m c) (numbers (img t [10, 20, 200])) (.seq [-1]) [0] [s m c] where
  ndim_ne := by simp [numbers, img, Tensor.ndim, Tensor.map]
  axes_eq := by simp [numbers, img, Tensor.ndim, Tensor.map, axesOf, normAxes]; rfl
  once := fun o ho hm => by simp [zipRight] at ho; subst ho; simp [zipRight]
  len := by simp [p]
  reads := fun j hj => by simp at hj; subst hj; exact reads m c _
  valued := fun o ho _ => by
    simp [zipRight] at ho; subst ho
    exact ⟨hv.1, hv.2, by simp [numbers, img, Tensor.map]⟩

example (junk : List Nat → uint8.Word) := C132_wraps (call (m := .oddReflect) 0 ⟨by simp [AxisPad.rule?, s], by simp⟩ uint8) (by simp [s, forIntegers, isStat]) junk

example (junk : List Nat → uint8.Word) := C132_exact (by decide) (call (m := .stat .median) 0 ⟨by simp [AxisPad.rule?, s], by simp⟩ uint8) (by simp [s, forIntegers, isArithmetic])
  (by simp [s]) junk

example (junk junk' : List Nat → uint8.Word) : (p .linearRamp 0).forwardInt uint8 junk (img uint8 [10, 20, 200]) (.seq [-1]) =
    (p .constant (19 / 10)).forwardInt uint8 junk' (img uint8 [10, 20, 200]) (.seq [-1]) :=
  C132_ramp (call (m := .linearRamp) 0 ⟨by simp [AxisPad.rule?, s], by simp⟩ uint8) (call (m := .constant) (19 / 10) ⟨by simp [AxisPad.rule?, s], by simp⟩ uint8)
    (by simp [s]) junk junk'

example (junk : List Nat → uint8.Word) : (p (.stat .mean) 0).forwardInt uint8 junk (img uint8 [10, 20, 200]) (.seq [-1]) = .error .runtime :=
  C132_mean_rejects (axes := [0]) (ss := [s (.stat .mean) 0])
    ⟨by simp [numbers, img, Tensor.ndim, Tensor.map], by simp [numbers, img, Tensor.ndim, Tensor.map, axesOf, normAxes]; rfl, by simp,
      by simp [p], fun j hj => by simp at hj; subst hj; exact reads _ _ _⟩
    (by simp [s]) ⟨(0, s (.stat .mean) 0), by simp [zipRight], by simp [s]⟩ junk

example (junk : List Nat → uint8.Word) (junk' : List Nat → ℚ) := C132_outcome (p := p .smooth 0) (fun i m h => by cases h; rfl) (img uint8 [10, 20, 200]) (.seq [-1]) junk junk'

/-- the numbers of the padded image -/
def run (t : IntType) (m : Mode ℚ) (c : ℚ) (l : List ℤ) : Option (List ℤ) :=
  ((p m c).forwardInt t (fun _ => 0) (img t l) .none).toOption.map fun z => z.data.map t.value

end IntPadExample

open IntPadExample in
/-- **C132**: differences to the padding of numbers: reflections wrap around the range of the type, constants lose their digits (towards zero), ramps are flat, and there is no mean. -/
theorem C132_differ :
    run uint8 .oddReflect 0 [10, 20, 200] = some [76, 0, 10, 20, 200, 124] ∧
    run int8 .oddReflect 0 [10, 20, 100] = some [-80, 0, 10, 20, 100, -76] ∧
    run int8 .constant (-19 / 10) [10, 20, 30] = some [-1, -1, 10, 20, 30, 5] ∧
    run uint8 .linearRamp 0 [10, 20, 30] = some [1, 1, 10, 20, 30, 5] ∧
    run int8 (.stat .minimum) 0 [10, -20, 30] = some [-20, -20, 10, -20, 30, -20] ∧
    run uint8 (.stat .mean) 0 [10, 20, 30] = none := by
  decide +kernel

end TI
