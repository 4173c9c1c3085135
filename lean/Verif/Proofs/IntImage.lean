import Verif.Model.IntImage
import Verif.Props.IntPad
import Verif.Props.Repeat

/-!
# Pooling of images of machine integers
-/

set_option linter.unusedSectionVars false

namespace TI
open Tensor Spec

section
variable {α β : Type} [Zero α] [Add α] [Sub α] [Neg α] [Mul α] [IntCast α] [OfNat α 2] [Zero β] [Add β] [Sub β] [Neg β] [Mul β] [IntCast β] [OfNat β 2]
variable {R : α → β → Prop}

theorem rel_sum (hR : RingRel R) {f : Nat → α} {g : Nat → β} (l : List Nat) (h : ∀ j ∈ l, R (f j) (g j)) : R (l.map f).sum (l.map g).sum := by
  induction l with
  | nil => exact hR.zero
  | cons a l ih =>
    rw [List.map_cons, List.map_cons, List.sum_cons, List.sum_cons]
    exact hR.add (h a (by simp)) (ih fun j hj => h j (by simp [hj]))

theorem rel_unfold (h0 : R 0 0) {x : Tensor α} {y : Tensor β} (h : x.Rel R y) (a : Nat) (k s : Int) : ExRel (Tensor.Rel R) (x.unfold a k s) (y.unfold a k s) := by
  unfold Tensor.unfold
  rw [h.ndim, h.shape]
  refine .ite Iff.rfl (fun _ => .ite Iff.rfl (fun _ => .error _) fun _ => ?_) fun _ => .error _
  exact .ok (rel_ofFn h0 rfl fun ix _ => h.get _)

theorem rel_matvec (hR : RingRel R) {x : Tensor α} {y : Tensor β} (h : x.Rel R y) {w : List α} {v : List β} (hl : w.length = v.length)
    (hw : ∀ j, R (w.getD j 0) (v.getD j 0)) : ExRel (Tensor.Rel R) (x.matvec w) (y.matvec v) := by
  unfold Tensor.matvec
  rw [h.shape, hl]
  refine .ite Iff.rfl (fun _ => ?_) fun _ => .error _
  exact .ok (rel_ofFn hR.zero rfl fun ix _ => rel_sum hR _ fun j _ => hR.mul (h.get _) (hw j))

end

section
variable {α : Type} [Field α] [LinearOrder α] [IsStrictOrderedRing α] [FloorRing α] {t : IntType} {R : α → t.Word → Prop}
variable {pool : SepPool α} {g : PoolArgs α} {m : Nat} {gp : PadArgs α} {p : Padder α} {x : Tensor α} {X : Tensor t.Word} {ax : Axes} {axes : List Nat}

theorem rel_convert (hR : RingRel R) (a : α) : R ((towardZero a : ℤ) : α) (t.convert a) := by
  rw [IntType.convert, truncate_eq]
  exact hR.int _

theorem rel_weights (hR : RingRel R) (w : List α) (j : Nat) : R ((w.map fun a => ((towardZero a : ℤ) : α)).getD j 0) ((w.map t.convert).getD j 0) := by
  simp only [List.getD_eq_getElem?_getD, List.getElem?_map]
  cases w[j]? with
  | none => exact hR.zero
  | some a => exact rel_convert hR a

theorem fitting_trunc : ∀ {ops : List (PoolOp α)} {x y : Tensor α}, x.shape = y.shape → (Fitting x (ops.map truncOp) ↔ Fitting y ops)
  | [], _, _, _ => Iff.rfl
  | o :: ops, x, y, h => by
    have hs : (slide x (truncOp o)).shape = (slide y o).shape := by
      rw [slide_shape, slide_shape, h]
      simp [truncOp]
    rw [List.map_cons, Fitting, Fitting, fitting_trunc hs, ndim, ndim, h]
    simp [truncOp]

theorem PoolIs.stepWord (h : PoolIs pool g m) (hR : RingRel R) (hx : x.Rel R X) {i : Nat} (hi : g.isMany = true → i < m) {axes : List Nat}
    (hf : (g.op axes i).kernel ≠ [] → (g.op axes i).axis < x.ndim ∧ 0 < (g.op axes i).stride ∧
      (g.op axes i).kernel.length ≤ x.shape.getD (g.op axes i).axis 0) :
    ∃ Z, SepPool.poolStepWord t pool i ((axes.getD i 0 : Nat) : Int) X = .ok Z ∧ (slide x (truncOp (g.op axes i))).Rel R Z := by
  have e1 := h.getSize hi
  have e2 := h.getStride hi axes
  have e3 := h.getKernel hi
  cases hk : pool.kernelSize.get (i : Int) with
  | error e => rw [hk] at e1; simp [Except.bind] at e1
  | ok k =>
  rw [hk] at e1
  simp only [Except.bind] at e1
  simp only [SepPool.poolStepWord, hk, e1, bind, Except.bind]
  by_cases h0 : g.kernel.entry [] i = []
  · rw [if_pos (by simp [h0])]
    exact ⟨X, rfl, by simpa [slide, truncOp, PoolArgs.op, h0] using hx⟩
  · have hpos : 0 < (g.kernel.entry [] i).length := List.length_pos_iff.2 h0
    rw [if_neg (by omega)]
    obtain ⟨f1, f2, f3⟩ := hf h0
    cases hs : pool.stride.get (i : Int) with
    | error e => rw [hs] at e2; simp [Except.bind] at e2
    | ok s =>
    rw [hs] at e2
    simp only [Except.bind] at e2
    cases hw : pool.kernel.get (i : Int) with
    | error e => rw [hw] at e3; simp [Except.bind] at e3
    | ok w =>
    rw [hw] at e3
    simp only [Except.bind] at e3
    have hsl := unfold_matvec (x := x) (a := (g.op axes i).axis) (s := (g.op axes i).stride) (w := (g.kernel.entry [] i).map fun a => ((towardZero a : ℤ) : α)) f1
      (by simpa using h0) f2 (by rw [List.length_map]; exact f3)
    have hax : convDim X.ndim ((axes.getD i 0 : Nat) : Int) = .ok (g.op axes i).axis := by rw [← hx.ndim]; exact convDim_nat f1
    simp only [e2, hax, e3]
    have hrel : ExRel (Tensor.Rel R)
        ((x.unfold (g.op axes i).axis ((g.kernel.entry [] i).length : Int) ((g.op axes i).stride : Int)) >>= fun y =>
          y.matvec ((g.kernel.entry [] i).map fun a => ((towardZero a : ℤ) : α)))
        ((X.unfold (g.op axes i).axis ((g.kernel.entry [] i).length : Int) ((g.op axes i).stride : Int)) >>= fun y =>
          y.matvec ((g.kernel.entry [] i).map t.convert)) :=
      .bind (rel_unfold hR.zero hx _ _ _) fun y y' hy => rel_matvec hR hy (by simp) (rel_weights hR _)
    rw [List.length_map] at hsl
    rw [show ((x.unfold (g.op axes i).axis ((g.kernel.entry [] i).length : Int) ((g.op axes i).stride : Int)) >>= fun y =>
          y.matvec ((g.kernel.entry [] i).map fun a => ((towardZero a : ℤ) : α))) = _ from hsl] at hrel
    rcases hrel.cases with ⟨e, h1, _⟩ | ⟨z, Z, h1, h2, h3⟩
    · cases h1
    · cases h1
      exact ⟨Z, h2, h3⟩

theorem PoolIs.loopWord (h : PoolIs pool g m) (hR : RingRel R) {axes : List Nat} (hi : g.isMany = true → axes.length ≤ m) :
    ∀ (n i : Nat) (x : Tensor α) (X : Tensor t.Word), x.Rel R X → i + n = axes.length →
      Fitting x (((List.range n).map fun j => g.op axes (i + j)).map truncOp) →
      ∃ Z, SepPool.poolLoopWord t pool i (castV (axes.drop i)) X = .ok Z ∧ (poolSeq x (((List.range n).map fun j => g.op axes (i + j)).map truncOp)).Rel R Z
  | 0, i, x, X, hx, hn, _ => by
    rw [List.drop_eq_nil_of_le (by omega)]
    exact ⟨X, rfl, hx⟩
  | n + 1, i, x, X, hx, hn, hf => by
    have hlt : i < axes.length := by omega
    rw [List.range_succ_eq_map, List.map_cons, List.map_map] at hf ⊢
    have hd : axes.drop i = axes.getD i 0 :: axes.drop (i + 1) := by
      rw [List.drop_eq_getElem_cons hlt]
      simp [hlt]
    have hfun : (fun j => g.op axes (i + j)) ∘ Nat.succ = fun j => g.op axes (i + 1 + j) := by
      funext j
      simp only [Function.comp, Nat.succ_eq_add_one]
      congr 1
      omega
    rw [hfun] at hf ⊢
    rw [hd, castV, List.map_cons, SepPool.poolLoopWord]
    simp only [Nat.add_zero, List.map_cons] at hf ⊢
    obtain ⟨Z, z1, z2⟩ := h.stepWord hR hx (fun hm => by have := hi hm; omega) (axes := axes) (i := i) (by
      have := hf.1
      simpa [truncOp] using this)
    rw [z1]
    exact PoolIs.loopWord h hR hi n (i + 1) _ Z z2 (by omega) hf.2

theorem PoolIs.loopWord_all (h : PoolIs pool g m) (hR : RingRel R) (hx : x.Rel R X) (hi : g.isMany = true → axes.length ≤ m)
    (hf : Fitting x (g.ops axes)) : ∃ Z, SepPool.poolLoopWord t pool 0 (castV axes) X = .ok Z ∧ (poolSeq x ((g.ops axes).map truncOp)).Rel R Z := by
  have := h.loopWord hR hi axes.length 0 x X hx (by omega) (by rw [fitting_trunc rfl]; simpa [PoolArgs.ops] using hf)
  simpa [PoolArgs.ops] using this

/-- the call of `forward`, once the padding has succeeded -/
theorem PoolIs.forwardWord_padded (h : PoolIs pool g m) (hR : RingRel R) (hm : g.isMany = true → axes.length = m) (hax : axesOf X.ndim ax = some axes)
    {padder q : Option (Padder α)} {junk : List Nat → t.Word} {y : Tensor α} {Y : Tensor t.Word}
    (hY : SepPool.padWord t pool padder junk X (.seq (castV axes)) = (q, .ok Y)) (hy : y.Rel R Y) (hf : Fitting y (g.ops axes)) :
    ∃ Z, SepPool.forwardWord t pool padder junk X ax = (q, .ok Z) ∧ (poolSeq y ((g.ops axes).map truncOp)).Rel R Z := by
  obtain ⟨hca, _⟩ := checkAxes_spec hax
  have hnd : pool.ndim = 0 ∨ pool.ndim = ((castV axes).length : Int) := by
    rw [h.ndim]
    split_ifs with hh
    · right; simp [castV, hm hh]
    · left; rfl
  obtain ⟨Z, z1, z2⟩ := h.loopWord_all hR hy (fun hh => by rw [hm hh]) hf
  refine ⟨Z, ?_, z2⟩
  simp only [SepPool.forwardWord, hca, if_pos hnd, hY, z1]

/-- `pad` pads with the widths set by `to_same` -/
theorem PoolIs.padWord_req (h : PoolIs pool g m) (hs : X.shape = x.shape) (hc : SameReq g gp x ax axes) (hm : g.isMany = true → axes.length = m) (hp : Holds p gp)
    (junk : List Nat → t.Word) :
    SepPool.padWord t pool (some p) junk X (.seq (castV axes)) =
      (some ((gp.withWidths (g.widths x.shape axes)).padder axes.length), ((gp.withWidths (g.widths x.shape axes)).padder axes.length).forwardInt t junk X (.seq (castV axes))) := by
  obtain ⟨_, hlt⟩ := checkAxes_spec hc.axes_eq
  have hpos : 0 < axes.length := List.length_pos_iff.2 hc.ne
  have hn : X.ndim = x.ndim := by rw [Tensor.ndim, Tensor.ndim, hs]
  simp only [SepPool.padWord, hn, hs, checkAxes_castV hlt, sequence_sizes hlt]
  obtain ⟨ns, e1, h1⟩ := ofItem_sizes (l := axes.map fun a => x.shape.getD a 0) (by simpa using hc.ne)
  simp only [e1]
  have hfit : g.Fits axes.length := by
    cases hh : g.isMany with
    | true => exact hc.fits hh
    | false => exact fits_of_not_many hh _
  obtain ⟨gs, q1, q2, q3, q4⟩ := h.stride
  have q2' : gs.Fits axes.length := by
    cases gs with
    | one b => trivial
    | many l => rw [hm (q3 rfl)]; exact q2
  have hts := toSame_padder (m := axes.length) (gs := gs) hpos hp hc.rest h.size q1 h1 (given_fits_map _ hfit.1) q2'
    (by simp [Given.Fits]) rfl (fun i => (g.op axes i).kernel.length) (fun i => (g.op axes i).stride)
    (fun i => x.shape.getD (axes.getD i 0) 0)
    (by
      intro i hi
      cases hk : g.kernel with
      | one k => simp [Given.map, Given.entry, PoolArgs.op, hk]
      | many l =>
        have hl : l.length = axes.length := by have := hfit.1; rw [hk] at this; exact this
        have hi' : i < l.length := by omega
        simp [Given.map, Given.entry, PoolArgs.op, hk, hi'])
    (by
      intro i hi
      exact q4 i (fun hh => by rw [← hm hh]; exact hi) axes)
    (by
      intro i hi
      simp [Given.entry, hi])
    hc.stride
  rw [hts]
  simp only
  rfl

theorem sameOps_settings {o : AxisPad α} (h : o ∈ (gp.withWidths (g.widths x.shape axes)).settings axes.length axes.length) :
    ∃ i < axes.length, o = sameSetting g gp x.shape axes i := by
  have hset : (gp.withWidths (g.widths x.shape axes)).settings axes.length axes.length =
      (List.range axes.length).map (gp.withWidths (g.widths x.shape axes)).entry := by
    simp [PadArgs.settings, PadArgs.isMany, PadArgs.withWidths, Given.isMany]
  rw [hset, List.mem_map] at h
  obtain ⟨i, hi, rfl⟩ := h
  exact ⟨i, List.mem_range.1 hi, withWidths_entry _ _ _ _ (List.mem_range.1 hi)⟩

theorem Spec.SameCall.padCall (hc : SameCall g gp x ax axes) : PadCallRep ((gp.withWidths (g.widths x.shape axes)).padder axes.length) x (.seq (castV axes)) axes
    ((gp.withWidths (g.widths x.shape axes)).settings axes.length axes.length) := by
  obtain ⟨_, hlt⟩ := checkAxes_spec hc.axes_eq
  exact (call_args (g := gp.withWidths (g.widths x.shape axes)) (m := axes.length) (List.length_pos_iff.2 hc.ne) (withWidths_fits hc.rest)
    (x := x) hc.ndim_ne (ax := .seq (castV axes)) (axes := axes) (normAxes_castV hlt) hc.nodup (by
      rw [sameOps_zipRight]
      intro o ho hw
      have := hc.valued o ho hw
      exact ⟨this.1, this.2, hc.pos o.1 (List.of_mem_zip (show (o.1, o.2) ∈ axes.zip _ from ho)).1⟩)).rep

theorem padStep_int_shape {y : Tensor α} (h : x.shape = y.shape) (o : Nat × AxisPad α) : (padStep x (o.1, intAxis o.2)).shape = (padStep y o).shape := by
  have ht : ∀ n, (intAxis o.2).total n = o.2.total n := by
    intro n
    obtain ⟨k, b, a, m, cv, ev, sl⟩ := o
    cases m <;> rfl
  have hr : (intAxis o.2).rule? = none ↔ o.2.rule? = none := by
    obtain ⟨k, b, a, m, cv, ev, sl⟩ := o
    cases m <;> simp [intAxis, AxisPad.rule?]
  by_cases hz : o.2.before = 0 ∧ o.2.after = 0
  · rw [padStep, padStep, if_pos hz, if_pos (by rw [intAxis_before, intAxis_after]; exact hz), h]
  · by_cases hn : o.2.rule? = none
    · rw [padStep, padStep, if_neg hz, if_neg (by rw [intAxis_before, intAxis_after]; exact hz), hn]
      simp only
      rw [hr.2 hn]
      exact h
    · rw [padStep_shape (fun _ => hn), padStep_shape (fun _ => mt hr.1 hn), intAxis_before, ht, h]

theorem padSeq_int_shape : ∀ (ops : List (Nat × AxisPad α)) {x y : Tensor α}, x.shape = y.shape → (padSeq x (intOps ops)).shape = (padSeq y ops).shape
  | [], _, _, h => h
  | o :: ops, _, _, h => padSeq_int_shape ops (padStep_int_shape h o)

/-- the padded image of a call with a same padder: modes that do not order the numbers -/
theorem PoolIs.padWord_same (h : PoolIs pool g m) (hx : x.Rel (SameInt (α := α)) X) (hc : SameCall g gp x ax axes) (hm : g.isMany = true → axes.length = m) (hp : Holds p gp)
    (hmode : ∀ i < axes.length, forIntegers (gp.mode.entry .unknown i) = true ∧ isStat (gp.mode.entry .unknown i) = false) (junk : List Nat → t.Word) :
    ∃ Y, SepPool.padWord t pool (some p) junk X (.seq (castV axes)) = (some ((gp.withWidths (g.widths x.shape axes)).padder axes.length), .ok Y) ∧
      (padSeq x (intOps (sameOps g gp x.shape axes))).Rel (SameInt (α := α)) Y := by
  obtain ⟨Y, h1, h2⟩ := forwardInt_rel hx hc.padCall (fun s hs => by
    obtain ⟨i, hi, rfl⟩ := sameOps_settings hs
    exact hmode i hi) junk
  rw [sameOps_zipRight] at h2
  exact ⟨Y, by rw [h.padWord_req hx.shape.symm hc.toSameReq hm hp junk, h1], h2⟩

/-- a call with a same padder -/
theorem PoolIs.forwardWord_same (h : PoolIs pool g m) (hx : x.Rel (SameInt (α := α)) X) (hc : SameCall g gp x ax axes) (hm : g.isMany = true → axes.length = m) (hp : Holds p gp)
    (hmode : ∀ i < axes.length, forIntegers (gp.mode.entry .unknown i) = true ∧ isStat (gp.mode.entry .unknown i) = false) (junk : List Nat → t.Word) :
    ∃ Z, SepPool.forwardWord t pool (some p) junk X ax = (some ((gp.withWidths (g.widths x.shape axes)).padder axes.length), .ok Z) ∧
      (poolSeq (padSeq x (intOps (sameOps g gp x.shape axes))) ((g.ops axes).map truncOp)).Rel (SameInt (α := α)) Z := by
  obtain ⟨Y, h1, h2⟩ := h.padWord_same hx hc hm hp hmode junk
  exact h.forwardWord_padded sameInt_ringRel hm (by rw [← hx.ndim]; exact hc.axes_eq) h1 h2 (Fitting.congr (padSeq_int_shape _ rfl).symm hc.poolOps.fitting)

/-- the shape of the padded image, for all modes -/
theorem PoolIs.padWord_shape (h : PoolIs pool g m) (hx : X.shape = x.shape) (hc : SameCall g gp x ax axes) (hm : g.isMany = true → axes.length = m) (hp : Holds p gp)
    (hmode : ∀ i < axes.length, forIntegers (gp.mode.entry .unknown i) = true) (junk : List Nat → t.Word) :
    ∃ Y, SepPool.padWord t pool (some p) junk X (.seq (castV axes)) = (some ((gp.withWidths (g.widths x.shape axes)).padder axes.length), .ok Y) ∧
      Y.shape = (padSeq x (sameOps g gp x.shape axes)).shape := by
  have hrel : x.Rel (fun (_ : α) (_ : t.Word) => True) X := ⟨hx.symm, fun _ => trivial⟩
  obtain ⟨Y, h1, h2⟩ := forwardInt_core hc.padCall (fun s hs => by
    obtain ⟨i, hi, rfl⟩ := sameOps_settings hs
    exact hmode i hi) hrel (fun _ _ _ => trivial) (fun q i s hs hr y y' hy idx axis => rel_runModeInt_shape q i (by
      obtain ⟨j, hj, rfl⟩ := sameOps_settings hs
      rcases intAxis_mode (sameSetting g gp x.shape axes j) with h1 | ⟨_, h1⟩
      · rw [← h1]; exact hmode j hj
      · rw [h1]; rfl) hy idx axis) junk
  rw [sameOps_zipRight] at h2
  exact ⟨Y, by rw [h.padWord_req hx hc.toSameReq hm hp junk, h1], by rw [← h2.shape, padSeq_int_shape _ rfl]⟩

theorem poolSeq_small : ∀ {ops : List (PoolOp α)}, (∃ o ∈ ops, o.kernel ≠ [] ∧ ∀ a ∈ o.kernel, |a| < 1) → ∀ (y : Tensor α) n,
    (poolSeq y (ops.map truncOp)).data.getD n 0 = 0
  | [], h, _, _ => by
    obtain ⟨o, ho, _⟩ := h
    simp at ho
  | o :: ops, ⟨o', ho', hk, ha⟩, y, n => by
    rcases List.mem_cons.1 ho' with rfl | ho'
    · exact poolSeq_zero_data (ops.map truncOp) (slide_small hk ha y) n
    · exact poolSeq_small ⟨o', ho', hk, ha⟩ (slide y (truncOp o)) n

theorem poolSeq_trunc_shape : ∀ (ops : List (PoolOp α)) {x y : Tensor α}, x.shape = y.shape → (poolSeq x (ops.map truncOp)).shape = (poolSeq y ops).shape
  | [], _, _, h => h
  | o :: ops, x, y, h => by
    refine poolSeq_trunc_shape ops (x := slide x (truncOp o)) (y := slide y o) ?_
    rw [slide_shape, slide_shape, h]
    simp [truncOp]

end

end TI
