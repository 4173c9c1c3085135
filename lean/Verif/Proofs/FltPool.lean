import Verif.Proofs.Flt

/-!
# Pooling of images with entries that are not finite
-/

set_option linter.unusedSectionVars false

namespace TI
open Tensor Spec

section
variable {α : Type} [Field α] [LinearOrder α] [IsStrictOrderedRing α] {R : α → Flt α → Prop} {φ : α → α}
variable {pool : SepPool α} {g : PoolArgs α} {m : Nat} {gp : PadArgs α} {p : Padder α} {x : Tensor α} {X : Tensor (Flt α)} {ax : Axes} {axes : List Nat}

/-- the windows of `o` with weights changed by `φ` -/
def mapOp (φ : α → α) (o : PoolOp α) : PoolOp α := { o with kernel := o.kernel.map φ }

theorem mapOp_id (o : PoolOp α) : mapOp id o = o := by simp [mapOp]

theorem mapOps_id (ops : List (PoolOp α)) : ops.map (mapOp id) = ops := by
  rw [show mapOp (α := α) id = id from funext mapOp_id, List.map_id]

theorem fitting_mapOp : ∀ {ops : List (PoolOp α)} {x y : Tensor α}, x.shape = y.shape → (Fitting x (ops.map (mapOp φ)) ↔ Fitting y ops)
  | [], _, _, _ => Iff.rfl
  | o :: ops, x, y, h => by
    have hs : (slide x (mapOp φ o)).shape = (slide y o).shape := by
      rw [slide_shape, slide_shape, h]
      simp [mapOp]
    rw [List.map_cons, Fitting, Fitting, fitting_mapOp hs, ndim, ndim, h]
    simp [mapOp]

/-- scalar products keep the relation, if the weights on the left are changed by `φ` -/
structure DotRel (φ : α → α) (R : α → Flt α → Prop) : Prop where
  zero : R 0 0
  dot : ∀ (w : List α) (f : Nat → α) (F : Nat → Flt α), (∀ j, R (f j) (F j)) →
    R ((List.range w.length).map fun j => f j * (w.map φ).getD j 0).sum ((List.range w.length).map fun j => F j * (w.map Flt.num).getD j 0).sum

theorem RingRel.dotRel (hR : RingRel R) (hn : ∀ a, R a (.num a)) : DotRel id R :=
  ⟨hR.zero, fun w f F h => rel_sum hR _ fun j _ => hR.mul (h j) (by rw [List.map_id]; exact rel_map_num hR.zero hn w j)⟩

theorem rel_matvecFlt (hR : DotRel φ R) {x : Tensor α} {y : Tensor (Flt α)} (h : x.Rel R y) (w : List α) :
    ExRel (Tensor.Rel R) (x.matvec (w.map φ)) (y.matvec (w.map Flt.num)) := by
  unfold Tensor.matvec
  rw [h.shape, List.length_map, List.length_map]
  refine .ite Iff.rfl (fun _ => ?_) fun _ => .error _
  exact .ok (rel_ofFn hR.zero rfl fun ix _ => hR.dot w _ _ fun j => h.get _)

theorem PoolIs.stepFlt (h : PoolIs pool g m) (hR : DotRel φ R) (hx : x.Rel R X) {i : Nat} (hi : g.isMany = true → i < m) {axes : List Nat}
    (hf : (g.op axes i).kernel ≠ [] → (g.op axes i).axis < x.ndim ∧ 0 < (g.op axes i).stride ∧
      (g.op axes i).kernel.length ≤ x.shape.getD (g.op axes i).axis 0) :
    ∃ Z, SepPool.poolStepFlt pool i ((axes.getD i 0 : Nat) : Int) X = .ok Z ∧ (slide x (mapOp φ (g.op axes i))).Rel R Z := by
  have e1 := h.getSize hi
  have e2 := h.getStride hi axes
  have e3 := h.getKernel hi
  cases hk : pool.kernelSize.get (i : Int) with
  | error e => rw [hk] at e1; simp [Except.bind] at e1
  | ok k =>
  rw [hk] at e1
  simp only [Except.bind] at e1
  simp only [SepPool.poolStepFlt, hk, e1, bind, Except.bind]
  by_cases h0 : g.kernel.entry [] i = []
  · rw [if_pos (by simp [h0])]
    exact ⟨X, rfl, by simpa [slide, mapOp, PoolArgs.op, h0] using hx⟩
  · have hpos : 0 < (g.kernel.entry [] i).length := List.length_pos_iff.2 h0
    rw [if_neg (by omega)]
    obtain ⟨f1, f2, f3⟩ := hf h0
    cases hs : pool.stride.get (i : Int) with
    | error e => rw [hs] at e2; simp [Except.bind] at e2
    | ok s =>
    rw [hs] at e2
    simp only [Except.bind] at e2
    cases hw : pool.kernel.get (i : Int) with
    | error e => rw [hw] at e3; simp [Except.bind] at e3
    | ok w =>
    rw [hw] at e3
    simp only [Except.bind] at e3
    have hsl := unfold_matvec (x := x) (a := (g.op axes i).axis) (s := (g.op axes i).stride) (w := (g.kernel.entry [] i).map φ) f1
      (by simpa using h0) f2 (by rw [List.length_map]; exact f3)
    have hax : convDim X.ndim ((axes.getD i 0 : Nat) : Int) = .ok (g.op axes i).axis := by rw [← hx.ndim]; exact convDim_nat f1
    simp only [e2, hax, e3]
    have hrel : ExRel (Tensor.Rel R)
        ((x.unfold (g.op axes i).axis ((g.kernel.entry [] i).length : Int) ((g.op axes i).stride : Int)) >>= fun y =>
          y.matvec ((g.kernel.entry [] i).map φ))
        ((X.unfold (g.op axes i).axis ((g.kernel.entry [] i).length : Int) ((g.op axes i).stride : Int)) >>= fun y =>
          y.matvec ((g.kernel.entry [] i).map Flt.num)) :=
      .bind (rel_unfold hR.zero hx _ _ _) fun y y' hy => rel_matvecFlt hR hy _
    rw [List.length_map] at hsl
    rw [show ((x.unfold (g.op axes i).axis ((g.kernel.entry [] i).length : Int) ((g.op axes i).stride : Int)) >>= fun y =>
          y.matvec ((g.kernel.entry [] i).map φ)) = _ from hsl] at hrel
    rcases hrel.cases with ⟨e, h1, _⟩ | ⟨z, Z, h1, h2, h3⟩
    · cases h1
    · cases h1
      exact ⟨Z, h2, h3⟩

theorem PoolIs.loopFlt (h : PoolIs pool g m) (hR : DotRel φ R) {axes : List Nat} (hi : g.isMany = true → axes.length ≤ m) :
    ∀ (n i : Nat) (x : Tensor α) (X : Tensor (Flt α)), x.Rel R X → i + n = axes.length →
      Fitting x (((List.range n).map fun j => g.op axes (i + j)).map (mapOp φ)) →
      ∃ Z, SepPool.poolLoopFlt pool i (castV (axes.drop i)) X = .ok Z ∧ (poolSeq x (((List.range n).map fun j => g.op axes (i + j)).map (mapOp φ))).Rel R Z
  | 0, i, x, X, hx, hn, _ => by
    rw [List.drop_eq_nil_of_le (by omega)]
    exact ⟨X, rfl, hx⟩
  | n + 1, i, x, X, hx, hn, hf => by
    have hlt : i < axes.length := by omega
    rw [List.range_succ_eq_map, List.map_cons, List.map_map] at hf ⊢
    have hd : axes.drop i = axes.getD i 0 :: axes.drop (i + 1) := by
      rw [List.drop_eq_getElem_cons hlt]
      simp [hlt]
    have hfun : (fun j => g.op axes (i + j)) ∘ Nat.succ = fun j => g.op axes (i + 1 + j) := by
      funext j
      simp only [Function.comp, Nat.succ_eq_add_one]
      congr 1
      omega
    rw [hfun] at hf ⊢
    rw [hd, castV, List.map_cons, SepPool.poolLoopFlt]
    simp only [Nat.add_zero, List.map_cons] at hf ⊢
    obtain ⟨Z, z1, z2⟩ := h.stepFlt hR hx (fun hm => by have := hi hm; omega) (axes := axes) (i := i) (by
      have := hf.1
      simpa [mapOp] using this)
    rw [z1]
    exact PoolIs.loopFlt h hR hi n (i + 1) _ Z z2 (by omega) hf.2

theorem PoolIs.loopFlt_all (h : PoolIs pool g m) (hR : DotRel φ R) (hx : x.Rel R X) (hi : g.isMany = true → axes.length ≤ m)
    (hf : Fitting x (g.ops axes)) : ∃ Z, SepPool.poolLoopFlt pool 0 (castV axes) X = .ok Z ∧ (poolSeq x ((g.ops axes).map (mapOp φ))).Rel R Z := by
  have := h.loopFlt hR hi axes.length 0 x X hx (by omega) (by rw [fitting_mapOp rfl]; simpa [PoolArgs.ops] using hf)
  simpa [PoolArgs.ops] using this

/-- the call of `forward`, once the padding has succeeded -/
theorem PoolIs.forwardFlt_padded (h : PoolIs pool g m) (hm : g.isMany = true → axes.length = m) (hax : axesOf X.ndim ax = some axes)
    {padder q : Option (Padder α)} {junk : List Nat → Flt α} {Y : Tensor (Flt α)}
    (hY : SepPool.padFlt pool padder junk X (.seq (castV axes)) = (q, .ok Y)) :
    SepPool.forwardFlt pool padder junk X ax = (q, SepPool.poolLoopFlt pool 0 (castV axes) Y) := by
  obtain ⟨hca, _⟩ := checkAxes_spec hax
  have hnd : pool.ndim = 0 ∨ pool.ndim = ((castV axes).length : Int) := by
    rw [h.ndim]
    split_ifs with hh
    · right; simp [castV, hm hh]
    · left; rfl
  simp only [SepPool.forwardFlt, hca, if_pos hnd, hY]

/-- `pad` pads with the widths set by `to_same` -/
theorem PoolIs.padFlt_req (h : PoolIs pool g m) (hs : X.shape = x.shape) (hc : SameReq g gp x ax axes) (hm : g.isMany = true → axes.length = m) (hp : Holds p gp)
    (junk : List Nat → Flt α) :
    SepPool.padFlt pool (some p) junk X (.seq (castV axes)) =
      (some ((gp.withWidths (g.widths x.shape axes)).padder axes.length), ((gp.withWidths (g.widths x.shape axes)).padder axes.length).forwardFlt junk X (.seq (castV axes))) := by
  obtain ⟨_, hlt⟩ := checkAxes_spec hc.axes_eq
  have hpos : 0 < axes.length := List.length_pos_iff.2 hc.ne
  have hn : X.ndim = x.ndim := by rw [Tensor.ndim, Tensor.ndim, hs]
  simp only [SepPool.padFlt, hn, hs, checkAxes_castV hlt, sequence_sizes hlt]
  obtain ⟨ns, e1, h1⟩ := ofItem_sizes (l := axes.map fun a => x.shape.getD a 0) (by simpa using hc.ne)
  simp only [e1]
  have hfit : g.Fits axes.length := by
    cases hh : g.isMany with
    | true => exact hc.fits hh
    | false => exact fits_of_not_many hh _
  obtain ⟨gs, q1, q2, q3, q4⟩ := h.stride
  have q2' : gs.Fits axes.length := by
    cases gs with
    | one b => trivial
    | many l => rw [hm (q3 rfl)]; exact q2
  have hts := toSame_padder (m := axes.length) (gs := gs) hpos hp hc.rest h.size q1 h1 (given_fits_map _ hfit.1) q2'
    (by simp [Given.Fits]) rfl (fun i => (g.op axes i).kernel.length) (fun i => (g.op axes i).stride)
    (fun i => x.shape.getD (axes.getD i 0) 0)
    (by
      intro i hi
      cases hk : g.kernel with
      | one k => simp [Given.map, Given.entry, PoolArgs.op, hk]
      | many l =>
        have hl : l.length = axes.length := by have := hfit.1; rw [hk] at this; exact this
        have hi' : i < l.length := by omega
        simp [Given.map, Given.entry, PoolArgs.op, hk, hi'])
    (by
      intro i hi
      exact q4 i (fun hh => by rw [← hm hh]; exact hi) axes)
    (by
      intro i hi
      simp [Given.entry, hi])
    hc.stride
  rw [hts]
  simp only
  rfl

/-- counts of entries that are not finite -/
def CountRel (a : α) (b : Flt α) : Prop := 0 ≤ a ∧ (a = 0 ↔ IsFinite b)

theorem sum_nonneg_eq_zero : ∀ (l : List Nat) (f : Nat → α), (∀ j, 0 ≤ f j) → 0 ≤ (l.map f).sum ∧ ((l.map f).sum = 0 ↔ ∀ j ∈ l, f j = 0)
  | [], _, _ => by simp
  | a :: l, f, h => by
    obtain ⟨h1, h2⟩ := sum_nonneg_eq_zero l f h
    have ha := h a
    simp only [List.map_cons, List.sum_cons, List.mem_cons, forall_eq_or_imp]
    refine ⟨by linarith, fun hs => ?_, fun ⟨e1, e2⟩ => by rw [e1, h2.2 e2, add_zero]⟩
    exact ⟨by linarith, h2.1 (by linarith)⟩

theorem countRel_dot : DotRel (fun _ => (1 : α)) (CountRel (α := α)) := by
  refine ⟨⟨le_rfl, iff_of_true rfl ⟨0, rfl⟩⟩, fun w f F h => ?_⟩
  have hterm : ∀ j ∈ List.range w.length, f j * (w.map fun _ => (1 : α)).getD j 0 = f j := by
    intro j hj
    have hj := List.mem_range.1 hj
    simp [hj]
  rw [List.map_congr_left hterm]
  obtain ⟨h1, h2⟩ := sum_nonneg_eq_zero (List.range w.length) f fun j => (h j).1
  refine ⟨h1, ?_⟩
  rw [h2, Flt.finite_sum]
  constructor
  · intro hz b hb
    rw [List.mem_map] at hb
    obtain ⟨j, hj, rfl⟩ := hb
    refine Flt.finite_mul.2 ⟨(h j).2.1 (hz j hj), ?_⟩
    have hj := List.mem_range.1 hj
    simpa [hj] using Flt.finite_num (w[j])
  · intro hb j hj
    exact (h j).2.2 (Flt.finite_mul.1 (hb _ (List.mem_map.2 ⟨j, hj, rfl⟩))).1

theorem countRel_spoiled (X : Tensor (Flt α)) : (X.map spoiled).Rel CountRel X := by
  have h : ∀ b : Flt α, CountRel (spoiled b) b := by
    intro b
    cases b with
    | num a => exact ⟨le_rfl, iff_of_true rfl ⟨a, rfl⟩⟩
    | inf s => exact ⟨zero_le_one, iff_of_false one_ne_zero fun ⟨_, h⟩ => by cases h⟩
    | nan => exact ⟨zero_le_one, iff_of_false one_ne_zero fun ⟨_, h⟩ => by cases h⟩
  refine ⟨rfl, fun n => ?_⟩
  simp only [Tensor.map, List.getD_eq_getElem?_getD, List.getElem?_map]
  cases X.data[n]? with
  | none => exact h (.num 0)
  | some b => exact h b

end

end TI
