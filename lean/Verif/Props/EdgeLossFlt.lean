import Verif.Proofs.EdgeLossFlt

/-!
# Losses on the edges of images with entries that are not finite: C150
-/

set_option linter.unusedSectionVars false

namespace TI
open Tensor Spec

section
variable {α : Type} [Field α] [LinearOrder α] [IsStrictOrderedRing α] [FloorRing α]
variable {f : EdgeFilter α} {w : List α} {g : Given (List α)} {m n c h v : Nat} {ps : EdgePadders α} {X P T : Tensor (Flt α)}

/-- **C150**: no entry is NaN or infinite -/
def Spec.AllFinite (X : Tensor (Flt α)) : Prop := ∀ ix, InB X.shape ix → IsFinite (X.get ix)

theorem allFinite_iff : AllFinite X ↔ ∃ x : Tensor α, X = x.map .num := by
  refine ⟨finite_map, ?_⟩
  rintro ⟨x, rfl⟩ ix hix
  rw [get_map _ _ (by exact hix)]
  exact ⟨_, rfl⟩

theorem cat_flts {a b : Tensor (Flt α)} (ha : a.shape = [n, c, h, v]) (hb : b.shape = [n, c, h, v]) :
    Tensor.cat [a, b] 1 = .ok (ofFn [n, c + c, h, v] fun ix => if ix.getD 1 0 < c then a.get ix else b.get (ix.set 1 (ix.getD 1 0 - c))) := by
  have hd : convDim a.ndim 1 = .ok 1 := by
    rw [convDim, ndim, ha]
    rfl
  simp only [Tensor.cat, hd, ok_bind, ha, hb, List.all_cons, List.all_nil, decide_true, Bool.and_true, if_true, List.foldl_cons, List.foldl_nil, cat2]
  rfl

theorem edgeTensorFlt_eq (hb : EdgeBuilt f w g m) (hps : HoldsBoth ps reflectArgs) (hg : g.isMany = false) (hX : X.shape = [n, c, h, v]) (hh : 0 < h) (hv : 0 < v)
    (junk : List Nat → Flt α) :
    ∃ ps' E, EdgeLoss.edgeTensorFlt f ps junk X = (ps', .ok E) ∧ E.shape = [n, c + c, h, v] ∧ HoldsBoth ps' reflectArgs ∧ (AllFinite E → AllFinite X) ∧
      ∀ x : Tensor α, X = x.map .num → E = (ofFn [n, c + c, h, v] (stacked (edges (usedKernel w) g x) c)).map .num := by
  obtain ⟨p1, A, a1, a2, a3, a4⟩ := componentFlt_kept (a := 2) hb.edgeIs hps hg hX hh hv (by simp) junk
  obtain ⟨p2, B, b1, b2, b3, b4⟩ := componentFlt_kept (a := 3) hb.edgeIs a3 hg hX hh hv (by simp) junk
  have hax : checkAxes X.ndim (.seq [2, 3]) = .ok [2, 3] := by rw [Tensor.ndim, hX]; rfl
  have a1' : f.componentFlt ps junk X (.int 2) (.seq [2, 3]) = (p1, .ok A) := a1
  have b1' : f.componentFlt p1 junk X (.int 3) (.seq [2, 3]) = (p2, .ok B) := b1
  refine ⟨p2, ofFn [n, c + c, h, v] fun ix => if ix.getD 1 0 < c then A.get ix else B.get (ix.set 1 (ix.getD 1 0 - c)), ?_, rfl, b3, ?_, ?_⟩
  · simp only [EdgeLoss.edgeTensorFlt, EdgeFilter.allComponentsFlt, hax, EdgeFilter.componentLoopFlt, a1', b1']
    rw [← cat_flts (a2.trans hX) (b2.trans hX)]
    rfl
  · intro hall
    apply a4
    intro ix hix
    rw [hX] at hix
    match ix, hix with
    | [i, j, k, l], ⟨h1, h2, h3, h4, _⟩ =>
      have hin : InB [n, c + c, h, v] [i, j, k, l] := ⟨h1, by omega, h3, h4, trivial⟩
      have := hall _ hin
      rw [get_ofFn hin, if_pos (by simpa using h2)] at this
      exact this
  · rintro x rfl
    have hx : x.shape = [n, c, h, v] := hX
    obtain ⟨q1, e1, k1⟩ := componentFlt_num (a := 2) hb.edgeIs hps hg hx hh hv (by simp) junk
    rw [a1] at e1
    cases e1
    obtain ⟨q2, e2, k2⟩ := componentFlt_num (a := 3) hb.edgeIs k1 hg hx hh hv (by simp) junk
    rw [b1] at e2
    cases e2
    have hs : ∀ a ∈ [2, 3], (edges (usedKernel w) g x a).shape = [n, c, h, v] := fun a ha => ((reflect_setup hg hx hh hv).response_shape _ ha).trans hx
    rw [map_ofFn]
    refine ofFn_congr fun ix hix => ?_
    match ix, hix with
    | [i, j, k, l], ⟨h1, h2, h3, h4, _⟩ =>
      simp only [stacked]
      split_ifs with hj
      · exact get_map _ _ (by rw [hs 2 (by simp)]; exact ⟨h1, hj, h3, h4, trivial⟩)
      · refine get_map _ _ ?_
        rw [hs 3 (by simp)]
        refine ⟨h1, ?_, h3, h4, trivial⟩
        have : ¬ j < c := hj
        show j - c < c
        omega

theorem withEdgesFlt_eq {β : Type} (loss : Tensor (Flt α) → Tensor (Flt α) → Except Err β) (hb : EdgeBuilt f w g m) (hps : HoldsBoth ps reflectArgs) (hg : g.isMany = false)
    (hP : P.shape = [n, c, h, v]) (hT : T.shape = [n, c, h, v]) (hh : 0 < h) (hv : 0 < v) (junk : List Nat → Flt α) :
    ∃ ps' EP ET, EdgeLoss.withEdgesFlt loss f ps junk P T = (ps', loss EP ET) ∧ HoldsBoth ps' reflectArgs ∧ EP.shape = [n, c + c, h, v] ∧ ET.shape = [n, c + c, h, v] ∧
      (AllFinite EP → AllFinite P) ∧ (AllFinite ET → AllFinite T) ∧
      (∀ p : Tensor α, P = p.map .num → EP = (ofFn [n, c + c, h, v] (stacked (edges (usedKernel w) g p) c)).map .num) ∧
      ∀ t : Tensor α, T = t.map .num → ET = (ofFn [n, c + c, h, v] (stacked (edges (usedKernel w) g t) c)).map .num := by
  obtain ⟨p1, EP, e1, s1, k1, f1, v1⟩ := edgeTensorFlt_eq hb hps hg hP hh hv junk
  obtain ⟨p2, ET, e2, s2, k2, f2, v2⟩ := edgeTensorFlt_eq hb k1 hg hT hh hv junk
  exact ⟨p2, EP, ET, by simp only [EdgeLoss.withEdgesFlt, e1, e2], k2, s1, s2, f1, f2, v1, v2⟩

/-- **C150**: the mean of floats: NaN for none -/
def Spec.meanFlt (l : List (Flt α)) : Flt α := if l = [] then .nan else l.sum * .num (1 / (l.length : α))

theorem finite_meanFlt {l : List (Flt α)} : IsFinite (meanFlt l) ↔ l ≠ [] ∧ ∀ b ∈ l, IsFinite b := by
  rw [meanFlt]
  split_ifs with hl
  · exact iff_of_false (fun ⟨_, h⟩ => by cases h) fun h => h.1 hl
  · rw [Flt.finite_mul, Flt.finite_sum]
    exact ⟨fun h => ⟨hl, h.1⟩, fun h => ⟨h.2, Flt.finite_num _⟩⟩

theorem sum_num : ∀ l : List α, (l.map Flt.num).sum = Flt.num l.sum
  | [] => rfl
  | a :: l => by rw [List.map_cons, List.sum_cons, sum_num l, List.sum_cons]; rfl

theorem meanFlt_num {l : List α} (hl : l ≠ []) : meanFlt (l.map Flt.num) = .num (Spec.mean l) := by
  rw [meanFlt, if_neg (by simpa using hl), sum_num, List.length_map, Spec.mean, div_eq_mul_one_div l.sum]
  rfl

theorem meanAllFlt (S : List Nat) (u : List Nat → Flt α) :
    meanDimsFlt (ofFn S u) [] false = .ok (Tensor.scalar (meanFlt ((indices S).map u))) := by
  have h3 := reduce_dropFlt (fun l : List (Flt α) => if l = [] then .nan else l.sum * .num (1 / (l.length : α))) (S := S) (axes := []) u (by simp) List.nodup_nil
  rw [meanDimsFlt]
  refine h3.trans ?_
  have hr : reducedAxes S.length [] = List.range S.length := by simp [reducedAxes]
  rw [hr, onKept_all]
  congr 1
  simp only [ofFn, indices, collected_all, Tensor.scalar, meanFlt, List.map_cons, List.map_nil]

theorem mean23Flt (n c h w : Nat) (u : List Nat → Flt α) :
    meanDimsFlt (ofFn [n, c, h, w] u) [2, 3] false = .ok (ofFn [n, c] fun jx => meanFlt ((collected [n, c, h, w] [2, 3] jx).map u)) := by
  have h3 := reduce_dropFlt (fun l : List (Flt α) => if l = [] then .nan else l.sum * .num (1 / (l.length : α))) (S := [n, c, h, w]) (axes := [2, 3]) u
    (by simp) (by decide)
  rw [meanDimsFlt]
  exact Eq.trans (by rfl) (h3.trans rfl)

theorem finite_abs {b : Flt α} : IsFinite b.abs ↔ IsFinite b := by
  cases b with
  | num v => exact iff_of_true ⟨_, rfl⟩ ⟨_, rfl⟩
  | inf s => exact iff_of_false (fun ⟨_, h⟩ => by cases h) fun ⟨_, h⟩ => by cases h
  | nan => exact iff_of_false (fun ⟨_, h⟩ => by cases h) fun ⟨_, h⟩ => by cases h

theorem indices_stack (hh : 0 < h) (hv : 0 < v) : indices [n, c + c, h, v] ≠ [] ↔ 0 < n ∧ 0 < c := by
  constructor
  · intro hne
    obtain ⟨ix, hix⟩ := List.exists_mem_of_ne_nil _ hne
    have := mem_indices.1 hix
    match ix, this with
    | [i, j, k, l], ⟨h1, h2, _⟩ => exact ⟨by omega, by omega⟩
  · rintro ⟨hn, hc⟩ he
    have : [0, 0, 0, 0] ∈ indices [n, c + c, h, v] := mem_indices.2 ⟨hn, by omega, hh, hv, trivial⟩
    rw [he] at this
    cases this

theorem all_stacked (ok : α → Prop) (E : Nat → Tensor α) : (∀ ix, InB [n, c + c, h, v] ix → ok (stacked E c ix)) ↔
    ∀ a ∈ [2, 3], ∀ ix, InB [n, c, h, v] ix → ok ((E a).get ix) := by
  have hp : ((indices [n, c + c, h, v]).map (stacked E c)).Perm ((indices [n, c, h, v]).map (E 2).get ++ (indices [n, c, h, v]).map (E 3).get) :=
    map_cat (S := [n, c, h, v]) (d := 1) (by simp) (E 2).get (E 3).get
  constructor
  · intro hall a ha ix hix
    have : (E a).get ix ∈ (indices [n, c + c, h, v]).map (stacked E c) := by
      rw [hp.mem_iff, List.mem_append]
      simp only [List.mem_cons, List.not_mem_nil, or_false] at ha
      rcases ha with rfl | rfl
      · exact Or.inl (List.mem_map.2 ⟨ix, mem_indices.2 hix, rfl⟩)
      · exact Or.inr (List.mem_map.2 ⟨ix, mem_indices.2 hix, rfl⟩)
    obtain ⟨jx, hj, e⟩ := List.mem_map.1 this
    rw [← e]
    exact hall jx (mem_indices.1 hj)
  · intro hall ix hix
    have : stacked E c ix ∈ (indices [n, c + c, h, v]).map (stacked E c) := List.mem_map.2 ⟨ix, mem_indices.2 hix, rfl⟩
    rw [hp.mem_iff, List.mem_append] at this
    rcases this with hm | hm <;> obtain ⟨jx, hj, e⟩ := List.mem_map.1 hm <;> rw [← e]
    · exact hall 2 (by simp) jx (mem_indices.1 hj)
    · exact hall 3 (by simp) jx (mem_indices.1 hj)

/-- losses that are the mean of a function of the two entries at every position -/
theorem pointwiseFlt {loss : Tensor (Flt α) → Tensor (Flt α) → Except Err (Tensor (Flt α))} {F : Flt α → Flt α → Flt α} {F' : α → α → α} {ok : α → Prop}
    (hl : ∀ {P T : Tensor (Flt α)}, P.shape = T.shape → loss P T = .ok (.scalar (meanFlt ((indices P.shape).map fun ix => F (P.get ix) (T.get ix)))))
    (hF : ∀ a b, IsFinite (F a b) ↔ IsFinite a ∧ ∃ t, b = .num t ∧ ok t) (hF' : ∀ a b, ok b → F (.num a) (.num b) = .num (F' a b))
    (hb : EdgeBuilt f w g m) (hps : HoldsBoth ps reflectArgs) (hg : g.isMany = false)
    (hP : P.shape = [n, c, h, v]) (hT : T.shape = [n, c, h, v]) (hh : 0 < h) (hv : 0 < v) (junk : List Nat → Flt α) :
    ∃ ps' b, EdgeLoss.withEdgesFlt loss f ps junk P T = (ps', .ok (.scalar b)) ∧ HoldsBoth ps' reflectArgs ∧
      (IsFinite b ↔ 0 < n ∧ 0 < c ∧ AllFinite P ∧ ∃ t : Tensor α, T = t.map .num ∧ ∀ a ∈ [2, 3], ∀ ix, InB [n, c, h, v] ix → ok ((edges (usedKernel w) g t a).get ix)) ∧
      ∀ p t : Tensor α, P = p.map .num → T = t.map .num → IsFinite b →
        b = .num (overBoth [n, c, h, v] fun a ix => F' ((edges (usedKernel w) g p a).get ix) ((edges (usedKernel w) g t a).get ix)) := by
  obtain ⟨ps', EP, ET, e, hq, s1, s2, f1, f2, v1, v2⟩ := withEdgesFlt_eq loss hb hps hg hP hT hh hv junk
  have hfin : IsFinite (meanFlt ((indices EP.shape).map fun ix => F (EP.get ix) (ET.get ix))) ↔ indices [n, c + c, h, v] ≠ [] ∧
      ∀ ix, InB [n, c + c, h, v] ix → IsFinite (EP.get ix) ∧ ∃ t, ET.get ix = .num t ∧ ok t := by
    rw [finite_meanFlt, s1]
    simp only [ne_eq, List.map_eq_nil_iff, List.mem_map, mem_indices, forall_exists_index, and_imp, forall_apply_eq_imp_iff₂, hF]
  refine ⟨ps', _, e.trans (congrArg _ (hl (s1.trans s2.symm))), hq, ?_, ?_⟩
  · rw [hfin, indices_stack hh hv, and_assoc]
    refine and_congr_right fun _ => and_congr_right fun _ => ?_
    constructor
    · intro hall
      have hPf : AllFinite P := f1 fun ix hix => (hall ix (s1 ▸ hix)).1
      have hTf : AllFinite T := f2 fun ix hix => by
        obtain ⟨t, ht, _⟩ := (hall ix (s2 ▸ hix)).2
        exact ⟨t, ht⟩
      obtain ⟨t, rfl⟩ := allFinite_iff.1 hTf
      refine ⟨hPf, t, rfl, (all_stacked ok _).1 fun ix hix => ?_⟩
      obtain ⟨t', ht, hok⟩ := (hall ix hix).2
      rw [v2 t rfl, get_map _ _ (by exact hix), get_ofFn hix] at ht
      cases ht
      exact hok
    · rintro ⟨hPf, t, rfl, hok⟩ ix hix
      obtain ⟨p, rfl⟩ := allFinite_iff.1 hPf
      rw [v1 p rfl, v2 t rfl, get_map _ _ (by exact hix), get_map _ _ (by exact hix), get_ofFn hix, get_ofFn hix]
      exact ⟨⟨_, rfl⟩, _, rfl, (all_stacked ok _).2 hok ix hix⟩
  · rintro p t rfl rfl hb
    obtain ⟨hne, hall⟩ := hfin.1 hb
    rw [← mean_stacked, ← meanFlt_num (by simpa using hne), List.map_map, s1]
    congr 1
    apply List.map_congr_left
    intro ix hix
    have hix := mem_indices.1 hix
    obtain ⟨_, t', ht, hok⟩ := hall ix hix
    rw [v2 t rfl, get_map _ _ (by exact hix), get_ofFn hix] at ht
    cases ht
    rw [v1 p rfl, v2 t rfl, get_map _ _ (by exact hix), get_map _ _ (by exact hix), get_ofFn hix, get_ofFn hix, hF' _ _ hok]
    rfl

theorem l1Flt_eq (h : P.shape = T.shape) : EdgeLoss.l1Flt P T = .ok (.scalar (meanFlt ((indices P.shape).map fun ix => (P.get ix - T.get ix).abs))) := by
  rw [EdgeLoss.l1Flt, bop_same h, ok_bind, map_ofFn, meanAllFlt]

theorem mulLossFlt_eq (h : P.shape = T.shape) : EdgeLoss.mulLossFlt P T = .ok (.scalar (meanFlt ((indices P.shape).map fun ix => (T.get ix - P.get ix).abs * T.get ix))) := by
  rw [EdgeLoss.mulLossFlt, bop_same h.symm, ok_bind, map_ofFn, bop_same (by simp), ok_bind, meanAllFlt, shape_ofFn, h]
  congr 3
  exact List.map_congr_left fun ix hix => by rw [get_ofFn (mem_indices.1 hix)]

theorem divLossFlt_eq (h : P.shape = T.shape) : EdgeLoss.divLossFlt P T = .ok (.scalar (meanFlt ((indices P.shape).map fun ix => (T.get ix - P.get ix).abs / T.get ix))) := by
  rw [EdgeLoss.divLossFlt, bop_same h.symm, ok_bind, map_ofFn, bop_same (by simp), ok_bind, meanAllFlt, shape_ofFn, h]
  congr 3
  exact List.map_congr_left fun ix hix => by rw [get_ofFn (mem_indices.1 hix)]

theorem sub_num (a b : α) : (.num a - .num b : Flt α) = .num (a - b) := congrArg Flt.num (sub_eq_add_neg a b).symm

theorem finite_quotient {a b : Flt α} : IsFinite ((b - a).abs / b) ↔ IsFinite a ∧ ∃ t, b = .num t ∧ t ≠ 0 := by
  cases b with
  | nan =>
    refine iff_of_false ?_ fun ⟨_, _, h, _⟩ => by cases h
    cases a <;> exact fun ⟨_, h⟩ => by cases h
  | inf s =>
    refine iff_of_false ?_ fun ⟨_, _, h, _⟩ => by cases h
    cases a with
    | num x => exact fun ⟨_, h⟩ => by cases h
    | nan => exact fun ⟨_, h⟩ => by cases h
    | inf r => cases s <;> cases r <;> exact fun ⟨_, h⟩ => by cases h
  | num t =>
    cases a with
    | nan => exact iff_of_false (fun ⟨_, h⟩ => by cases h) fun ⟨⟨_, h⟩, _⟩ => by cases h
    | inf r => exact iff_of_false (fun ⟨_, h⟩ => by cases h) fun ⟨⟨_, h⟩, _⟩ => by cases h
    | num x =>
      rw [sub_num, Flt.abs, quotient_eq, quotient]
      by_cases ht : t = 0
      · rw [if_neg (not_not.2 ht)]
        refine iff_of_false ?_ fun ⟨_, _, h, h'⟩ => by cases h; exact h' ht
        split_ifs <;> exact fun ⟨_, h⟩ => by cases h
      · rw [if_pos ht]
        exact iff_of_true ⟨_, rfl⟩ ⟨⟨_, rfl⟩, t, rfl, ht⟩

/-- **C150.** `GaussianEdgeLoss` of images with entries that may be infinite or NaN: a number exactly if there are pixels and all pixels of both images are finite, with any history
of the padders; then it is the loss of C85. -/
theorem C150_edge_loss (hb : EdgeBuilt f w g m) (hps : HoldsBoth ps reflectArgs) (hg : g.isMany = false) (hP : P.shape = [n, c, h, v]) (hT : T.shape = [n, c, h, v])
    (hh : 0 < h) (hv : 0 < v) (junk : List Nat → Flt α) :
    ∃ ps' b, EdgeLoss.withEdgesFlt EdgeLoss.l1Flt f ps junk P T = (ps', .ok (.scalar b)) ∧ HoldsBoth ps' reflectArgs ∧
      (IsFinite b ↔ 0 < n ∧ 0 < c ∧ AllFinite P ∧ AllFinite T) ∧
      ∀ p t : Tensor α, P = p.map .num → T = t.map .num → IsFinite b →
        b = .num (overBoth [n, c, h, v] fun a ix => |(edges (usedKernel w) g p a).get ix - (edges (usedKernel w) g t a).get ix|) := by
  obtain ⟨ps', b, e, hq, h1, h2⟩ := pointwiseFlt (F := fun a b => (a - b).abs) (F' := fun a b => |a - b|) (ok := fun _ => True) l1Flt_eq
    (fun a b => by rw [finite_abs, Flt.finite_sub]; exact and_congr_right fun _ => ⟨fun ⟨t, h⟩ => ⟨t, h, trivial⟩, fun ⟨t, h, _⟩ => ⟨t, h⟩⟩)
    (fun a b _ => by rw [sub_num]; rfl) hb hps hg hP hT hh hv junk
  refine ⟨ps', b, e, hq, h1.trans ?_, h2⟩
  simp only [implies_true, and_true, ← allFinite_iff]

/-- **C150.** `WeightedMul`: the same condition. -/
theorem C150_weighted_mul (hb : EdgeBuilt f w g m) (hps : HoldsBoth ps reflectArgs) (hg : g.isMany = false) (hP : P.shape = [n, c, h, v]) (hT : T.shape = [n, c, h, v])
    (hh : 0 < h) (hv : 0 < v) (junk : List Nat → Flt α) :
    ∃ ps' b, EdgeLoss.withEdgesFlt EdgeLoss.mulLossFlt f ps junk P T = (ps', .ok (.scalar b)) ∧ HoldsBoth ps' reflectArgs ∧
      (IsFinite b ↔ 0 < n ∧ 0 < c ∧ AllFinite P ∧ AllFinite T) ∧
      ∀ p t : Tensor α, P = p.map .num → T = t.map .num → IsFinite b →
        b = .num (overBoth [n, c, h, v] fun a ix => |(edges (usedKernel w) g t a).get ix - (edges (usedKernel w) g p a).get ix| * (edges (usedKernel w) g t a).get ix) := by
  obtain ⟨ps', b, e, hq, h1, h2⟩ := pointwiseFlt (F := fun a b => (b - a).abs * b) (F' := fun a b => |b - a| * b) (ok := fun _ => True) mulLossFlt_eq
    (fun a b => by
      rw [Flt.finite_mul, finite_abs, Flt.finite_sub]
      exact ⟨fun ⟨⟨_, h⟩, t, ht⟩ => ⟨h, t, ht, trivial⟩, fun ⟨h, t, ht, _⟩ => ⟨⟨⟨t, ht⟩, h⟩, t, ht⟩⟩)
    (fun a b _ => by rw [sub_num]; rfl) hb hps hg hP hT hh hv junk
  refine ⟨ps', b, e, hq, h1.trans ?_, h2⟩
  simp only [implies_true, and_true, ← allFinite_iff]

/-- **C150.** `WeightedDiv`: the true edges, moreover, must not be zero. -/
theorem C150_weighted_div (hb : EdgeBuilt f w g m) (hps : HoldsBoth ps reflectArgs) (hg : g.isMany = false) (hP : P.shape = [n, c, h, v]) (hT : T.shape = [n, c, h, v])
    (hh : 0 < h) (hv : 0 < v) (junk : List Nat → Flt α) :
    ∃ ps' b, EdgeLoss.withEdgesFlt EdgeLoss.divLossFlt f ps junk P T = (ps', .ok (.scalar b)) ∧ HoldsBoth ps' reflectArgs ∧
      (IsFinite b ↔ 0 < n ∧ 0 < c ∧ AllFinite P ∧ ∃ t : Tensor α, T = t.map .num ∧ ∀ a ∈ [2, 3], ∀ ix, InB [n, c, h, v] ix → (edges (usedKernel w) g t a).get ix ≠ 0) ∧
      ∀ p t : Tensor α, P = p.map .num → T = t.map .num → IsFinite b →
        b = .num (overBoth [n, c, h, v] fun a ix => |(edges (usedKernel w) g t a).get ix - (edges (usedKernel w) g p a).get ix| / (edges (usedKernel w) g t a).get ix) :=
  pointwiseFlt (F := fun a b => (b - a).abs / b) (F' := fun a b => |b - a| / b) (ok := fun t => t ≠ 0) divLossFlt_eq
    (fun a b => finite_quotient) (fun a b h => by rw [sub_num, Flt.abs, quotient_eq, quotient, if_pos h]) hb hps hg hP hT hh hv junk

theorem finite_plane (hh : 0 < h) (hv : 0 < v) {u : List Nat → Flt α} {N C : Nat} : (∀ jx, InB [N, C] jx → IsFinite (meanFlt ((collected [N, C, h, v] [2, 3] jx).map u))) ↔
    ∀ ix, InB [N, C, h, v] ix → IsFinite (u ix) := by
  constructor
  · intro hall ix hix
    match ix, hix with
    | [i, j, k, l], hix =>
      obtain ⟨h1, h2, h3, h4, _⟩ := id hix
      have := (finite_meanFlt.1 (hall [i, j] ⟨h1, h2, trivial⟩)).2
      exact this _ (List.mem_map.2 ⟨[i, j, k, l], mem_collected.2 ⟨hix, rfl⟩, rfl⟩)
  · intro hall jx hjx
    match jx, hjx with
    | [i, j], ⟨h1, h2, _⟩ =>
      refine finite_meanFlt.2 ⟨?_, ?_⟩
      · have : [i, j, 0, 0] ∈ collected [N, C, h, v] [2, 3] [i, j] := mem_collected.2 ⟨⟨h1, h2, hh, hv, trivial⟩, rfl⟩
        intro he
        rw [List.map_eq_nil_iff] at he
        rw [he] at this
        cases this
      · intro b hb
        obtain ⟨ix, hix, rfl⟩ := List.mem_map.1 hb
        exact hall ix (mem_collected.1 hix).1

theorem sumLossFlt_eq {N C : Nat} (hP : P.shape = [N, C, h, v]) (hT : T.shape = [N, C, h, v]) : EdgeLoss.sumLossFlt P T =
    .ok (.scalar (meanFlt ((indices [N, C]).map fun jx => (meanFlt ((collected [N, C, h, v] [2, 3] jx).map fun ix => (T.get ix).abs) -
      meanFlt ((collected [N, C, h, v] [2, 3] jx).map fun ix => (P.get ix).abs)).abs))) := by
  have e : ∀ {X : Tensor (Flt α)}, X.shape = [N, C, h, v] → X.map Flt.abs = ofFn [N, C, h, v] fun ix => (X.get ix).abs := by
    intro X hX
    conv_lhs => rw [eq_ofFn_get X]
    rw [map_ofFn, hX]
  rw [EdgeLoss.sumLossFlt, e hP, e hT, mean23Flt, ok_bind, mean23Flt, ok_bind, bop_same (by simp), ok_bind, map_ofFn, meanAllFlt]
  congr 3
  exact List.map_congr_left fun ix hix => by rw [get_ofFn (by simpa using mem_indices.1 hix), get_ofFn (by simpa using mem_indices.1 hix)]

/-- **C150.** `WeightedSum`: the same condition. -/
theorem C150_weighted_sum (hb : EdgeBuilt f w g m) (hps : HoldsBoth ps reflectArgs) (hg : g.isMany = false) (hP : P.shape = [n, c, h, v]) (hT : T.shape = [n, c, h, v])
    (hh : 0 < h) (hv : 0 < v) (junk : List Nat → Flt α) :
    ∃ ps' b, EdgeLoss.withEdgesFlt EdgeLoss.sumLossFlt f ps junk P T = (ps', .ok (.scalar b)) ∧ HoldsBoth ps' reflectArgs ∧
      (IsFinite b ↔ 0 < n ∧ 0 < c ∧ AllFinite P ∧ AllFinite T) ∧
      ∀ p t : Tensor α, P = p.map .num → T = t.map .num → IsFinite b →
        b = .num (overBoth [n, c] fun a jx =>
          |planeMean [n, c, h, v] (fun ix => |(edges (usedKernel w) g t a).get ix|) jx - planeMean [n, c, h, v] (fun ix => |(edges (usedKernel w) g p a).get ix|) jx|) := by
  obtain ⟨ps', EP, ET, e, hq, s1, s2, f1, f2, v1, v2⟩ := withEdgesFlt_eq EdgeLoss.sumLossFlt hb hps hg hP hT hh hv junk
  have hne : indices [n, c + c] ≠ [] ↔ 0 < n ∧ 0 < c := by
    constructor
    · intro hne
      obtain ⟨ix, hix⟩ := List.exists_mem_of_ne_nil _ hne
      have := mem_indices.1 hix
      match ix, this with
      | [i, j], ⟨h1, h2, _⟩ => exact ⟨by omega, by omega⟩
    · rintro ⟨hn, hc⟩ he
      have : [0, 0] ∈ indices [n, c + c] := mem_indices.2 ⟨hn, by omega, trivial⟩
      rw [he] at this
      cases this
  have hall : ∀ {E X : Tensor (Flt α)}, E.shape = [n, c + c, h, v] → (AllFinite E → AllFinite X) →
      (∀ x : Tensor α, X = x.map .num → E = (ofFn [n, c + c, h, v] (stacked (edges (usedKernel w) g x) c)).map .num) →
      ((∀ ix, InB [n, c + c, h, v] ix → IsFinite (E.get ix).abs) ↔ AllFinite X) := by
    intro E X hs hk hn
    simp only [finite_abs]
    constructor
    · exact fun ha => hk fun ix hix => ha ix (hs ▸ hix)
    · intro ha ix hix
      obtain ⟨x, rfl⟩ := allFinite_iff.1 ha
      rw [hn x rfl, get_map _ _ (by exact hix)]
      exact ⟨_, rfl⟩
  refine ⟨ps', _, e.trans (congrArg _ (sumLossFlt_eq s1 s2)), hq, ?_, ?_⟩
  · rw [finite_meanFlt, ne_eq, List.map_eq_nil_iff, ← ne_eq, hne, and_assoc]
    refine and_congr_right fun _ => and_congr_right fun _ => ?_
    simp only [List.mem_map, mem_indices, forall_exists_index, and_imp, forall_apply_eq_imp_iff₂, finite_abs, Flt.finite_sub, forall_and]
    rw [finite_plane hh hv, finite_plane hh hv, hall s1 f1 v1, hall s2 f2 v2, and_comm]
  · rintro p t rfl rfl hbf
    have hi : EdgeImages g n c h v p t := ⟨hP, hT, hh, hv, hg⟩
    obtain ⟨_, c1, _⟩ := C85_weighted_sum hb hps hi (fun _ => 0)
    obtain ⟨_, c2, _⟩ := withEdges_eq EdgeLoss.sumLoss hb hps hi (fun _ => 0)
    rw [EdgeLoss.weightedSum, c2] at c1
    have c3 := (Prod.mk.inj c1).2
    rw [EdgeLoss.sumLoss, map_ofFn, map_ofFn, mean23, ok_bind, mean23, ok_bind, bop_same (by simp), ok_bind, map_ofFn, meanAll] at c3
    have c4 := (List.cons.inj (congrArg Tensor.data (Except.ok.inj c3))).1
    rw [← c4, ← meanFlt_num (by
      have := (finite_meanFlt.1 hbf).1
      simpa using this), List.map_map]
    congr 1
    apply List.map_congr_left
    intro jx hjx
    have hjx := mem_indices.1 hjx
    have hcol : ∀ (x : Tensor α) (E : Tensor (Flt α)), E = (ofFn [n, c + c, h, v] (stacked (edges (usedKernel w) g x) c)).map .num →
        meanFlt ((collected [n, c + c, h, v] [2, 3] jx).map fun ix => (E.get ix).abs) =
          .num (planeMean [n, c + c, h, v] (fun ix => |stacked (edges (usedKernel w) g x) c ix|) jx) := by
      rintro x E rfl
      rw [planeMean, ← meanFlt_num, List.map_map]
      · congr 1
        apply List.map_congr_left
        intro ix hix
        have hin := (mem_collected.1 hix).1
        rw [get_map _ _ (by exact hin), get_ofFn hin]
        rfl
      · match jx, hjx with
        | [i, j], ⟨h1, h2, _⟩ =>
          have : [i, j, 0, 0] ∈ collected [n, c + c, h, v] [2, 3] [i, j] := mem_collected.2 ⟨⟨h1, h2, hh, hv, trivial⟩, rfl⟩
          intro he
          rw [List.map_eq_nil_iff] at he
          rw [he] at this
          cases this
    rw [hcol t ET (v2 t rfl), hcol p EP (v1 p rfl), sub_num]
    simp only [Function.comp, shape_ofFn] at *
    rw [get_ofFn hjx, get_ofFn hjx]
    rfl

end

section

/-- **C150** for the constructor: one pixel of either image that is NaN or infinite makes all four losses NaN or infinite. -/
theorem C150_init (ks : Nat) {sigma : ℝ} (hs : sigma ≠ 0) (order : Nat) :
    ∃ f ps, EdgeLoss.init (.leaf ks) (.leaf sigma) order = .ok (f, ps) ∧ ∀ {P T : Tensor (Flt ℝ)} {n c h v : Nat}, P.shape = [n, c, h, v] → T.shape = [n, c, h, v] →
      (∃ ix, InB [n, c, h, v] ix ∧ (¬IsFinite (P.get ix) ∨ ¬IsFinite (T.get ix))) → ∀ junk : List Nat → Flt ℝ,
      ∀ loss ∈ [EdgeLoss.l1Flt, EdgeLoss.mulLossFlt, EdgeLoss.sumLossFlt, EdgeLoss.divLossFlt],
        ∃ b, (EdgeLoss.withEdgesFlt loss f ps junk P T).2 = .ok (.scalar b) ∧ ¬IsFinite b := by
  obtain ⟨f, ps, e, hb, hps, hg⟩ := C85_init ks hs order
  refine ⟨f, ps, e, fun {P T n c h v} hP hT hbad junk loss hl => ?_⟩
  obtain ⟨ix, hix, hbad⟩ := hbad
  have hpos : 0 < h ∧ 0 < v := by
    match ix, hix with
    | [i, j, k, l], ⟨_, _, h3, h4, _⟩ => exact ⟨by omega, by omega⟩
  have hno : ¬(AllFinite P ∧ AllFinite T) := fun ⟨h1, h2⟩ => hbad.elim (fun hn => hn (h1 ix (hP ▸ hix))) fun hn => hn (h2 ix (hT ▸ hix))
  simp only [List.mem_cons, List.not_mem_nil, or_false] at hl
  rcases hl with rfl | rfl | rfl | rfl
  · obtain ⟨ps', b, e, _, h1, _⟩ := C150_edge_loss hb hps hg hP hT hpos.1 hpos.2 junk
    exact ⟨b, by rw [e], fun hf => hno (h1.1 hf).2.2⟩
  · obtain ⟨ps', b, e, _, h1, _⟩ := C150_weighted_mul hb hps hg hP hT hpos.1 hpos.2 junk
    exact ⟨b, by rw [e], fun hf => hno (h1.1 hf).2.2⟩
  · obtain ⟨ps', b, e, _, h1, _⟩ := C150_weighted_sum hb hps hg hP hT hpos.1 hpos.2 junk
    exact ⟨b, by rw [e], fun hf => hno (h1.1 hf).2.2⟩
  · obtain ⟨ps', b, e, _, h1, _⟩ := C150_weighted_div hb hps hg hP hT hpos.1 hpos.2 junk
    refine ⟨b, by rw [e], fun hf => hno ?_⟩
    obtain ⟨_, _, h2, t, h3, _⟩ := h1.1 hf
    exact ⟨h2, allFinite_iff.2 ⟨t, h3⟩⟩

/-- C150: a photograph with one pixel that is not a number, against a black one -/
example : ∃ f ps, EdgeLoss.init (.leaf 5) (.leaf 2) 1 = .ok (f, ps) ∧ ∀ junk : List Nat → Flt ℝ,
    ∃ b, (EdgeLoss.withEdgesFlt EdgeLoss.l1Flt f ps junk (ofFn [1, 3, 48, 64] fun ix => if ix = [0, 2, 17, 5] then .nan else .num 7) (ofFn [1, 3, 48, 64] fun _ => .num 0)).2 =
      .ok (.scalar b) ∧ ¬IsFinite b := by
  obtain ⟨f, ps, e, h⟩ := C150_init 5 (sigma := 2) two_ne_zero 1
  have hin : InB [1, 3, 48, 64] [0, 2, 17, 5] := ⟨by decide, by decide, by decide, by decide, trivial⟩
  refine ⟨f, ps, e, fun junk => h rfl rfl ⟨[0, 2, 17, 5], hin, Or.inl ?_⟩ junk _ (by simp)⟩
  rw [get_ofFn hin, if_pos rfl]
  exact fun ⟨_, h⟩ => by cases h

end

end TI
