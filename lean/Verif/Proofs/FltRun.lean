import Verif.Proofs.FltPool
import Verif.Proofs.IntEdges

/-!
# Calls on images with entries that are not finite, compared with the same calls on images of numbers
-/

set_option linter.unusedSectionVars false

namespace TI
open Tensor Spec

section
variable {α : Type} [Field α] [LinearOrder α] [IsStrictOrderedRing α] {R : α → Flt α → Prop} {junk : List Nat → α} {junk' : List Nat → Flt α} {x : Tensor α} {X : Tensor (Flt α)}

theorem SameSettings.modeAt {p q : Padder α} (h : SameSettings q p) (i : Int) : q.modeAt i = p.modeAt i := by
  unfold Padder.modeAt
  rw [h.mode]

/-- the padding modes of the padder run alike -/
def ModesAlike (R : α → Flt α → Prop) (p : Padder α) : Prop := ∀ q : Padder α, SameSettings q p → ∀ i m, q.modeAt i = .ok m →
  ∀ (y : Tensor α) (y' : Tensor (Flt α)), y.Rel R y' → ∀ idx axis, ExRel (Tensor.Rel R) (q.runMode true i m y idx axis) (q.runModeFlt true i m y' idx axis)

theorem rel_padFlt (h0 : R 0 0) (pool : SepPool α) (padder : Option (Padder α)) (hm : ∀ p, padder = some p → ModesAlike R p) (hj : ∀ ix, R (junk ix) (junk' ix))
    (h : x.Rel R X) (ax : Axes) : (pool.pad padder junk x ax).1 = (pool.padFlt padder junk' X ax).1 ∧
      ExRel (Tensor.Rel R) (pool.pad padder junk x ax).2 (pool.padFlt padder junk' X ax).2 := by
  unfold SepPool.pad SepPool.padFlt
  rw [h.ndim, h.shape]
  cases checkAxes X.ndim ax with
  | error e => exact ⟨rfl, .error e⟩
  | ok axes =>
    cases padder with
    | none => exact ⟨rfl, .ok h⟩
    | some p =>
      simp only
      cases NdSpec.sequence (axes.map fun a => pyIndex X.shape a) with
      | error e => exact ⟨rfl, .error e⟩
      | ok sizes =>
        simp only
        cases NdSpec.ofItem [] (.seq (sizes.map fun (n : Nat) => Py.leaf (some (n : Int)))) with
        | error e => exact ⟨rfl, .error e⟩
        | ok inShape =>
          simp only
          have hs := toSame_settings p pool.kernelSize pool.stride inShape
          generalize p.toSame pool.kernelSize pool.stride inShape = ts at hs ⊢
          obtain ⟨p', r⟩ := ts
          cases r with
          | error e => exact ⟨rfl, .error e⟩
          | ok _ => exact ⟨rfl, rel_forwardFlt h0 p' hj h _ (hm p rfl p' hs)⟩

theorem rel_poolStepFlt (hR : DotRel id R) (pool : SepPool α) (i : Nat) (axis : Int) (h : x.Rel R X) :
    ExRel (Tensor.Rel R) (pool.poolStep i axis x) (pool.poolStepFlt i axis X) := by
  unfold SepPool.poolStep SepPool.poolStepFlt
  rw [h.ndim]
  refine .bind_same _ fun k _ => .bind_same _ fun k _ => ?_
  by_cases hk : k = 0
  · simp only [if_pos hk]
    exact .ok h
  simp only [if_neg hk]
  refine .bind_same _ fun s _ => .bind_same _ fun s _ => .bind_same _ fun a _ => ?_
  refine .bind (rel_unfold hR.zero h a k s) fun y y' hy => .bind_same _ fun w _ => .bind_same _ fun w _ => ?_
  have := rel_matvecFlt hR hy w
  rwa [List.map_id] at this

theorem rel_poolLoopFlt (hR : DotRel id R) (pool : SepPool α) : ∀ (axes : List Int) (i : Nat) {x : Tensor α} {X : Tensor (Flt α)}, x.Rel R X →
    ExRel (Tensor.Rel R) (pool.poolLoop i axes x) (pool.poolLoopFlt i axes X)
  | [], _, _, _, h => .ok h
  | a :: as, i, _, _, h => by
    unfold SepPool.poolLoop SepPool.poolLoopFlt
    exact .bind (rel_poolStepFlt hR pool i a h) fun y y' hy => rel_poolLoopFlt hR pool as (i + 1) hy

theorem rel_poolForwardFlt (hR : DotRel id R) (pool : SepPool α) (padder : Option (Padder α)) (hm : ∀ p, padder = some p → ModesAlike R p)
    (hj : ∀ ix, R (junk ix) (junk' ix)) (h : x.Rel R X) (ax : Axes) : (pool.forward padder junk x ax).1 = (pool.forwardFlt padder junk' X ax).1 ∧
      ExRel (Tensor.Rel R) (pool.forward padder junk x ax).2 (pool.forwardFlt padder junk' X ax).2 := by
  unfold SepPool.forward SepPool.forwardFlt
  rw [h.ndim]
  cases checkAxes X.ndim ax with
  | error e => exact ⟨rfl, .error e⟩
  | ok axes =>
    simp only
    split_ifs
    · obtain ⟨h1, h2⟩ := rel_padFlt hR.zero pool padder hm hj h (.seq axes)
      generalize pool.pad padder junk x (.seq axes) = r at h1 h2 ⊢
      generalize pool.padFlt padder junk' X (.seq axes) = r' at h1 h2 ⊢
      obtain ⟨q, r⟩ := r
      obtain ⟨q', r'⟩ := r'
      cases h1
      cases h2 with
      | error e => exact ⟨rfl, .error e⟩
      | ok hy => exact ⟨rfl, rel_poolLoopFlt hR pool axes 0 hy⟩
    · exact ⟨rfl, .error _⟩

/-- dropping small differences -/
def DropRel (R : α → Flt α → Prop) : Prop := ∀ (c a : α) (b : Flt α), R a b → R (if |a| < c then 0 else a) (if b.absLt c then 0 else b)

theorem rel_unsharpFlt (hR : RingRel R) (hn : ∀ a, R a (.num a)) (hd : DropRel R) (u : UnsharpMask α) (padder : Option (Padder α)) (hm : ∀ p, padder = some p → ModesAlike R p)
    (hj : ∀ ix, R (junk ix) (junk' ix)) (h : x.Rel R X) (ax : Axes) : (u.forward padder junk x ax).1 = (u.forwardFlt padder junk' X ax).1 ∧
      ExRel (Tensor.Rel R) (u.forward padder junk x ax).2 (u.forwardFlt padder junk' X ax).2 := by
  unfold UnsharpMask.forward UnsharpMask.forwardWith UnsharpMask.forwardFlt
  rw [h.ndim]
  cases checkAxes X.ndim ax with
  | error e => exact ⟨rfl, .error e⟩
  | ok axes =>
    simp only
    obtain ⟨h1, h2⟩ := rel_poolForwardFlt (hR.dotRel hn) u.blur padder hm hj h (.seq axes)
    generalize u.blur.forward padder junk x (.seq axes) = r at h1 h2 ⊢
    generalize u.blur.forwardFlt padder junk' X (.seq axes) = r' at h1 h2 ⊢
    obtain ⟨q, r⟩ := r
    obtain ⟨q', r'⟩ := r'
    cases h1
    cases h2 with
    | error e => exact ⟨rfl, .error e⟩
    | ok hy =>
      refine ⟨rfl, .bind (Tensor.Rel.bop hR.zero h hy fun _ _ _ _ h1 h2 => hR.sub h1 h2) fun y y' hy => ?_⟩
      refine Tensor.Rel.bop hR.zero h (Tensor.Rel.map hR.zero (R := R) ?_ fun a b hab => hR.mul (hn _) hab) fun _ _ _ _ h1 h2 => hR.add h1 h2
      unfold UnsharpMask.dropSmall
      split_ifs
      · exact hy.map hR.zero fun a b hab => hd _ a b hab
      · exact hy

theorem rel_reduceDims (h0 : R 0 0) {f : List α → α} {F : List (Flt α) → Flt α} (hf : ∀ l L, List.Forall₂ R l L → R (f l) (F L)) (h : x.Rel R X) (dims : List Int) (k : Bool) :
    ExRel (Tensor.Rel R) (x.reduce f dims k) (X.reduce F dims k) := by
  unfold Tensor.reduce
  rw [h.ndim]
  refine .bind_same _ fun ds _ => .ok (rel_ofFn h0 (by rw [h.shape]) fun jx _ => hf _ _ ?_)
  rw [h.shape, List.forall₂_map_left_iff, List.forall₂_map_right_iff]
  exact List.forall₂_same.2 fun j _ => h.get _

theorem rel_forall_sum (hR : RingRel R) : ∀ {l : List α} {L : List (Flt α)}, List.Forall₂ R l L → R l.sum L.sum
  | _, _, .nil => hR.zero
  | _, _, .cons h t => by rw [List.sum_cons, List.sum_cons]; exact hR.add h (rel_forall_sum hR t)

theorem rel_mseFlt (hR : RingRel R) (hn : ∀ a, R a (.num a)) (hz : R 0 .nan) (r : Reduction) {y : Tensor α} {Y : Tensor (Flt α)} (h : x.Rel R X) (h' : y.Rel R Y) (ax : Axes) :
    ExRel (Tensor.Rel R) (mse r x y ax) (mseFlt r X Y ax) := by
  unfold mse mseFlt
  rw [h.shape, h'.shape, h.ndim]
  refine .ite Iff.rfl (fun _ => .error _) fun _ => .bind_same _ fun axes _ => ?_
  unfold mseFull
  rw [bind_assoc]
  refine .bind (Tensor.Rel.bop hR.zero h h' fun _ _ _ _ h1 h2 => hR.sub h1 h2) fun d d' hd => ?_
  have hsq : (d.map fun v => v ^ 2).Rel R (d'.map fun v => v * v) := hd.map hR.zero fun a b hab => by rw [pow_two]; exact hR.mul hab hab
  cases r with
  | mean =>
    show ExRel (Tensor.Rel R) ((d.map fun v => v ^ 2).reduce (fun l => l.sum / (l.length : α)) axes false) _
    refine rel_reduceDims hR.zero (fun l L hl => ?_) hsq _ _
    cases hl with
    | nil => simpa using hz
    | cons h1 h2 =>
      rw [if_neg (by simp), ← mul_one_div]
      simp only [List.length_cons, h2.length_eq]
      exact hR.mul (rel_forall_sum hR (.cons h1 h2)) (hn _)
  | sum => exact rel_reduceDims hR.zero (fun l L hl => rel_forall_sum hR hl) hsq _ _
  | none => exact .ok hsq
  | unknown => exact .error _

end

section
variable {α : Type} [Field α] [LinearOrder α] [IsStrictOrderedRing α] [FloorRing α] {R : α → Flt α → Prop} {junk : List Nat → α} {junk' : List Nat → Flt α} {x : Tensor α} {X : Tensor (Flt α)}

/-- both padders of an edge filter run alike -/
structure EdgeAlike (R : α → Flt α → Prop) (ps : EdgePadders α) : Prop where
  edge : ∀ p, ps.edge = some p → ModesAlike R p
  smooth : ∀ p, ps.smooth = some p → ModesAlike R p

theorem ModesAlike.congr {p q : Padder α} (h : ModesAlike R p) (hs : SameSettings q p) : ModesAlike R q := fun r hr => h r (hr.trans hs)

theorem EdgeAlike.setEdge {ps : EdgePadders α} (h : EdgeAlike R ps) {q : Option (Padder α)} (hq : ∀ p', q = some p' → ∃ p, ps.edge = some p ∧ SameSettings p' p) :
    EdgeAlike R (ps.setEdge q) := by
  have key : ∀ p', q = some p' → ModesAlike R p' := fun p' e => by
    obtain ⟨p, h1, h2⟩ := hq p' e
    exact (h.edge p h1).congr h2
  cases ps with
  | shared p => exact ⟨key, key⟩
  | separate e s =>
    refine ⟨fun p' e' => ?_, h.smooth⟩
    cases q with
    | none =>
      cases e'
      exact h.edge e rfl
    | some q =>
      cases e'
      exact key q rfl

theorem pad_state (pool : SepPool α) (padder : Option (Padder α)) (junk : List Nat → α) (x : Tensor α) (ax : Axes) :
    ∀ p', (pool.pad padder junk x ax).1 = some p' → ∃ p, padder = some p ∧ SameSettings p' p := by
  intro p' h
  cases padder with
  | none =>
    unfold SepPool.pad at h
    split at h <;> cases h
  | some p =>
    obtain ⟨q, h1, h2⟩ := pad_settings pool p junk x ax
    rw [h1] at h
    cases h
    exact ⟨p, rfl, h2⟩

theorem forward_state (pool : SepPool α) (padder : Option (Padder α)) (junk : List Nat → α) (x : Tensor α) (ax : Axes) :
    ∀ p', (pool.forward padder junk x ax).1 = some p' → ∃ p, padder = some p ∧ SameSettings p' p := by
  intro p' h
  cases padder with
  | none =>
    unfold SepPool.forward at h
    split at h
    · cases h
    · split at h
      · split at h
        · rename_i e
          have := congrArg Prod.fst e
          unfold SepPool.pad at this
          split at this <;> simp_all
        · rename_i e
          have := congrArg Prod.fst e
          unfold SepPool.pad at this
          split at this <;> simp_all
      · cases h
  | some p =>
    obtain ⟨q, h1, h2⟩ := forward_settings pool p junk x ax
    rw [h1] at h
    cases h
    exact ⟨p, rfl, h2⟩

theorem rel_convEdgeFlt (hR : RingRel R) (hn : ∀ a, R a (.num a)) (f : EdgeFilter α) {ps : EdgePadders α} (hm : EdgeAlike R ps) (hj : ∀ ix, R (junk ix) (junk' ix))
    (h : x.Rel R X) (axis : Int) : (f.convEdge ps junk x axis).1 = (f.convEdgeFlt ps junk' X axis).1 ∧ EdgeAlike R (f.convEdge ps junk x axis).1 ∧
      ExRel (Tensor.Rel R) (f.convEdge ps junk x axis).2 (f.convEdgeFlt ps junk' X axis).2 := by
  unfold EdgeFilter.convEdge EdgeFilter.convEdgeFlt
  cases (f.edgeKernel.get 0).bind SepPool.asVec with
  | error e => exact ⟨rfl, hm, .error e⟩
  | ok w =>
    simp only
    obtain ⟨h1, h2⟩ := rel_padFlt hR.zero f.edgePool ps.edge hm.edge hj h (.int axis)
    obtain ⟨h3, h4⟩ := rel_poolForwardFlt (hR.dotRel hn) f.edgePool ps.edge hm.edge hj h (.int axis)
    split_ifs
    · exact ⟨by rw [h1], hm.setEdge (pad_state _ _ _ _ _), .bind h2 fun y y' hy => rel_firstDiff hR hy _⟩
    · exact ⟨by rw [h1], hm.setEdge (pad_state _ _ _ _ _), .bind h2 fun y y' hy => rel_secondDiff hR hy _⟩
    · exact ⟨by rw [h3], hm.setEdge (forward_state _ _ _ _ _), h4⟩

theorem rel_componentFlt (hR : RingRel R) (hn : ∀ a, R a (.num a)) (f : EdgeFilter α) {ps : EdgePadders α} (hm : EdgeAlike R ps) (hj : ∀ ix, R (junk ix) (junk' ix))
    (h : x.Rel R X) (edgeAxis smoothAxes : Axes) : (f.component ps junk x edgeAxis smoothAxes).1 = (f.componentFlt ps junk' X edgeAxis smoothAxes).1 ∧
      ExRel (Tensor.Rel R) (f.component ps junk x edgeAxis smoothAxes).2 (f.componentFlt ps junk' X edgeAxis smoothAxes).2 := by
  unfold EdgeFilter.component EdgeFilter.componentFlt
  rw [h.ndim]
  cases checkAxes X.ndim edgeAxis with
  | error e => exact ⟨rfl, .error e⟩
  | ok ea =>
    simp only
    split
    · rename_i a
      cases checkAxes X.ndim smoothAxes with
      | error e => exact ⟨rfl, .error e⟩
      | ok sa =>
        simp only
        obtain ⟨h1, h2, h3⟩ := rel_convEdgeFlt hR hn f hm hj h a
        generalize f.convEdge ps junk x a = r at h1 h2 h3 ⊢
        generalize f.convEdgeFlt ps junk' X a = r' at h1 h2 h3 ⊢
        obtain ⟨q, r⟩ := r
        obtain ⟨q', r'⟩ := r'
        cases h1
        cases h3 with
        | error e => exact ⟨rfl, .error e⟩
        | ok hy =>
          simp only
          obtain ⟨h4, h5⟩ := rel_poolForwardFlt (hR.dotRel hn) f.smoothPool q.smooth h2.smooth hj hy (.seq (sa.filter fun b => b ≠ a))
          unfold EdgeFilter.convSmooth EdgeFilter.convSmoothFlt
          generalize f.smoothPool.forward q.smooth junk _ _ = u at h4 h5 ⊢
          generalize f.smoothPool.forwardFlt q.smooth junk' _ _ = u' at h4 h5 ⊢
          obtain ⟨u1, u2⟩ := u
          obtain ⟨u1', u2'⟩ := u'
          cases h4
          exact ⟨rfl, h5⟩
    · rename_i hna
      split
      · exact absurd rfl (hna _)
      · exact ⟨rfl, .error _⟩

end

end TI
