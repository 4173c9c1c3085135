import Verif.Proofs.PoolLaws
import Verif.Spec.Axiswise

/-!
# Pooling one axis after the other
-/

set_option linter.unusedSectionVars false

namespace TI
open Tensor Spec

variable {α : Type} [Field α] [LinearOrder α] [IsStrictOrderedRing α]

theorem IsLin.listSum {E : Ext α} {n : Nat} (h : IsLin E n) (c : Nat → α) (f : Nat → Nat → α) (l : List Nat) (z : Int) :
    E n (fun j => (l.map fun i => c i * f i j).sum) z = (l.map fun i => c i * E n (f i) z).sum := by
  induction l with
  | nil => simpa using h 0 0 (fun _ => 0) (fun _ => 0) z
  | cons i l ih =>
    simp only [List.map_cons, List.sum_cons, ← ih]
    have := h (c i) 1 (f i) (fun j => (l.map fun i => c i * f i j).sum) z
    simpa only [one_mul] using this

theorem Spec.AxisPad.Linear.affine {s : AxisPad α} (h : s.Linear) : s.Affine := by
  obtain ⟨b, a, m, cv, ev, sl⟩ := s
  cases m <;> simp only [AxisPad.Linear, AxisPad.Affine] at h ⊢
  case stat st => cases st <;> exact h

theorem Spec.Passes.affine {o : PoolOp α} {s : AxisPad α} (h : Passes o s) : s.Affine := h.elim AxisPad.Linear.affine fun h => h.1

theorem Spec.AxisPad.Affine.rule {s : AxisPad α} (h : s.Affine) : s.rule? ≠ none := by
  obtain ⟨b, a, m, cv, ev, sl⟩ := s
  cases m <;> simp_all [AxisPad.Affine, AxisPad.rule?]

/-- an affine rule is a linear rule up to constants -/
theorem affine_parts {s : AxisPad α} (h : s.Affine) {n : Nat} (hn : 0 < n) :
    ∃ (E E₀ : Ext α) (c : Int → α), s.rule? = some E ∧ Local E n ∧ IsLin E₀ n ∧ ∀ u (z : Int), E n u z = E₀ n u z + c z := by
  by_cases hl : s.Linear
  · obtain ⟨E, h1, h2, h3⟩ := isLin_of_linear hl hn
    exact ⟨E, E, fun _ => 0, h1, h3, h2, fun u z => by ring⟩
  obtain ⟨b, a, m, cv, ev, sl⟩ := s
  cases m <;> simp only [AxisPad.Linear, AxisPad.Affine, not_true_eq_false] at h hl <;> simp only [AxisPad.rule?]
  case stat st => cases st <;> simp only [not_true_eq_false] at h hl
  case constant =>
    refine ⟨_, Spec.constant 0 0, fun z => if z < 0 then cv.1 else if z < n then 0 else cv.2, rfl, constant_local _ _, ?_, ?_⟩
    · intro a b u v z
      simp only [Spec.constant]; split_ifs <;> ring
    · intro u z
      simp only [Spec.constant]; split_ifs <;> ring
  case linearRamp =>
    refine ⟨_, Spec.linearRamp b a 0 0, fun z => if z < 0 then ((-z : Int) : α) / (b : α) * ev.1 else if z < n then 0 else
      ((z - (n - 1 : Nat) : Int) : α) / (a : α) * ev.2, rfl, linearRamp_local _ _ _ _ hn, ?_, ?_⟩
    · intro a b u v z
      simp only [Spec.linearRamp]; split_ifs <;> ring
    · intro u z
      simp only [Spec.linearRamp]; split_ifs <;> ring

theorem sum_range_getD (w : List α) : ((List.range w.length).map fun i => w.getD i 0).sum = w.sum := by
  congr 1
  apply List.ext_getElem (by simp)
  intro i h1 h2
  simp [h2]

theorem Spec.Passes.sum {o : PoolOp α} {s : AxisPad α} (h : Passes o s) {n : Nat} (hn : 0 < n) :
    ∃ E, s.rule? = some E ∧ Local E n ∧ ∀ (f : Nat → Nat → α) (z : Int), E n (fun j => ((List.range o.kernel.length).map fun i => o.kernel.getD i 0 * f i j).sum) z =
      ((List.range o.kernel.length).map fun i => o.kernel.getD i 0 * E n (f i) z).sum := by
  rcases h with h | ⟨h, hw⟩
  · obtain ⟨E, h1, h2, h3⟩ := isLin_of_linear h hn
    exact ⟨E, h1, h3, fun f z => IsLin.listSum h2 _ f _ z⟩
  · obtain ⟨E, E₀, c, h1, h2, h3, h4⟩ := affine_parts h hn
    refine ⟨E, h1, h2, fun f z => ?_⟩
    simp only [h4, mul_add, List.sum_map_add, IsLin.listSum h3, List.sum_map_mul_right, sum_range_getD, hw, one_mul]

/-- widening an axis and pooling another one: the order does not matter -/
theorem padStep_slide {x : Tensor α} {o : PoolOp α} {p : Nat × AxisPad α} (hne : o.axis ≠ p.1)
    (ho : o.kernel ≠ [] → o.axis < x.ndim ∧ 0 < o.stride) (hp : p.1 < x.ndim) (hl : Passes o p.2) (hn : 0 < x.shape.getD p.1 0) :
    slide (padStep x p) o = padStep (slide x o) p := by
  by_cases hk : o.kernel = []
  · simp [slide, hk]
  obtain ⟨hoa, hos⟩ := ho hk
  obtain ⟨E, hE, hloc, hlin⟩ := hl.sum hn
  have hn' : (slide x o).shape.getD p.1 0 = x.shape.getD p.1 0 := by
    rw [slide_shape, if_neg hk, getD_set_ne _ _ _ _ _ (Ne.symm hne)]
  have hsp := padStep_shape (x := x) (o := p) (fun _ => hl.affine.rule)
  have hsp' := padStep_shape (x := slide x o) (o := p) (fun _ => hl.affine.rule)
  have hpn : (padStep x p).ndim = x.ndim := by rw [ndim, hsp, ndim]; simp
  have hsh : (slide (padStep x p) o).shape = (padStep (slide x o) p).shape := by
    rw [hsp', hn', slide_shape, if_neg hk, slide_shape, if_neg hk, hsp, getD_set_ne _ _ _ _ _ hne, List.set_comm _ _ hne]
  apply ext_get hsh
  intro ix hix
  have hix' := hsh ▸ hix
  have hR : (padStep (slide x o) p).get ix = E (x.shape.getD p.1 0) (fun j => ((List.range o.kernel.length).map fun i =>
      o.kernel.getD i 0 * x.get ((ix.set o.axis (ix.getD o.axis 0 * o.stride + i)).set p.1 j)).sum) ((ix.getD p.1 0 : Int) - p.2.before) := by
    rw [padStep_eq (by rw [slide_ndim]; exact hp) hE, extendAxis, hn', get_ofFn (by rw [hsp', hn'] at hix'; exact hix')]
    apply hloc
    intro j hj
    have h1 : InB (slide x o).shape (ix.set p.1 j) := by
      have h0 := hix'
      rw [hsp'] at h0
      have := InB.set (s := (slide x o).shape) h0 hj
      rw [← hn', set_getD_self] at this
      exact this
    rw [slide_get hk h1]
    congr 1
    apply List.map_congr_left
    intro i _
    rw [getD_set_ne _ _ _ _ _ hne, List.set_comm _ _ hne]
  rw [hR, hlin (fun i j => x.get ((ix.set o.axis (ix.getD o.axis 0 * o.stride + i)).set p.1 j)), slide_get hk hix]
  congr 1
  apply List.map_congr_left
  intro i hi
  have h2 := slide_inB hos (by rw [hpn]; exact hoa) hk hix (List.mem_range.1 hi)
  rw [padStep_eq hp hE, extendAxis, get_ofFn (by rw [hsp] at h2; exact h2), getD_set_ne _ _ _ _ _ (Ne.symm hne)]

theorem padSeq_slide : ∀ {P : List (Nat × AxisPad α)} {x : Tensor α} {o : PoolOp α}, (∀ p ∈ P, o.axis ≠ p.1) → (P.map Prod.fst).Nodup →
    (o.kernel ≠ [] → o.axis < x.ndim ∧ 0 < o.stride) → (∀ p ∈ P, p.1 < x.ndim) → (∀ p ∈ P, Passes o p.2) → (∀ p ∈ P, 0 < x.shape.getD p.1 0) →
    slide (padSeq x P) o = padSeq (slide x o) P
  | [], _, _, _, _, _, _, _, _ => rfl
  | p :: P, x, o, hne, hnd, ho, hp, hl, hn => by
    have hsp := padStep_shape (x := x) (o := p) (fun _ => (hl p (by simp)).affine.rule)
    have hpn : (padStep x p).ndim = x.ndim := by rw [ndim, hsp, ndim]; simp
    simp only [List.map_cons, List.nodup_cons] at hnd
    rw [padSeq_cons, padSeq_cons, ← padStep_slide (hne p (by simp)) ho (hp p (by simp)) (hl p (by simp)) (hn p (by simp))]
    apply padSeq_slide (fun q hq => hne q (by simp [hq])) hnd.2 (by rw [hpn]; exact ho) (by rw [hpn]; exact fun q hq => hp q (by simp [hq]))
      (fun q hq => hl q (by simp [hq]))
    intro q hq
    have : q.1 ≠ p.1 := fun e => hnd.1 (e ▸ List.mem_map_of_mem hq)
    rw [hsp, getD_set_ne _ _ _ _ _ this]
    exact hn q (by simp [hq])

/-- the axes of `P` can be widened by a linear rule and the axes of `O` pooled -/
structure Spec.EachOK (x : Tensor α) (O : List (PoolOp α)) (P : List (Nat × AxisPad α)) : Prop where
  axes : O.map (·.axis) = P.map Prod.fst
  nodup : (P.map Prod.fst).Nodup
  stride : ∀ o ∈ O, o.kernel ≠ [] → 0 < o.stride
  lt : ∀ p ∈ P, p.1 < x.ndim
  passes : ∀ o ∈ O, ∀ p ∈ P, Passes o p.2
  pos : ∀ p ∈ P, 0 < x.shape.getD p.1 0

theorem sameStep_getD {x : Tensor α} {o : PoolOp α} {p : Nat × AxisPad α} (he : o.axis = p.1) (hl : p.2.Affine) {k : Nat} (hk : k ≠ p.1) :
    (sameStep x (o, p)).shape.getD k 0 = x.shape.getD k 0 := by
  have hsp := padStep_shape (x := x) (o := p) (fun _ => hl.rule)
  simp only [sameStep, slide_shape]
  split_ifs
  · rw [hsp, getD_set_ne _ _ _ _ _ hk]
  · rw [hsp, getD_set_ne _ _ _ _ _ (by rw [he]; exact hk), getD_set_ne _ _ _ _ _ hk]

theorem sameStep_ndim {x : Tensor α} {o : PoolOp α} {p : Nat × AxisPad α} (hl : p.2.Affine) : (sameStep x (o, p)).ndim = x.ndim := by
  rw [sameStep, slide_ndim, ndim, padStep_shape (fun _ => hl.rule), ndim]; simp

theorem Spec.EachOK.step {x : Tensor α} {o : PoolOp α} {p : Nat × AxisPad α} {O : List (PoolOp α)} {P : List (Nat × AxisPad α)}
    (h : EachOK x (o :: O) (p :: P)) : EachOK (sameStep x (o, p)) O P := by
  have h1 := h.axes
  have h2 := h.nodup
  simp only [List.map_cons, List.cons.injEq, List.nodup_cons] at h1 h2
  refine ⟨h1.2, h2.2, fun q hq => h.stride q (by simp [hq]), ?_, fun o' ho' q hq => h.passes o' (by simp [ho']) q (by simp [hq]), ?_⟩
  · rw [sameStep_ndim (h.passes o (by simp) p (by simp)).affine]
    exact fun q hq => h.lt q (by simp [hq])
  · intro q hq
    rw [sameStep_getD h1.1 (h.passes o (by simp) p (by simp)).affine fun e => h2.1 (e ▸ List.mem_map_of_mem hq)]
    exact h.pos q (by simp [hq])

/-- widening all axes and pooling all axes is the same as treating one axis after the other -/
theorem poolSeq_each : ∀ {O : List (PoolOp α)} {P : List (Nat × AxisPad α)} {x : Tensor α}, EachOK x O P →
    poolSeq (padSeq x P) O = sameEach x (O.zip P)
  | [], [], _, _ => rfl
  | [], _ :: _, _, h => by have := h.axes; simp at this
  | _ :: _, [], _, h => by have := h.axes; simp at this
  | o :: O, p :: P, x, h => by
    have h1 := h.axes
    have h2 := h.nodup
    simp only [List.map_cons, List.cons.injEq, List.nodup_cons] at h1 h2
    have hsp := padStep_shape (x := x) (o := p) (fun _ => (h.passes o (by simp) p (by simp)).affine.rule)
    have hpn : (padStep x p).ndim = x.ndim := by rw [ndim, hsp, ndim]; simp
    have hne : ∀ q ∈ P, q.1 ≠ p.1 := fun q hq e => h2.1 (e ▸ List.mem_map_of_mem hq)
    have e : slide (padSeq (padStep x p) P) o = padSeq (sameStep x (o, p)) P := by
      apply padSeq_slide (fun q hq => by rw [h1.1]; exact (hne q hq).symm) h2.2
        (fun hk => ⟨by rw [hpn, h1.1]; exact h.lt p (by simp), h.stride o (by simp) hk⟩)
        (by rw [hpn]; exact fun q hq => h.lt q (by simp [hq])) (fun q hq => h.passes o (by simp) q (by simp [hq]))
      intro q hq
      rw [hsp, getD_set_ne _ _ _ _ _ (hne q hq)]
      exact h.pos q (by simp [hq])
    rw [padSeq_cons, List.zip_cons_cons, sameEach, List.foldl_cons, ← sameEach, ← poolSeq_each h.step, ← e]
    rfl

theorem sameEach_append (x : Tensor α) (l l' : List (PoolOp α × (Nat × AxisPad α))) :
    sameEach x (l ++ l') = sameEach (sameEach x l) l' := by
  simp [sameEach, List.foldl_append]

theorem sameEach_getD : ∀ {O : List (PoolOp α)} {P : List (Nat × AxisPad α)} {x : Tensor α}, O.map (·.axis) = P.map Prod.fst →
    (∀ p ∈ P, p.2.Affine) → ∀ {k : Nat}, k ∉ P.map Prod.fst → (sameEach x (O.zip P)).shape.getD k 0 = x.shape.getD k 0
  | [], [], _, _, _, _, _ => rfl
  | [], _ :: _, _, h, _, _, _ => by simp at h
  | _ :: _, [], _, h, _, _, _ => by simp at h
  | o :: O, p :: P, x, h, hl, k, hk => by
    simp only [List.map_cons, List.cons.injEq, List.mem_cons, not_or] at h hk
    rw [List.zip_cons_cons, sameEach, List.foldl_cons, ← sameEach, sameEach_getD h.2 (fun q hq => hl q (by simp [hq])) hk.2,
      sameStep_getD h.1 (hl p (by simp)) hk.1]

theorem sameEach_ndim : ∀ {O : List (PoolOp α)} {P : List (Nat × AxisPad α)} {x : Tensor α}, (∀ p ∈ P, p.2.Affine) →
    (sameEach x (O.zip P)).ndim = x.ndim
  | [], _, _, _ => by simp [sameEach]
  | _ :: _, [], _, _ => by simp [sameEach]
  | o :: O, p :: P, x, hl => by
    rw [List.zip_cons_cons, sameEach, List.foldl_cons, ← sameEach, sameEach_ndim (fun q hq => hl q (by simp [hq])), sameStep_ndim (hl p (by simp))]

end TI
