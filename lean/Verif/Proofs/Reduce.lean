import Verif.Model.Metrics
import Verif.Spec.Metrics
import Verif.Proofs.PoolLaws
import Verif.Proofs.Exclude
import Verif.Proofs.Edges

/-!
# Sums and means over some of the axes
-/

set_option linter.unusedSectionVars false

namespace TI
open Tensor Spec

theorem flatMap_drop (p : Nat → Prop) [DecidablePred p] (f : Nat → Nat) : ∀ l : List Nat,
    (l.flatMap fun k => if p k then [] else [f k]) = (l.filter fun k => ¬ p k).map f
  | [] => rfl
  | k :: l => by
    rw [List.flatMap_cons, flatMap_drop p f l]
    by_cases h : p k <;> simp [h]

theorem collapse_none (ds l : List Nat) : collapse ds none l = onKept ds l := by
  simp only [collapse, onKept, keptAxes, Option.toList]
  exact flatMap_drop (fun k => k ∈ ds) (fun k => l.getD k 0) _

theorem flatMap_fill (p : Nat → Prop) [DecidablePred p] (v : Nat) (f : Nat → Nat) : ∀ l : List Nat,
    (l.flatMap fun k => if p k then [v] else [f k]) = l.map fun k => if p k then v else f k
  | [] => rfl
  | k :: l => by
    rw [List.flatMap_cons, flatMap_fill p v f l]
    by_cases h : p k <;> simp [h]

theorem collapse_some (ds l : List Nat) (v : Nat) :
    collapse ds (some v) l = (List.range l.length).map fun k => if k ∈ ds then v else l.getD k 0 := by
  simp only [collapse, Option.toList]
  exact flatMap_fill (fun k => k ∈ ds) v (fun k => l.getD k 0) _

theorem sequence_convDim {n : Nat} : ∀ {axes : List Nat}, (∀ a ∈ axes, a < n) →
    NdSpec.sequence ((castV axes).map fun d => convDim (max n 1) d) = .ok axes
  | [], _ => rfl
  | a :: axes, h => by
    have h1 : convDim (max n 1) (a : Int) = .ok a := convDim_nat (by have := h a (by simp); omega)
    have h2 := sequence_convDim (axes := axes) (n := n) fun b hb => h b (by simp [hb])
    rw [castV] at h2
    simp only [castV, List.map_cons, NdSpec.sequence, h1, h2]

theorem reduceDims_eq {n : Nat} {axes : List Nat} (h : ∀ a ∈ axes, a < n) (hnd : axes.Nodup) :
    reduceDims n (castV axes) = .ok (reducedAxes n axes) := by
  simp only [reduceDims, sequence_convDim h, ok_bind, if_pos hnd, reducedAxes]

theorem reduceDims_repeated {n : Nat} {axes : List Nat} (h : ∀ a ∈ axes, a < n) (hnd : ¬ axes.Nodup) :
    reduceDims n (castV axes) = .error .runtime := by
  simp only [reduceDims, sequence_convDim h, ok_bind, if_neg hnd]

/-- success and failure of a reduction depend on the number of axes only -/
theorem reduceDims_cases (n : Nat) (dims : List Int) :
    (∃ e, reduceDims n dims = .error e) ∨ ∃ ds, reduceDims n dims = .ok ds := by
  cases h : reduceDims n dims with
  | error e => exact .inl ⟨e, rfl⟩
  | ok ds => exact .inr ⟨ds, rfl⟩

variable {α : Type} [Field α]

theorem reduce_drop (f : List α → α) {x : Tensor α} {axes : List Nat} (h : ∀ a ∈ axes, a < x.ndim) (hnd : axes.Nodup) :
    x.reduce f (castV axes) false = .ok (ofFn (onKept (reducedAxes x.ndim axes) x.shape) fun jx =>
      f ((collected x.shape (reducedAxes x.ndim axes) jx).map x.get)) := by
  simp only [Tensor.reduce, reduceDims_eq h hnd, ok_bind, Bool.false_eq_true, if_false, collapse_none]
  rfl

/-! ## positions that are collapsed into one -/

theorem keptAxes_nodup (n : Nat) (ds : List Nat) : (keptAxes n ds).Nodup := List.nodup_range.filter _

theorem mem_keptAxes {n k : Nat} {ds : List Nat} : k ∈ keptAxes n ds ↔ k < n ∧ k ∉ ds := by simp [keptAxes]

theorem onKept_length (ds ix : List Nat) : (onKept ds ix).length = (keptAxes ix.length ds).length := by simp [onKept]

theorem keptAxes_all (n : Nat) : keptAxes n (List.range n) = [] := by
  rw [keptAxes, List.filter_eq_nil_iff]
  intro k hk
  simpa using List.mem_range.1 hk

theorem collected_all (shape : List Nat) : collected shape (List.range shape.length) [] = indices shape := by
  rw [collected, List.filter_eq_self]
  intro ix hix
  have := (mem_indices.1 hix).length_eq
  simp [onKept, this, keptAxes_all]

theorem onKept_all (shape : List Nat) : onKept (List.range shape.length) shape = [] := by
  simp [onKept, keptAxes_all]

theorem mem_collected {shape ds jx ix : List Nat} : ix ∈ collected shape ds jx ↔ InB shape ix ∧ onKept ds ix = jx := by
  simp [collected, mem_indices]

/-- no entry is lost: every position is collapsed into a position of the result -/
theorem onKept_inB {shape ds ix : List Nat} (h : InB shape ix) : InB (onKept ds shape) (onKept ds ix) := by
  rw [inB_iff]
  refine ⟨by simp [onKept, h.length_eq], ?_⟩
  intro k hk
  simp only [onKept, List.length_map, h.length_eq] at hk ⊢
  have hm := (mem_keptAxes.1 (List.getElem_mem hk)).1
  simpa [List.getD_eq_getElem?_getD, hk] using h.lt hm

/-- every position of the result collects something, unless a reduced axis is empty -/
theorem collected_ne {shape ds jx : List Nat} (hs : ∀ k < shape.length, k ∈ ds → 0 < shape.getD k 0) (h : InB (onKept ds shape) jx) :
    collected shape ds jx ≠ [] := by
  have hl := h.length_eq
  rw [onKept_length] at hl
  let ix := (List.range shape.length).map fun k => if k ∈ ds then 0 else jx.getD ((keptAxes shape.length ds).idxOf k) 0
  have hix : ix.length = shape.length := by simp [ix]
  have hmem : ix ∈ collected shape ds jx := by
    rw [mem_collected]
    constructor
    · rw [inB_iff]
      refine ⟨hix, ?_⟩
      intro k hk
      simp only [ix, List.getD_eq_getElem?_getD, List.getElem?_map, List.getElem?_range hk, Option.map_some, Option.getD_some]
      split_ifs with hd
      · simpa [List.getD_eq_getElem?_getD] using hs k hk hd
      · have hkm : k ∈ keptAxes shape.length ds := mem_keptAxes.2 ⟨hk, hd⟩
        have hlt := List.idxOf_lt_length_of_mem hkm
        have := h.lt (k := (keptAxes shape.length ds).idxOf k) (by rw [onKept_length]; exact hlt)
        have e : (onKept ds shape).getD ((keptAxes shape.length ds).idxOf k) 0 = shape.getD k 0 := by
          simp only [onKept, List.getD_eq_getElem?_getD, List.getElem?_map, List.getElem?_eq_getElem hlt, Option.map_some,
            List.getElem_idxOf]
          rfl
        rw [e] at this
        simpa [List.getD_eq_getElem?_getD] using this
    · apply List.ext_getElem?
      intro r
      rw [onKept, hix, List.getElem?_map]
      by_cases hr : r < (keptAxes shape.length ds).length
      · have hm := mem_keptAxes.1 (List.getElem_mem hr)
        have hr' : r < jx.length := by omega
        rw [List.getElem?_eq_getElem hr, List.getElem?_eq_getElem hr', Option.map_some]
        simp only [ix, List.getD_eq_getElem?_getD, List.getElem?_map, List.getElem?_range hm.1, Option.map_some, Option.getD_some,
          if_neg hm.2]
        rw [(keptAxes_nodup _ _).idxOf_getElem r hr, List.getElem?_eq_getElem hr', Option.getD_some]
      · rw [List.getElem?_eq_none (by omega), List.getElem?_eq_none (by omega)]
        rfl
  exact List.ne_nil_of_mem hmem

/-! ## how many positions are collapsed into one -/

theorem keptAxes_succ (n : Nat) (ds : List Nat) : keptAxes (n + 1) ds =
    (if 0 ∈ ds then [] else [0]) ++ (keptAxes n ((List.range n).filter fun k => k + 1 ∈ ds)).map (· + 1) := by
  have e : ∀ k, k < n → (k ∈ (List.range n).filter (fun k => k + 1 ∈ ds) ↔ k + 1 ∈ ds) := by
    intro k hk
    simp [hk]
  rw [keptAxes, List.range_succ_eq_map, List.filter_cons, List.filter_map, keptAxes]
  have : (List.range n).filter ((fun k => decide (k ∉ ds)) ∘ Nat.succ) =
      (List.range n).filter fun k => decide (k ∉ (List.range n).filter fun k => k + 1 ∈ ds) := by
    apply List.filter_congr
    intro k hk
    have := e k (List.mem_range.1 hk)
    simp only [Function.comp_apply, Nat.succ_eq_add_one, decide_eq_decide]
    rw [this]
  rw [this]
  by_cases h : 0 ∈ ds <;> simp [h]

theorem onKept_cons (ds : List Nat) (i : Nat) (ix : List Nat) : onKept ds (i :: ix) =
    (if 0 ∈ ds then [] else [i]) ++ onKept ((List.range ix.length).filter fun k => k + 1 ∈ ds) ix := by
  rw [onKept, List.length_cons, keptAxes_succ]
  by_cases h : 0 ∈ ds <;> simp [h, onKept]

/-- product of the sizes of the reduced axes -/
theorem collected_length : ∀ {shape ds jx : List Nat}, InB (onKept ds shape) jx →
    (collected shape ds jx).length = (((List.range shape.length).filter fun k => k ∈ ds).map fun k => shape.getD k 0).prod
  | [], ds, jx, h => by
    have : onKept ds [] = [] := rfl
    rw [this] at h
    cases jx with
    | nil => rfl
    | cons j jx => exact h.elim
  | n :: shape, ds, jx, h => by
    let ds' := (List.range shape.length).filter fun k => k + 1 ∈ ds
    have hds : ∀ ix, InB shape ix → (List.range ix.length).filter (fun k => k + 1 ∈ ds) = ds' := by
      intro ix hix
      rw [hix.length_eq]
    have hr : ((List.range (n :: shape).length).filter fun k => k ∈ ds).map (fun k => (n :: shape).getD k 0) =
        (if 0 ∈ ds then [n] else []) ++ ((List.range shape.length).filter fun k => k ∈ ds').map fun k => shape.getD k 0 := by
      have : (List.range shape.length).filter ((fun k => decide (k ∈ ds)) ∘ Nat.succ) =
          (List.range shape.length).filter fun k => decide (k ∈ ds') := by
        apply List.filter_congr
        intro k hk
        simp only [Function.comp_apply, Nat.succ_eq_add_one, decide_eq_decide]
        simp [ds', List.mem_range.1 hk]
      rw [List.length_cons, List.range_succ_eq_map, List.filter_cons, List.filter_map, this]
      by_cases h0 : 0 ∈ ds <;> simp [h0, Function.comp_def]
    rw [hr]
    rw [onKept_cons] at h
    have hlen : (collected (n :: shape) ds jx).length = ((List.range n).map fun i =>
        ((indices shape).filter fun ix => (if 0 ∈ ds then [] else [i]) ++ onKept ds' ix = jx).length).sum := by
      rw [collected, indices, List.filter_flatMap, List.length_flatMap]
      congr 1
      apply List.map_congr_left
      intro i _
      rw [List.filter_map, List.length_map]
      congr 1
      apply List.filter_congr
      intro ix hix
      simp only [Function.comp_apply, onKept_cons, hds ix (mem_indices.1 hix)]
    rw [hlen]
    by_cases h0 : 0 ∈ ds
    · simp only [h0, if_true, List.nil_append] at h ⊢
      have ih := collected_length (ds := ds') h
      simp only [collected] at ih
      rw [ih, List.map_const', List.sum_replicate, List.length_range, smul_eq_mul, List.singleton_append, List.prod_cons]
    · simp only [h0, if_false, List.nil_append, List.cons_append] at h ⊢
      cases jx with
      | nil => exact h.elim
      | cons j jx =>
        obtain ⟨hj, h⟩ := h
        have ih := collected_length h
        have hz : ∀ i, ((indices shape).filter fun ix => i :: onKept ds' ix = j :: jx).length =
            if i = j then (collected shape ds' jx).length else 0 := by
          intro i
          split_ifs with hi
          · subst hi
            simp [collected]
          · rw [List.length_eq_zero_iff, List.filter_eq_nil_iff]
            intro ix _
            simp [hi]
        simp only [hz]
        rw [show (((List.range shape.length).filter fun k => decide (k ∈ ds')).map fun k => shape.getD k 0).prod =
          (collected shape ds' jx).length from ih.symm]
        have : ∀ m, ((List.range m).map fun i => if i = j then (collected shape ds' jx).length else 0).sum =
            if j < m then (collected shape ds' jx).length else 0 := by
          intro m
          induction m with
          | zero => rfl
          | succ m ihm =>
            rw [List.range_succ, List.map_append, List.sum_append, ihm]
            simp only [List.map_cons, List.map_nil, List.sum_cons, List.sum_nil, Nat.add_zero]
            split_ifs <;> omega
        rw [this, if_pos hj]

/-! ## means -/

variable [LinearOrder α] [IsStrictOrderedRing α]

theorem mean_mul_length {l : List α} (h : l ≠ []) : Spec.mean l * (l.length : α) = l.sum := by
  have : (l.length : α) ≠ 0 := by simpa using h
  rw [Spec.mean, div_mul_cancel₀ _ this]

theorem mean_between {l : List α} (h : l ≠ []) {lo hi : α} (hb : ∀ a ∈ l, lo ≤ a ∧ a ≤ hi) : lo ≤ Spec.mean l ∧ Spec.mean l ≤ hi := by
  have hpos : (0 : α) < (l.length : α) := by
    have := List.length_pos_iff.2 h
    exact_mod_cast this
  have h1 : ∀ l : List α, (∀ a ∈ l, lo ≤ a) → lo * (l.length : α) ≤ l.sum := by
    intro l hl
    induction l with
    | nil => simp
    | cons a l ih =>
      have := ih fun b hb => hl b (by simp [hb])
      have := hl a (by simp)
      simp only [List.length_cons, List.sum_cons, Nat.cast_add, Nat.cast_one]
      linarith
  have h2 : ∀ l : List α, (∀ a ∈ l, a ≤ hi) → l.sum ≤ hi * (l.length : α) := by
    intro l hl
    induction l with
    | nil => simp
    | cons a l ih =>
      have := ih fun b hb => hl b (by simp [hb])
      have := hl a (by simp)
      simp only [List.length_cons, List.sum_cons, Nat.cast_add, Nat.cast_one]
      linarith
  rw [Spec.mean]
  constructor
  · rw [le_div_iff₀ hpos]
    exact h1 l fun a ha => (hb a ha).1
  · rw [div_le_iff₀ hpos]
    exact h2 l fun a ha => (hb a ha).2

theorem mean_constant {l : List α} (h : l ≠ []) {c : α} (hb : ∀ a ∈ l, a = c) : Spec.mean l = c :=
  le_antisymm (mean_between h (lo := c) fun a ha => by rw [hb a ha]; exact ⟨le_refl _, le_refl _⟩).2
    (mean_between h (hi := c) fun a ha => by rw [hb a ha]; exact ⟨le_refl _, le_refl _⟩).1

end TI
