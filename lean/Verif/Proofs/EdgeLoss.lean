import Verif.Model.EdgeLoss
import Verif.Spec.EdgeLoss
import Verif.Props.EdgesGauss
import Verif.Proofs.Reduce
import Verif.Proofs.WindowMean

/-!
# Lemmas on concatenation, for the losses on edges
-/

set_option linter.unusedSectionVars false

namespace TI
open Tensor Spec

/-- positions of a concatenation -/
theorem indices_cat {S : List Nat} {d : Nat} (hd : d < S.length) (m m' : Nat) :
    (indices (S.set d (m + m'))).Perm (indices (S.set d m) ++ (indices (S.set d m')).map fun ix => ix.set d (ix.getD d 0 + m)) := by
  have hlen : ∀ {k : Nat} {ix : List Nat}, InB (S.set d k) ix → d < ix.length ∧ ix.getD d 0 < k := by
    intro k ix h
    have h1 := h.length_eq
    have h2 := h.lt (k := d) (by simpa using hd)
    rw [getD_set_self _ _ _ _ hd] at h2
    exact ⟨by rw [h1]; simpa using hd, h2⟩
  have hset : ∀ {k k' : Nat} {ix : List Nat} {i : Nat}, InB (S.set d k) ix → i < k' → InB (S.set d k') (ix.set d i) := by
    intro k k' ix i h hi
    have := h.set (m := k') hi
    simpa using this
  rw [List.perm_ext_iff_of_nodup (indices_nodup _)]
  · intro ix
    simp only [List.mem_append, List.mem_map, mem_indices]
    constructor
    · intro h
      obtain ⟨h1, h2⟩ := hlen h
      by_cases hl : ix.getD d 0 < m
      · left
        have := hset (k' := m) h hl
        rwa [set_getD_self] at this
      · right
        refine ⟨ix.set d (ix.getD d 0 - m), hset h (by omega), ?_⟩
        rw [getD_set_self _ _ _ _ h1, List.set_set, Nat.sub_add_cancel (by omega), set_getD_self]
    · rintro (h | ⟨jx, h, rfl⟩)
      · have := hset (k' := m + m') (i := ix.getD d 0) h (by have := (hlen h).2; omega)
        rwa [set_getD_self] at this
      · exact hset h (by have := (hlen h).2; omega)
  · refine List.Nodup.append (indices_nodup _) ?_ ?_
    · refine List.Nodup.map_on ?_ (indices_nodup _)
      intro ix hix jx hjx h
      obtain ⟨h1, _⟩ := hlen (mem_indices.1 hix)
      obtain ⟨h2, _⟩ := hlen (mem_indices.1 hjx)
      have e1 := congrArg (fun l => l.getD d 0) h
      simp only [getD_set_self _ _ _ _ h1, getD_set_self _ _ _ _ h2] at e1
      have e2 := congrArg (fun l => l.set d (ix.getD d 0)) h
      simp only [List.set_set] at e2
      rw [set_getD_self] at e2
      rw [e2, show ix.getD d 0 = jx.getD d 0 by omega, set_getD_self]
    · intro ix h1 h2
      obtain ⟨jx, hj, rfl⟩ := List.mem_map.1 h2
      have h3 := (hlen (mem_indices.1 h1)).2
      rw [getD_set_self _ _ _ _ (hlen (mem_indices.1 hj)).1] at h3
      omega

/-- the entries of a concatenation of two tensors of the same shape -/
theorem map_cat {β : Type} {S : List Nat} {d : Nat} (hd : d < S.length) (u v : List Nat → β) :
    ((indices (S.set d (S.getD d 0 + S.getD d 0))).map fun ix => if ix.getD d 0 < S.getD d 0 then u ix else v (ix.set d (ix.getD d 0 - S.getD d 0))).Perm
      ((indices S).map u ++ (indices S).map v) := by
  refine ((indices_cat hd _ _).map _).trans ?_
  rw [set_getD_self, List.map_append, List.map_map]
  have h1 : ∀ ix ∈ indices S, ix.getD d 0 < S.getD d 0 ∧ d < ix.length := by
    intro ix h
    have h' := mem_indices.1 h
    exact ⟨h'.lt hd, by rw [h'.length_eq]; exact hd⟩
  apply List.Perm.of_eq
  congr 1
  · apply List.map_congr_left
    intro ix h
    rw [if_pos (h1 ix h).1]
  · apply List.map_congr_left
    intro ix h
    simp only [Function.comp]
    rw [getD_set_self _ _ _ _ (h1 ix h).2, if_neg (by omega), List.set_set, Nat.add_sub_cancel, set_getD_self]

variable {α : Type} [Field α]

theorem mean_perm {l l' : List α} (h : l.Perm l') : Spec.mean l = Spec.mean l' := by
  rw [Spec.mean, Spec.mean, h.sum_eq, h.length_eq]

section
variable [LinearOrder α] [IsStrictOrderedRing α]

theorem mean_append_same {l l' : List α} (h : l.length = l'.length) : Spec.mean (l ++ l') = (Spec.mean l + Spec.mean l') / 2 := by
  simp only [Spec.mean, List.sum_append, List.length_append, h]
  push_cast
  rw [← add_div, div_div]
  ring_nf

theorem mean_cat {S : List Nat} {d : Nat} (hd : d < S.length) (u v : List Nat → α) :
    Spec.mean ((indices (S.set d (S.getD d 0 + S.getD d 0))).map fun ix =>
      if ix.getD d 0 < S.getD d 0 then u ix else v (ix.set d (ix.getD d 0 - S.getD d 0))) =
      (Spec.mean ((indices S).map u) + Spec.mean ((indices S).map v)) / 2 := by
  rw [mean_perm (map_cat hd u v), mean_append_same (by simp)]

end

theorem meanAll (S : List Nat) (u : List Nat → α) :
    (ofFn S u).meanDims [] false = .ok (Tensor.scalar (Spec.mean ((indices S).map u))) := by
  have h3 := reduce_drop (fun l : List α => l.sum / (l.length : α)) (x := ofFn S u) (axes := []) (by simp) List.nodup_nil
  rw [meanDims]
  refine h3.trans ?_
  have hr : reducedAxes (ofFn S u).ndim [] = List.range S.length := by simp [reducedAxes, ndim]
  rw [hr, shape_ofFn, onKept_all]
  congr 1
  simp only [ofFn, indices, collected_all, Tensor.scalar, Spec.mean, List.map_cons, List.map_nil, List.length_map]
  congr 2
  congr 2
  apply List.map_congr_left
  intro ix hix
  exact get_ofFn (mem_indices.1 hix)

theorem mean23 (n c h w : Nat) (u : List Nat → α) :
    (ofFn [n, c, h, w] u).meanDims [2, 3] false = .ok (ofFn [n, c] (planeMean [n, c, h, w] u)) := by
  have h3 := reduce_drop (fun l : List α => l.sum / (l.length : α)) (x := ofFn [n, c, h, w] u) (axes := [2, 3])
    (by simp [ndim]) (by decide)
  rw [meanDims]
  refine Eq.trans (by rfl) (h3.trans ?_)
  congr 1
  change ofFn [n, c] _ = _
  apply ofFn_congr
  intro jx _
  simp only [planeMean, Spec.mean, List.length_map]
  congr 2
  apply List.map_congr_left
  intro ix hix
  exact get_ofFn (mem_collected.1 hix).1

section
variable [LinearOrder α] [IsStrictOrderedRing α]

/-- planes of a concatenation along the second axis -/
theorem planeMean_cat (n c h w : Nat) (u v : List Nat → α) {jx : List Nat} (hj : InB [n, c + c] jx) :
    planeMean [n, c + c, h, w] (fun ix => if ix.getD 1 0 < c then u ix else v (ix.set 1 (ix.getD 1 0 - c))) jx =
      if jx.getD 1 0 < c then planeMean [n, c, h, w] u jx else planeMean [n, c, h, w] v (jx.set 1 (jx.getD 1 0 - c)) := by
  obtain ⟨i, j, rfl⟩ : ∃ i j, jx = [i, j] := by
    match jx, hj with
    | [i, j], _ => exact ⟨i, j, rfl⟩
  obtain ⟨hi, hj, _⟩ := hj
  have hmem : ∀ {C p q : Nat} {ix : List Nat}, ix ∈ collected [n, C, h, w] [2, 3] [p, q] ↔ ∃ k l, ix = [p, q, k, l] ∧ p < n ∧ q < C ∧ k < h ∧ l < w := by
    intro C p q ix
    rw [mem_collected]
    constructor
    · rintro ⟨h1, h2⟩
      match ix, h1 with
      | [a, b, k, l], h1 =>
        have : onKept [2, 3] [a, b, k, l] = [a, b] := rfl
        rw [this] at h2
        cases h2
        exact ⟨k, l, rfl, h1.1, h1.2.1, h1.2.2.1, h1.2.2.2.1⟩
    · rintro ⟨k, l, rfl, h1, h2, h3, h4⟩
      exact ⟨⟨h1, h2, h3, h4, trivial⟩, rfl⟩
  have hnd : ∀ {C : Nat} {kx : List Nat}, (collected [n, C, h, w] [2, 3] kx).Nodup := fun {C kx} => (indices_nodup _).filter _
  by_cases hl : j < c
  · rw [if_pos (by simpa using hl), planeMean, planeMean]
    apply mean_perm
    have : (collected [n, c + c, h, w] [2, 3] [i, j]).Perm (collected [n, c, h, w] [2, 3] [i, j]) := by
      rw [List.perm_ext_iff_of_nodup hnd hnd]
      intro ix
      simp only [hmem]
      constructor
      · rintro ⟨k, l, h0, h1, h2, h3⟩; exact ⟨k, l, h0, h1, hl, h3⟩
      · rintro ⟨k, l, h0, h1, h2, h3⟩; exact ⟨k, l, h0, h1, hj, h3⟩
    refine (this.map _).trans (List.Perm.of_eq ?_)
    apply List.map_congr_left
    intro ix hix
    obtain ⟨k, l, rfl, _⟩ := hmem.1 hix
    simp [hl]
  · rw [if_neg (by simpa using hl), planeMean, planeMean]
    apply mean_perm
    have : (collected [n, c + c, h, w] [2, 3] [i, j]).Perm ((collected [n, c, h, w] [2, 3] [i, j - c]).map fun ix => ix.set 1 j) := by
      rw [List.perm_ext_iff_of_nodup hnd]
      · intro ix
        simp only [List.mem_map, hmem]
        constructor
        · rintro ⟨k, l, rfl, h1, h2, h3⟩
          exact ⟨[i, j - c, k, l], ⟨k, l, rfl, h1, by omega, h3⟩, rfl⟩
        · rintro ⟨_, ⟨k, l, rfl, h1, h2, h3⟩, rfl⟩
          exact ⟨k, l, rfl, h1, hj, h3⟩
      · refine List.Nodup.map_on ?_ hnd
        intro ix hix jx hjx he
        obtain ⟨k, l, rfl, _⟩ := hmem.1 hix
        obtain ⟨k', l', rfl, _⟩ := hmem.1 hjx
        simpa using he
    refine (this.map _).trans (List.Perm.of_eq ?_)
    simp only [List.map_map]
    have e : [i, j].set 1 ([i, j].getD 1 0 - c) = [i, j - c] := rfl
    rw [e]
    apply List.map_congr_left
    intro ix hix
    obtain ⟨k, l, rfl, _⟩ := hmem.1 hix
    simp [hl]

end

/-- concatenation of two tensors of the same shape -/
theorem cat_pair {a b : Tensor α} {n c h w : Nat} (ha : a.shape = [n, c, h, w]) (hb : b.shape = [n, c, h, w]) :
    Tensor.cat [a, b] 1 = .ok (ofFn [n, c + c, h, w] fun ix => if ix.getD 1 0 < c then a.get ix else b.get (ix.set 1 (ix.getD 1 0 - c))) := by
  have hd : convDim a.ndim 1 = .ok 1 := by
    rw [convDim, ndim, ha]
    rfl
  simp only [Tensor.cat, hd, ok_bind, ha, hb, List.all_cons, List.all_nil, decide_true, Bool.and_true, if_true, List.foldl_cons, List.foldl_nil, cat2]
  rfl

end TI
