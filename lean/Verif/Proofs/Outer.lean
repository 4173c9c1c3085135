import Verif.Model.Misc
import Verif.Model.ConvLike
import Verif.Spec.Counts
import Verif.Proofs.Window
import Verif.Proofs.ConvLike
import Verif.Proofs.NdSpecLaws
import Mathlib.Algebra.BigOperators.Group.List.Basic

/-!
# Outer products
-/

namespace TI
open Spec Tensor

variable {α : Type}

theorem inB_append {s t ix jx : List Nat} (h : ix.length = s.length) :
    InB (s ++ t) (ix ++ jx) ↔ InB s ix ∧ InB t jx := by
  induction s generalizing ix with
  | nil =>
    have : ix = [] := List.length_eq_zero_iff.1 h
    subst this
    simp [InB]
  | cons n s ih =>
    cases ix with
    | nil => simp at h
    | cons i ix =>
      simp only [List.cons_append, InB]
      rw [ih (by simpa using h), and_assoc]

theorem InB.split {s t ix : List Nat} (h : InB (s ++ t) ix) :
    InB s (ix.take s.length) ∧ InB t (ix.drop s.length) ∧ ix = ix.take s.length ++ ix.drop s.length := by
  have hl : ix.length = s.length + t.length := by simpa using h.length_eq
  have e : ix = ix.take s.length ++ ix.drop s.length := (List.take_append_drop _ _).symm
  have h' := h
  rw [e, inB_append (by simp [hl])] at h'
  exact ⟨h'.1, h'.2, e⟩

theorem numel_append (s t : List Nat) : numel (s ++ t) = numel s * numel t := by
  induction s with
  | nil => simp [numel]
  | cons n s ih => simp [numel, ih, Nat.mul_assoc]

theorem numel_ones (k : Nat) : numel (List.replicate k 1) = 1 := by
  induction k with
  | zero => rfl
  | succ k ih => simp [List.replicate_succ, numel, ih]

theorem ravel_append {s t ix jx : List Nat} (h : ix.length = s.length) :
    ravel (s ++ t) (ix ++ jx) = ravel s ix * numel t + ravel t jx := by
  induction s generalizing ix with
  | nil =>
    have : ix = [] := List.length_eq_zero_iff.1 h
    subst this
    simp [ravel]
  | cons n s ih =>
    cases ix with
    | nil => simp at h
    | cons i ix =>
      simp only [List.cons_append, ravel]
      rw [ih (by simpa using h), numel_append, Nat.add_mul, Nat.mul_assoc, Nat.add_assoc]

theorem ravel_zeros (k m : Nat) : ravel (List.replicate k 1) (List.replicate m 0) = 0 := by
  induction k generalizing m with
  | zero => simp [ravel]
  | succ k ih =>
    cases m with
    | zero => simp [List.replicate_succ, ravel]
    | succ m => simp [List.replicate_succ, ravel, ih]

theorem get_vec [Zero α] (l : List α) {i : Nat} : (Tensor.vec l).get [i] = l.getD i 0 := by
  simp [Tensor.vec, Tensor.get, ravel, numel]

theorem outer_spec [Zero α] [Mul α] (u v : Tensor α) :
    outer u v = .ok (ofFn (u.shape ++ v.shape) fun ix =>
      u.get (ix.take u.shape.length) * v.get (ix.drop u.shape.length)) := by
  have hr : u.reshape (u.shape ++ List.replicate v.ndim 1) =
      .ok ⟨u.shape ++ List.replicate v.ndim 1, u.data, by rw [u.wf, numel_append, numel_ones, Nat.mul_one]⟩ := by
    rw [Tensor.reshape, dif_pos (by rw [u.wf, numel_append, numel_ones, Nat.mul_one])]
  have hb : bshape (u.shape ++ List.replicate v.ndim 1) v.shape = some (u.shape ++ v.shape) := by
    have h1 : padOnes (max (u.shape ++ List.replicate v.ndim 1).length v.shape.length)
        (u.shape ++ List.replicate v.ndim 1) = u.shape ++ List.replicate v.ndim 1 := by
      rw [padOnes]; simp [Tensor.ndim]
    have h2 : padOnes (max (u.shape ++ List.replicate v.ndim 1).length v.shape.length) v.shape =
        List.replicate u.shape.length 1 ++ v.shape := by
      rw [padOnes]
      congr 2
      simp only [List.length_append, List.length_replicate, Tensor.ndim]
      omega
    rw [bshape]
    rw [h1, h2, if_pos]
    · congr 1
      rw [List.zipWith_append (by simp)]
      congr 1
      · apply List.ext_getElem (by simp)
        intro i h1 h2
        simp only [List.getElem_zipWith, List.getElem_replicate]
        split_ifs with h
        · exact h.symm
        · rfl
      · apply List.ext_getElem (by simp [Tensor.ndim])
        intro i h1 h2
        simp
    · rw [List.zipWith_append (by simp), List.all_append, Bool.and_eq_true]
      constructor
      · rw [List.all_eq_true]
        intro b hb
        obtain ⟨i, hi, rfl⟩ := List.getElem_of_mem hb
        simp
      · rw [List.all_eq_true]
        intro b hb
        obtain ⟨i, hi, rfl⟩ := List.getElem_of_mem hb
        simp
  rw [outer, hr]
  simp only [bind, Except.bind, Tensor.bop, hb]
  congr 1
  apply Tensor.ofFn_congr
  intro ix hix
  obtain ⟨h1, h2, e⟩ := hix.split
  have hl : ix.length = u.shape.length + v.shape.length := by simpa using hix.length_eq
  congr 1
  · have hbi : bidx (u.shape ++ List.replicate v.ndim 1) ix =
        ix.take u.shape.length ++ List.replicate v.ndim 0 := by
      rw [bidx]
      have : ix.length - (u.shape ++ List.replicate v.ndim 1).length = 0 := by simp [Tensor.ndim]; omega
      rw [this, List.drop_zero]
      conv_lhs => rw [e]
      rw [List.zipWith_append (by simp [hl])]
      congr 1
      · have := bidx_self h1
        rw [bidx, h1.length_eq, Nat.sub_self, List.drop_zero] at this
        exact this
      · apply List.ext_getElem
        · simp [Tensor.ndim, hl]
        · intro i h3 h4
          simp
    simp only [Tensor.get]
    rw [hbi, ravel_append (by simp [hl]), ravel_zeros, numel_ones]
    simp
  · congr 1
    rw [bidx, show ix.length - v.shape.length = u.shape.length by omega]
    have := bidx_self h2
    rw [bidx, h2.length_eq, Nat.sub_self, List.drop_zero] at this
    exact this

theorem outer_get [MulZeroClass α] {u v : Tensor α} {ix jx : List Nat} (h : InB u.shape ix) (h' : InB v.shape jx) :
    (ofFn (u.shape ++ v.shape) fun ix => u.get (ix.take u.shape.length) * v.get (ix.drop u.shape.length)).get (ix ++ jx) =
      u.get ix * v.get jx := by
  rw [get_ofFn ((inB_append h.length_eq).2 ⟨h, h'⟩), ← h.length_eq]
  simp

/-- the iterated outer product of vectors -/
theorem reduceOuter_fold [CommMonoidWithZero α] (ls : List (List α)) (A : Tensor α) :
    ∃ w, (ls.map Tensor.vec).foldl (fun acc v => acc.bind fun u => outer u v) (.ok A : Except Err (Tensor α)) = .ok w ∧
      w.shape = A.shape ++ ls.map List.length ∧
      ∀ ix t, InB A.shape ix → InB (ls.map List.length) t →
        w.get (ix ++ t) = A.get ix * (List.zipWith (fun l i => l.getD i 0) ls t).prod := by
  induction ls generalizing A with
  | nil =>
    refine ⟨A, rfl, by simp, ?_⟩
    intro ix t h1 h2
    have : t = [] := by cases t with | nil => rfl | cons a t => simp [InB] at h2
    subst this
    simp
  | cons l ls ih =>
    simp only [List.map_cons, List.foldl_cons, Except.bind]
    rw [outer_spec]
    obtain ⟨w, h1, h2, h3⟩ := ih (ofFn (A.shape ++ (Tensor.vec l).shape) fun ix =>
      A.get (ix.take A.shape.length) * (Tensor.vec l).get (ix.drop A.shape.length))
    refine ⟨w, h1, ?_, ?_⟩
    · rw [h2]; simp [Tensor.vec, Tensor.ofFn]
    · intro ix t hix ht
      cases t with
      | nil => simp [InB] at ht
      | cons i t =>
        have hi : InB (Tensor.vec l).shape [i] := ⟨ht.1, trivial⟩
        have e : ix ++ i :: t = (ix ++ [i]) ++ t := by simp
        rw [e, h3 (ix ++ [i]) t ((inB_append hix.length_eq).2 ⟨hix, hi⟩) ht.2, outer_get hix hi, get_vec]
        simp [mul_assoc]

theorem reduceOuter_spec [CommMonoidWithZero α] {ls : List (List α)} (hne : ls ≠ []) :
    ∃ w, reduceOuter (ls.map Tensor.vec) = .ok w ∧ w.shape = ls.map List.length ∧
      ∀ t, InB (ls.map List.length) t → w.get t = (List.zipWith (fun l i => l.getD i 0) ls t).prod := by
  cases ls with
  | nil => exact absurd rfl hne
  | cons l ls =>
    obtain ⟨w, h1, h2, h3⟩ := reduceOuter_fold ls (Tensor.vec l)
    refine ⟨w, h1, by rw [h2]; rfl, ?_⟩
    intro t ht
    cases t with
    | nil => simp [InB] at ht
    | cons i t =>
      have := h3 [i] t ⟨ht.1, trivial⟩ ht.2
      rw [get_vec] at this
      simpa using this

/-! ### counting in several dimensions -/

theorem countP_flatMap_map {L : List Nat} {M : List (List Nat)} (A : Nat → Bool) (B : List Nat → Bool)
    (P : List Nat → Bool) (hP : ∀ i j, P (i :: j) = (A i && B j)) :
    (L.flatMap fun i => M.map (i :: ·)).countP P = L.countP A * M.countP B := by
  induction L with
  | nil => simp
  | cons i L ih =>
    rw [List.flatMap_cons, List.countP_append, ih, List.countP_cons, List.countP_map]
    have : (P ∘ fun x => i :: x) = fun j => (A i && B j) := by funext j; exact hP i j
    rw [this]
    cases hA : A i
    · simp
    · simp [Nat.add_mul, Nat.add_comm]

theorem originalsNd_eq : ∀ {axes : List (Nat × Nat × Nat × Nat)} {t : List Nat}, t.length = axes.length →
    originalsNd axes t = (List.zipWith (fun (a : Nat × Nat × Nat × Nat) t => originals a.1 a.2.1 a.2.2.1 a.2.2.2 t) axes t).prod
  | [], [], _ => by simp [originalsNd, indices]
  | a :: axes, i :: t, h => by
    have ih := originalsNd_eq (axes := axes) (t := t) (by simpa using h)
    rw [List.zipWith_cons_cons, List.prod_cons, ← ih, originalsNd, List.map_cons, indices]
    rw [countP_flatMap_map
      (fun j => decide (a.2.1 ≤ i * a.2.2.2 + j ∧ i * a.2.2.2 + j < a.2.1 + a.1))
      (fun j => (axes.zip (t.zip j)).all fun p =>
        decide (p.1.2.1 ≤ p.2.1 * p.1.2.2.2 + p.2.2 ∧ p.2.1 * p.1.2.2.2 + p.2.2 < p.1.2.1 + p.1.1))]
    · rfl
    · intro j jx
      simp

theorem ofItem_nats {g : Given Nat} {m : Nat} (hm : 0 < m) (hg : g.Fits m) :
    ∃ s, NdSpec.ofItem [] (g.toPy pyNat) = .ok s ∧ IsSpec s pyNat g := by
  cases g with
  | one b => exact ⟨_, ofItem_leaf0 _, rfl, rfl⟩
  | many l =>
    have hl : l.length = m := hg
    have := ofItem_leaves (l := l.map fun n : Nat => (n : Int)) (by
      intro h
      have := congrArg List.length h
      simp only [List.length_map, List.length_nil] at this
      omega)
    rw [List.map_map] at this
    exact ⟨_, this, rfl, rfl, [], by simp⟩

theorem nOriginalNd_spec {c : CountArgs} {m : Nat} (hm : 0 < m) (hc : c.Fits m)
    (hk : ∀ i, i < c.count m → 0 < c.k.entry 1 i) (hs : ∀ i, i < c.count m → 0 < c.s.entry 1 i) :
    ∃ w, nOriginalNd (c.n.toPy pyNat) (c.w.toPy PadArgs.pyWidth) (c.k.toPy pyNat) (c.s.toPy pyNat) = .ok w ∧
      w.shape = (List.range (c.count m)).map c.windows ∧
      ∀ t, InB w.shape t → w.get t = (originalsNd ((List.range (c.count m)).map c.axis) t : Nat) := by
  obtain ⟨h1, h2, h3, h4⟩ := hc
  obtain ⟨sn, en, hn⟩ := ofItem_nats hm h1
  obtain ⟨sk, ek, hk'⟩ := ofItem_nats hm h3
  obtain ⟨ss, es, hs'⟩ := ofItem_nats hm h4
  have ew := ofItem_given pairing_width hm h2
  have hw := isSpec_specOf [2] PadArgs.pyWidth c.w
  let L : Nat → List Int := fun i => (List.range (c.windows i)).map fun t =>
    ((originals (c.n.entry 0 i) (c.w.entry (0, 0) i).1 (c.k.entry 1 i) (c.s.entry 1 i) t : Nat) : Int)
  obtain ⟨r, er, hr⟩ := apply4_spec hn hw hk' hs' h1 h2 h3 h4
    (func := fun n w k s => do
      let n ← asInt n
      let w ← asPair w
      let k ← asInt k
      let s ← asInt s
      let l ← nOriginal1d n w k s
      .ok (.seq (l.map .leaf)))
    (f' := fun l : List Int => Py.seq (l.map .leaf)) 0 (0, 0) 1 1 L (by
      intro i hi
      have hi' : i < c.count m ∨ c.isMany = false := by
        rw [CountArgs.count]
        by_cases hmany : c.isMany = true
        · rw [if_pos hmany]; exact Or.inl (hi hmany)
        · exact Or.inr (by simpa using hmany)
      have hpos : 0 < c.k.entry 1 i ∧ 0 < c.s.entry 1 i := by
        rcases hi' with hi' | hi'
        · exact ⟨hk i hi', hs i hi'⟩
        · have hcount : 0 < c.count m := by rw [CountArgs.count, hi']; simp
          simp only [CountArgs.isMany, Bool.or_eq_false_iff] at hi'
          have e1 : c.k.entry 1 i = c.k.entry 1 0 := by
            cases hck : c.k with
            | one b => rfl
            | many l => rw [hck] at hi'; simp [Given.isMany] at hi'
          have e2 : c.s.entry 1 i = c.s.entry 1 0 := by
            cases hck : c.s with
            | one b => rfl
            | many l => rw [hck] at hi'; simp [Given.isMany] at hi'
          rw [e1, e2]
          exact ⟨hk 0 hcount, hs 0 hcount⟩
      simp only [pyNat, PadArgs.pyWidth, asInt, asPair, bind, Except.bind]
      rw [nOriginal1d_eq hpos.1 hpos.2]
      rfl)
  have hval : ∀ P : Bool, (if P then Given.many ((List.range m).map L) else Given.one (L 0)).values =
      (List.range (if P then m else 1)).map L := by
    intro P; cases P <;> rfl
  have hlist : r.toList = .ok (((List.range (c.count m)).map L).map fun l => Py.seq (l.map .leaf)) := by
    rw [hr.toList, hval]
    rfl
  have hseq : NdSpec.sequence ((((List.range (c.count m)).map L).map fun l : List Int => Py.seq (l.map .leaf)).map asInts) =
      .ok ((List.range (c.count m)).map L) := by
    rw [List.map_map]
    have := sequence_map (l := (List.range (c.count m)).map L) (F := asInts ∘ fun l : List Int => Py.seq (l.map .leaf))
      (G := id) (by
        intro l _
        simp only [Function.comp, asInts, List.map_map, id]
        have := sequence_map (l := l) (F := asInt ∘ Py.leaf) (G := id) (fun b _ => rfl)
        simpa using this)
    simpa using this
  have hcount : 0 < c.count m := by rw [CountArgs.count]; split_ifs <;> omega
  obtain ⟨w, e1, e2, e3⟩ := reduceOuter_spec (ls := (List.range (c.count m)).map L) (by
    intro h
    have := congrArg List.length h
    simp at this
    omega)
  have hlen : ((List.range (c.count m)).map L).map List.length = (List.range (c.count m)).map c.windows := by
    rw [List.map_map]
    apply List.map_congr_left
    intro i _
    simp [L]
  refine ⟨w, ?_, by rw [e2, hlen], ?_⟩
  · simp only [nOriginalNd, en, ew, ek, es, bind, Except.bind]
    have er' := er
    simp only [bind, Except.bind] at er'
    rw [er']
    simp only [hlist, hseq, e1]
  · intro t ht
    rw [e2] at ht
    rw [e3 t ht, originalsNd_eq (by simpa using ht.length_eq)]
    rw [hlen] at ht
    have hl := ht.length_eq
    have hpt : List.zipWith (fun (l : List Int) i => l.getD i 0) ((List.range (c.count m)).map L) t =
        (List.zipWith (fun (a : Nat × Nat × Nat × Nat) t => originals a.1 a.2.1 a.2.2.1 a.2.2.2 t)
          ((List.range (c.count m)).map c.axis) t).map fun k : Nat => (k : Int) := by
      apply List.ext_getElem (by simp)
      intro i h1 h2
      simp only [List.length_zipWith, List.length_map, List.length_range, lt_inf_iff] at h1
      have hlt := (inB_iff.1 ht).2 i (by simpa using h1.1)
      rw [List.getD_eq_getElem?_getD, List.getElem?_eq_getElem h1.2, List.getD_eq_getElem?_getD,
        List.getElem?_eq_getElem (by simpa using h1.1)] at hlt
      simp only [Option.getD_some, List.getElem_map, List.getElem_range] at hlt
      simp only [List.getElem_zipWith, List.getElem_map, List.getElem_range]
      rw [List.getD_eq_getElem?_getD, List.getElem?_eq_getElem (by simpa [L] using hlt)]
      simp [L, CountArgs.axis]
    rw [hpt]
    generalize List.zipWith (fun (a : Nat × Nat × Nat × Nat) t => originals a.1 a.2.1 a.2.2.1 a.2.2.2 t)
          ((List.range (c.count m)).map c.axis) t = Z
    induction Z with
    | nil => simp
    | cons z Z ih => simp [ih]

end TI
