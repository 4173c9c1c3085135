import Verif.Model.Tensor
import Mathlib.Tactic.Ring
import Mathlib.Tactic.Linarith
import Mathlib.Tactic.Cases
import Mathlib.Data.List.Nodup
import Mathlib.Data.List.Basic

/-! Lemmas about shapes, indices and tensors. -/

namespace TI

theorem InB.length_eq : ∀ {s ix : List Nat}, InB s ix → ix.length = s.length
  | [], [], _ => rfl
  | _ :: _, _ :: _, h => by simp [InB.length_eq h.2]

theorem inB_iff : ∀ {s ix : List Nat}, InB s ix ↔
    ix.length = s.length ∧ ∀ k, k < s.length → ix.getD k 0 < s.getD k 0
  | [], [] => by simp [InB]
  | [], _ :: _ => by simp [InB]
  | _ :: _, [] => by simp [InB]
  | n :: s, i :: ix => by
    simp only [InB, inB_iff (s := s) (ix := ix), List.length_cons]
    constructor
    · rintro ⟨h1, h2, h3⟩
      refine ⟨by omega, ?_⟩
      intro k hk
      cases k with
      | zero => simpa using h1
      | succ k => simpa using h3 k (by omega)
    · rintro ⟨h1, h2⟩
      refine ⟨by simpa using h2 0 (by omega), by omega, ?_⟩
      intro k hk
      simpa using h2 (k + 1) (by omega)

theorem InB.lt {s ix : List Nat} (h : InB s ix) {k : Nat} (hk : k < s.length) :
    ix.getD k 0 < s.getD k 0 := (inB_iff.1 h).2 k hk

theorem mem_indices : ∀ {s ix : List Nat}, ix ∈ indices s ↔ InB s ix
  | [], [] => by simp [indices, InB]
  | [], _ :: _ => by simp [indices, InB]
  | n :: s, [] => by simp [indices, InB]
  | n :: s, i :: ix => by
    simp only [indices, List.mem_flatMap, List.mem_range, List.mem_map, InB]
    constructor
    · rintro ⟨a, ha, b, hb, h⟩
      cases h
      exact ⟨ha, mem_indices.1 hb⟩
    · rintro ⟨h1, h2⟩
      exact ⟨i, h1, ix, mem_indices.2 h2, rfl⟩

theorem ravel_lt : ∀ {s ix : List Nat}, InB s ix → ravel s ix < numel s
  | [], [], _ => by simp [ravel, numel]
  | n :: s, i :: ix, h => by
    have h1 := ravel_lt h.2
    have h2 : i + 1 ≤ n := h.1
    simp only [ravel, numel]
    calc i * numel s + ravel s ix < i * numel s + numel s := by omega
      _ = (i + 1) * numel s := by ring
      _ ≤ n * numel s := Nat.mul_le_mul_right _ h2

theorem getElem?_flatMap_range {α : Type} (f : Nat → List α) (m : Nat)
    (hf : ∀ i, (f i).length = m) : ∀ (n i j : Nat), i < n → j < m →
    ((List.range n).flatMap f)[i * m + j]? = (f i)[j]?
  | 0, i, j, hi, _ => by omega
  | n + 1, i, j, hi, hj => by
    have hlen : ((List.range n).flatMap f).length = n * m := by
      simp [List.length_flatMap, hf, List.map_const', List.sum_replicate_nat]
    rw [List.range_succ, List.flatMap_append]
    by_cases h : i < n
    · have : i * m + j < n * m := by
        calc i * m + j < i * m + m := by omega
          _ = (i + 1) * m := by ring
          _ ≤ n * m := Nat.mul_le_mul_right _ h
      rw [List.getElem?_append_left (by omega)]
      exact getElem?_flatMap_range f m hf n i j h hj
    · have : i = n := by omega
      subst this
      rw [List.getElem?_append_right (by omega), hlen]
      simp

theorem indices_getElem? : ∀ {s ix : List Nat}, InB s ix → (indices s)[ravel s ix]? = some ix
  | [], [], _ => by simp [indices, ravel]
  | n :: s, i :: ix, h => by
    simp only [indices, ravel]
    rw [getElem?_flatMap_range (fun i => (indices s).map (i :: ·)) (numel s)
      (by intro i; simp [indices_length]) n i _ h.1 (ravel_lt h.2)]
    simp [indices_getElem? h.2]

namespace Tensor

variable {α β γ : Type}

@[simp] theorem shape_ofFn (s : List Nat) (f : List Nat → α) : (ofFn s f).shape = s := rfl

@[simp] theorem get_ofFn [Zero α] {s : List Nat} {f : List Nat → α} {ix : List Nat} (h : InB s ix) :
    (ofFn s f).get ix = f ix := by
  have := indices_getElem? h
  simp [get, ofFn, List.getD_eq_getElem?_getD, this]

theorem data_eq_map_get [Zero α] (x : Tensor α) : x.data = (indices x.shape).map x.get := by
  apply List.ext_getElem?
  intro k
  by_cases hk : k < numel x.shape
  · -- find the index with ravel = k
    have hk' : k < (indices x.shape).length := by rw [indices_length]; exact hk
    obtain ⟨ix, hix⟩ : ∃ ix, (indices x.shape)[k]? = some ix := ⟨_, List.getElem?_eq_getElem hk'⟩
    have hin : InB x.shape ix := mem_indices.1 (List.mem_of_getElem? hix)
    have hr : ravel x.shape ix = k := by
      have h1 := indices_getElem? hin
      have hnd : (indices x.shape).Nodup := by
        have : ∀ s : List Nat, (indices s).Nodup := by
          intro s
          induction s with
          | nil => simp [indices]
          | cons n s ih =>
            simp only [indices]
            rw [List.nodup_flatMap]
            refine ⟨?_, ?_⟩
            · intro i _
              exact List.Pairwise.map _ (fun a b hab h => hab (by simpa using h)) ih
            · refine List.Pairwise.imp ?_ (List.nodup_range (n := n))
              intro a b hab l hl1 hl2
              simp only [List.mem_map] at hl1 hl2
              obtain ⟨_, _, rfl⟩ := hl1
              obtain ⟨_, _, h⟩ := hl2
              simp at h
              exact hab h.1.symm
        exact this _
      have hlt : ravel x.shape ix < (indices x.shape).length := by
        rw [indices_length]; exact ravel_lt hin
      rw [List.getElem?_eq_getElem hlt] at h1
      rw [List.getElem?_eq_getElem hk'] at hix
      have : (indices x.shape)[ravel x.shape ix] = (indices x.shape)[k] := by
        rw [Option.some.inj h1, Option.some.inj hix]
      exact (List.Nodup.getElem_inj_iff hnd).1 this
    have hkd : k < x.data.length := by rw [x.wf]; exact hk
    rw [List.getElem?_map, hix]
    simp only [Option.map_some, get, hr]
    rw [List.getD_eq_getElem?_getD, List.getElem?_eq_getElem hkd]
    rfl
  · rw [List.getElem?_eq_none (by rw [x.wf]; omega),
      List.getElem?_eq_none (by simp [indices_length]; omega)]

theorem ext_get [Zero α] {x y : Tensor α} (hs : x.shape = y.shape)
    (h : ∀ ix, InB x.shape ix → x.get ix = y.get ix) : x = y := by
  have hd : x.data = y.data := by
    rw [data_eq_map_get x, data_eq_map_get y, ← hs]
    apply List.map_congr_left
    intro ix hix
    exact h ix (mem_indices.1 hix)
  cases x; cases y; simp_all

theorem ofFn_congr {s : List Nat} {f g : List Nat → α}
    (h : ∀ ix, InB s ix → f ix = g ix) : ofFn s f = ofFn s g := by
  have : (indices s).map f = (indices s).map g :=
    List.map_congr_left (fun ix hix => h ix (mem_indices.1 hix))
  simp only [ofFn, this]

theorem eq_ofFn_get [Zero α] (x : Tensor α) : x = ofFn x.shape x.get :=
  ext_get rfl (fun ix h => by rw [get_ofFn h])

theorem ofFn_inj [Zero α] {s t : List Nat} {f g : List Nat → α} (h : ofFn s f = ofFn t g) :
    s = t ∧ ∀ ix, InB s ix → f ix = g ix := by
  have hs : s = t := congrArg Tensor.shape h
  subst hs
  refine ⟨rfl, fun ix hix => ?_⟩
  have := congrArg (fun t => t.get ix) h
  simpa [get_ofFn hix] using this

@[simp] theorem shape_map (f : α → β) (x : Tensor α) : (x.map f).shape = x.shape := rfl

theorem get_map [Zero α] [Zero β] (f : α → β) (x : Tensor α) {ix : List Nat}
    (h : InB x.shape ix) : (x.map f).get ix = f (x.get ix) := by
  have hlt : ravel x.shape ix < x.data.length := by rw [x.wf]; exact ravel_lt h
  simp only [get, map, List.getD_eq_getElem?_getD, List.getElem?_map,
    List.getElem?_eq_getElem hlt]
  rfl

theorem map_ofFn (f : α → β) (s : List Nat) (g : List Nat → α) :
    (ofFn s g).map f = ofFn s (fun ix => f (g ix)) := by
  simp [map, ofFn]

@[simp] theorem get_scalar [Zero α] (a : α) (ix : List Nat) : (scalar a).get ix = a := by
  cases ix <;> simp [get, scalar, ravel]

end Tensor

/-! list index bookkeeping -/

theorem list_ext_getD {l m : List Nat} (hl : l.length = m.length)
    (h : ∀ k, k < l.length → l.getD k 0 = m.getD k 0) : l = m := by
  apply List.ext_getElem hl
  intro k h1 h2
  have := h k h1
  simpa [List.getD_eq_getElem?_getD, List.getElem?_eq_getElem h1, List.getElem?_eq_getElem h2]
    using this

theorem getD_set {α : Type} (l : List α) (d k : Nat) (v z : α) (hd : d < l.length) :
    (l.set d v).getD k z = if k = d then v else l.getD k z := by
  simp only [List.getD_eq_getElem?_getD, List.getElem?_set]
  by_cases h : d = k
  · subst h; simp [hd]
  · simp [h, Ne.symm h]

theorem getD_set_self {α : Type} (l : List α) (d : Nat) (v z : α) (hd : d < l.length) :
    (l.set d v).getD d z = v := by simp [hd]

theorem getD_set_ne {α : Type} (l : List α) (d k : Nat) (v z : α) (hk : k ≠ d) :
    (l.set d v).getD k z = l.getD k z := by
  simp [List.getD_eq_getElem?_getD, Ne.symm hk]

theorem set_getD_self {l : List Nat} {d : Nat} : l.set d (l.getD d 0) = l := by
  by_cases hd : d < l.length
  · apply list_ext_getD (by simp)
    intro k _
    rw [getD_set _ _ _ _ _ hd]
    split <;> simp_all
  · rw [List.set_eq_of_length_le (by omega)]

theorem InB.set {s ix : List Nat} {d n i : Nat} (h : InB (s.set d n) ix) {m : Nat} (hi : i < m) :
    InB (s.set d m) (ix.set d i) := by
  rw [inB_iff] at h ⊢
  simp only [List.length_set] at h ⊢
  refine ⟨h.1, ?_⟩
  intro k hk
  by_cases hkd : k = d
  · subst hkd
    rw [getD_set_self _ _ _ _ (by omega), getD_set_self _ _ _ _ (by omega)]
    exact hi
  · have := h.2 k hk
    rw [getD_set_ne _ _ _ _ _ hkd] at this
    rw [getD_set_ne _ _ _ _ _ hkd, getD_set_ne _ _ _ _ _ hkd]
    exact this

theorem InB.set' {s ix : List Nat} {d i : Nat} (h : InB s ix) {m : Nat} (hi : i < m) :
    InB (s.set d m) (ix.set d i) := by
  have : InB (s.set d (s.getD d 0)) ix := by rw [set_getD_self]; exact h
  exact this.set hi

theorem InB.set_same {s ix : List Nat} {d i : Nat} (h : InB s ix) (hi : i < s.getD d 0) :
    InB s (ix.set d i) := by
  have := h.set' (d := d) hi
  rwa [set_getD_self] at this

end TI
