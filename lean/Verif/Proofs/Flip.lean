import Verif.Spec.Flip
import Verif.Proofs.PadModes
import Verif.Proofs.PoolOps

/-!
# Reversing an axis: extension rules, padding, pooling
-/

set_option linter.unusedSectionVars false

namespace TI
open Tensor Spec

variable {α : Type}

/-! ## positions -/

section
variable [Zero α]

theorem flipped_shape (d : Nat) (x : Tensor α) : (flipped d x).shape = x.shape := rfl

theorem flipped_ndim (d : Nat) (x : Tensor α) : (flipped d x).ndim = x.ndim := rfl

theorem flipped_get {d : Nat} {x : Tensor α} {ix : List Nat} (h : InB x.shape ix) :
    (flipped d x).get ix = x.get (ix.set d (x.shape.getD d 0 - 1 - ix.getD d 0)) := by
  rw [flipped, get_ofFn h]

theorem flip_inB {s ix : List Nat} {d : Nat} (h : InB s ix) : InB s (ix.set d (s.getD d 0 - 1 - ix.getD d 0)) := by
  by_cases hd : d < s.length
  · have := h.lt hd
    exact h.set_same (by omega)
  · rw [List.set_eq_of_length_le (by rw [h.length_eq]; omega)]
    exact h

theorem flipped_flipped (d : Nat) (x : Tensor α) : flipped d (flipped d x) = x := by
  apply ext_get (by rfl)
  intro ix hix
  have hix' : InB x.shape ix := hix
  rw [flipped_get (x := flipped d x) hix', flipped_shape, flipped_get (flip_inB hix')]
  simp only [List.set_set]
  by_cases hd : d < x.shape.length
  · have := hix'.lt hd
    rw [getD_set_self _ _ _ _ (by rw [hix'.length_eq]; exact hd),
      show x.shape.getD d 0 - 1 - (x.shape.getD d 0 - 1 - ix.getD d 0) = ix.getD d 0 by omega, set_getD_self]
  · rw [List.set_eq_of_length_le (by rw [hix'.length_eq]; omega)]

end

theorem reverse_map_range {α : Type} (w : Nat) (f : Nat → α) : ((List.range w).map fun j => f (w - 1 - j)).Perm ((List.range w).map f) := by
  have : (List.range w).map (fun j => f (w - 1 - j)) = ((List.range w).map f).reverse := by
    apply List.ext_getElem (by simp)
    intro i h1 h2
    simp
  rw [this]
  exact List.reverse_perm _

theorem reverse_sum [AddCommMonoid α] (w : Nat) (f : Nat → α) : ((List.range w).map fun j => f (w - 1 - j)).sum = ((List.range w).map f).sum :=
  (reverse_map_range w f).sum_eq

/-! ## extension rules -/

section
variable [Field α] [LinearOrder α] [IsStrictOrderedRing α]

theorem foldl_max_perm {l l' : List α} (h : l.Perm l') (a b : α) (ha : a ∈ l) (hb : b ∈ l) : l.foldl max a = l'.foldl max b := by
  have key : ∀ (l : List α) (a : α), (l.foldl max a = a ∨ l.foldl max a ∈ l) ∧ (∀ c ∈ l, c ≤ l.foldl max a) ∧ a ≤ l.foldl max a := by
    intro l
    induction l with
    | nil => intro a; simp
    | cons c l ih =>
      intro a
      obtain ⟨h1, h2, h3⟩ := ih (max a c)
      refine ⟨?_, ?_, le_trans (le_max_left _ _) h3⟩
      · rcases h1 with h1 | h1
        · simp only [List.foldl_cons, h1]
          rcases max_choice a c with e | e <;> rw [e] <;> simp
        · right; simp [List.foldl_cons, h1]
      · intro e he
        rcases List.mem_cons.1 he with rfl | he
        · exact le_trans (le_max_right _ _) h3
        · exact h2 e he
  have k1 := key l a
  have k2 := key l' b
  have m1 : l.foldl max a ∈ l := by
    rcases k1.1 with e | e
    · rw [e]; exact ha
    · exact e
  have m2 : l'.foldl max b ∈ l' := by
    rcases k2.1 with e | e
    · rw [e]; exact h.mem_iff.1 hb
    · exact e
  exact le_antisymm (k2.2.1 _ (h.mem_iff.1 m1)) (k1.2.1 _ (h.mem_iff.2 m2))

theorem foldl_min_perm {l l' : List α} (h : l.Perm l') (a b : α) (ha : a ∈ l) (hb : b ∈ l) : l.foldl min a = l'.foldl min b := by
  have key : ∀ (l : List α) (a : α), (l.foldl min a = a ∨ l.foldl min a ∈ l) ∧ (∀ c ∈ l, l.foldl min a ≤ c) ∧ l.foldl min a ≤ a := by
    intro l
    induction l with
    | nil => intro a; simp
    | cons c l ih =>
      intro a
      obtain ⟨h1, h2, h3⟩ := ih (min a c)
      refine ⟨?_, ?_, le_trans h3 (min_le_left _ _)⟩
      · rcases h1 with h1 | h1
        · simp only [List.foldl_cons, h1]
          rcases min_choice a c with e | e <;> rw [e] <;> simp
        · right; simp [List.foldl_cons, h1]
      · intro e he
        rcases List.mem_cons.1 he with rfl | he
        · exact le_trans h3 (min_le_right _ _)
        · exact h2 e he
  have k1 := key l a
  have k2 := key l' b
  have m1 : l.foldl min a ∈ l := by
    rcases k1.1 with e | e
    · rw [e]; exact ha
    · exact e
  have m2 : l'.foldl min b ∈ l' := by
    rcases k2.1 with e | e
    · rw [e]; exact h.mem_iff.1 hb
    · exact e
  exact le_antisymm (k1.2.1 _ (h.mem_iff.2 m2)) (k2.2.1 _ (h.mem_iff.1 m1))

/-- a statistic does not depend on the order of the samples -/
theorem statVal_perm (st : Stat) {l l' : List α} (h : l.Perm l') (hne : l ≠ []) : statVal st l = statVal st l' := by
  have hne' : l' ≠ [] := by
    intro e
    rw [e, List.perm_nil] at h
    exact hne h
  have hd : l.headD 0 ∈ l := by cases l with
    | nil => exact absurd rfl hne
    | cons a l => simp
  have hd' : l'.headD 0 ∈ l := by
    rw [h.mem_iff]
    cases l' with
    | nil => exact absurd rfl hne'
    | cons a l => simp
  cases st with
  | mean => simp only [statVal, h.sum_eq, h.length_eq]
  | median =>
    have e : l.mergeSort (fun a b => decide (a ≤ b)) = l'.mergeSort (fun a b => decide (a ≤ b)) := by
      apply List.Perm.eq_of_pairwise' (r := fun a b : α => a ≤ b)
      · exact (List.pairwise_mergeSort (by simp only [decide_eq_true_eq]; exact fun a b c => le_trans) (by
          simp only [Bool.or_eq_true, decide_eq_true_eq]; exact fun a b => le_total a b) l).imp (by simp)
      · exact (List.pairwise_mergeSort (by simp only [decide_eq_true_eq]; exact fun a b c => le_trans) (by
          simp only [Bool.or_eq_true, decide_eq_true_eq]; exact fun a b => le_total a b) l').imp (by simp)
      · exact ((List.mergeSort_perm l _).trans h).trans (List.mergeSort_perm l' _).symm
    simp only [statVal, e, h.length_eq]
  | maximum => exact foldl_max_perm h _ _ hd hd'
  | minimum => exact foldl_min_perm h _ _ hd hd'

theorem inside_flip {n : Nat} (u u' : Nat → α) (z z' : Int) (hu : ∀ j < n, u' j = u (n - 1 - j)) (hz : z' = (n : Int) - 1 - z)
    (h0 : 0 ≤ z) (h1 : z < n) : u' z'.toNat = u z.toNat := by
  rw [hu _ (by omega)]
  congr 1
  omega

theorem replicate_flip {n : Nat} (hn : 0 < n) (u u' : Nat → α) (z z' : Int) (hu : ∀ j < n, u' j = u (n - 1 - j))
    (hz : z' = (n : Int) - 1 - z) :
    Spec.replicate n u' z' = Spec.replicate n u z := by
  simp only [Spec.replicate]
  split_ifs with h1 h2 h3 h4 h5 h6 h7 <;> first
    | omega
    | exact inside_flip u u' z z' hu hz (by omega) (by omega)
    | (rw [hu _ (by omega)]; congr 1; done)
    | (rw [hu _ (by omega)]; congr 1; omega)

theorem constant_flip {vb va : α} {n : Nat} (hn : 0 < n) (u u' : Nat → α) (z z' : Int) (hu : ∀ j < n, u' j = u (n - 1 - j))
    (hz : z' = (n : Int) - 1 - z) :
    Spec.constant va vb n u' z' = Spec.constant vb va n u z := by
  simp only [Spec.constant]
  split_ifs with h1 h2 h3 h4 h5 h6 h7 <;> first
    | omega
    | exact inside_flip u u' z z' hu hz (by omega) (by omega)
    | rfl

theorem linearRamp_flip {b a : Nat} {vb va : α} {n : Nat} (hn : 0 < n) (u u' : Nat → α) (z z' : Int) (hu : ∀ j < n, u' j = u (n - 1 - j))
    (hz : z' = (n : Int) - 1 - z) :
    Spec.linearRamp a b va vb n u' z' = Spec.linearRamp b a vb va n u z := by
  have e0 : u' 0 = u (n - 1) := by rw [hu 0 hn]; congr 1
  have e1 : u' (n - 1) = u 0 := by rw [hu (n - 1) (by omega)]; congr 1; omega
  simp only [Spec.linearRamp, e0, e1]
  split_ifs with h1 h2 h3 h4 h5 h6 h7 <;> first
    | omega
    | exact inside_flip u u' z z' hu hz (by omega) (by omega)
    | (congr 4; omega)

theorem smooth_flip {n : Nat} (hn : 0 < n) (u u' : Nat → α) (z z' : Int) (hu : ∀ j < n, u' j = u (n - 1 - j))
    (hz : z' = (n : Int) - 1 - z) :
    Spec.smooth n u' z' = Spec.smooth n u z := by
  have e0 : u' 0 = u (n - 1) := by rw [hu 0 hn]; congr 1
  have e1 : u' (n - 1) = u 0 := by rw [hu (n - 1) (by omega)]; congr 1; omega
  simp only [Spec.smooth, e0, e1]
  split_ifs with h0 h1 h2 h3 h4 h5 h6 h7
  · subst h0; rfl
  · omega
  · omega
  · rw [hu 1 (by omega), show n - 1 - 1 = n - 2 by omega, show z - ((n - 1 : Nat) : Int) = -z' by omega]
    push_cast
    ring
  · omega
  · exact inside_flip u u' z z' hu hz (by omega) (by omega)
  · omega
  · rw [hu (n - 2) (by omega), show n - 1 - (n - 2) = 1 by omega, show z' - ((n - 1 : Nat) : Int) = -z by omega]
    push_cast
    ring
  · omega
  · omega

theorem circular_flip {n : Nat} (hn : 0 < n) (u u' : Nat → α) (z z' : Int) (hu : ∀ j < n, u' j = u (n - 1 - j))
    (hz : z' = (n : Int) - 1 - z) :
    Spec.circular n u' z' = Spec.circular n u z := by
  have h1 := Int.emod_nonneg z (show (n : Int) ≠ 0 by omega)
  have h2 := Int.emod_lt_of_pos z (show (0 : Int) < n by omega)
  have h3 := Int.emod_add_mul_ediv z n
  obtain ⟨e, -⟩ := emod_ediv_of_eq (z := z') (P := n) (q := -(z / n)) (j := n - 1 - z % n) (by omega) (by
    rw [hz]; nlinarith [h3]) (by omega) (by omega)
  simp only [Spec.circular, e]
  rw [hu _ (by omega)]
  congr 1
  omega

/-- the position seen from the other end, modulo `2n` -/
theorem flip_half {n : Nat} (hn : 0 < n) {z z' : Int} (hz : z' = (n : Int) - 1 - z) :
    if z % (2 * n) < n then z' % (2 * n) = n - 1 - z % (2 * n) ∧ z' / (2 * n) = -(z / (2 * n))
    else z' % (2 * n) = 3 * n - 1 - z % (2 * n) ∧ z' / (2 * n) = -(z / (2 * n)) - 1 := by
  have h1 := Int.emod_nonneg z (show (2 * n : Int) ≠ 0 by omega)
  have h2 := Int.emod_lt_of_pos z (show (0 : Int) < 2 * n by omega)
  have h3 := Int.emod_add_mul_ediv z (2 * n)
  split_ifs with h
  · exact emod_ediv_of_eq (by omega) (by rw [hz]; nlinarith [h3]) (by omega) (by omega)
  · exact emod_ediv_of_eq (by omega) (by rw [hz]; nlinarith [h3]) (by omega) (by omega)

/-- the position seen from the other end, modulo `2 (n - 1)` -/
theorem flip_whole {n : Nat} (hn : 2 ≤ n) {z z' : Int} (hz : z' = (n : Int) - 1 - z) :
    if z % (2 * (n - 1) : Nat) < n then z' % (2 * (n - 1) : Nat) = n - 1 - z % (2 * (n - 1) : Nat) ∧ z' / (2 * (n - 1) : Nat) = -(z / (2 * (n - 1) : Nat))
    else z' % (2 * (n - 1) : Nat) = 3 * (n - 1) - z % (2 * (n - 1) : Nat) ∧ z' / (2 * (n - 1) : Nat) = -(z / (2 * (n - 1) : Nat)) - 1 := by
  have h1 := Int.emod_nonneg z (show ((2 * (n - 1) : Nat) : Int) ≠ 0 by omega)
  have h2 := Int.emod_lt_of_pos z (show (0 : Int) < (2 * (n - 1) : Nat) by omega)
  have h3 := Int.emod_add_mul_ediv z (2 * (n - 1) : Nat)
  have h4 : ((2 * (n - 1) : Nat) : Int) = 2 * ((n : Int) - 1) := by omega
  split_ifs with h
  · exact emod_ediv_of_eq (by omega) (by rw [hz]; nlinarith [h3]) (by omega) (by omega)
  · exact emod_ediv_of_eq (by omega) (by rw [hz]; nlinarith [h3]) (by omega) (by omega)

theorem symmetric_flip {n : Nat} (hn : 0 < n) (u u' : Nat → α) (z z' : Int) (hu : ∀ j < n, u' j = u (n - 1 - j))
    (hz : z' = (n : Int) - 1 - z) :
    Spec.symmetric n u' z' = Spec.symmetric n u z := by
  have h1 := Int.emod_nonneg z (show (2 * n : Int) ≠ 0 by omega)
  have h2 := Int.emod_lt_of_pos z (show (0 : Int) < 2 * n by omega)
  have h := flip_half hn hz
  simp only [Spec.symmetric]
  split_ifs at h with hc
  · rw [h.1, if_pos (by omega), if_pos (by omega), hu _ (by omega)]
    congr 1; omega
  · rw [h.1, if_neg (by omega), if_neg (by omega), hu _ (by omega)]
    congr 1; omega

theorem antisymmetric_flip {n : Nat} (hn : 0 < n) (u u' : Nat → α) (z z' : Int) (hu : ∀ j < n, u' j = u (n - 1 - j))
    (hz : z' = (n : Int) - 1 - z) :
    Spec.antisymmetric n u' z' = Spec.antisymmetric n u z := by
  have h1 := Int.emod_nonneg z (show (2 * n : Int) ≠ 0 by omega)
  have h2 := Int.emod_lt_of_pos z (show (0 : Int) < 2 * n by omega)
  have h := flip_half hn hz
  simp only [Spec.antisymmetric]
  split_ifs at h with hc
  · rw [h.1, if_pos (by omega), if_pos (by omega), hu _ (by omega)]
    congr 1; omega
  · rw [h.1, if_neg (by omega), if_neg (by omega), hu _ (by omega)]
    congr 2; omega

theorem oddSymmetric_flip {n : Nat} (hn : 0 < n) (u u' : Nat → α) (z z' : Int) (hu : ∀ j < n, u' j = u (n - 1 - j))
    (hz : z' = (n : Int) - 1 - z) :
    Spec.oddSymmetric n u' z' = Spec.oddSymmetric n u z := by
  have h1 := Int.emod_nonneg z (show (2 * n : Int) ≠ 0 by omega)
  have h2 := Int.emod_lt_of_pos z (show (0 : Int) < 2 * n by omega)
  have h := flip_half hn hz
  have e0 : u' 0 = u (n - 1) := by rw [hu 0 hn]; congr 1
  have e1 : u' (n - 1) = u 0 := by rw [hu (n - 1) (by omega)]; congr 1; omega
  simp only [Spec.oddSymmetric, e0, e1]
  split_ifs at h with hc
  · rw [h.1, h.2, if_pos (by omega), if_pos (by omega), hu _ (by omega),
      show n - 1 - ((n : Int) - 1 - z % (2 * n)).toNat = (z % (2 * n)).toNat by omega]
    push_cast
    ring
  · rw [h.1, h.2, if_neg (by omega), if_neg (by omega), hu _ (by omega),
      show n - 1 - (2 * n - 1 - (3 * (n : Int) - 1 - z % (2 * n)).toNat) = 2 * n - 1 - (z % (2 * n)).toNat by omega]
    push_cast
    ring

theorem reflect_flip {n : Nat} (hn : 0 < n) (u u' : Nat → α) (z z' : Int) (hu : ∀ j < n, u' j = u (n - 1 - j))
    (hz : z' = (n : Int) - 1 - z) :
    Spec.reflect n u' z' = Spec.reflect n u z := by
  simp only [Spec.reflect]
  by_cases hn1 : n = 1
  · rw [if_pos hn1, if_pos hn1, hu 0 (by omega), show n - 1 - 0 = 0 by omega]
  · rw [if_neg hn1, if_neg hn1]
    have h1 := Int.emod_nonneg z (show ((2 * (n - 1) : Nat) : Int) ≠ 0 by omega)
    have h2 := Int.emod_lt_of_pos z (show (0 : Int) < (2 * (n - 1) : Nat) by omega)
    have h := flip_whole (n := n) (by omega) hz
    have h4 : ((2 * (n - 1) : Nat) : Int) = 2 * ((n : Int) - 1) := by omega
    generalize z % (2 * (n - 1) : Nat) = r at *
    generalize z' % (2 * (n - 1) : Nat) = r' at *
    split_ifs at h with hc
    · rw [if_pos (by omega), if_pos (by omega), hu _ (by omega)]
      congr 1; omega
    · rw [if_neg (by omega), if_neg (by omega), hu _ (by omega)]
      congr 1; omega

theorem oddReflect_flip {n : Nat} (hn : 0 < n) (u u' : Nat → α) (z z' : Int) (hu : ∀ j < n, u' j = u (n - 1 - j))
    (hz : z' = (n : Int) - 1 - z) :
    Spec.oddReflect n u' z' = Spec.oddReflect n u z := by
  have e0 : u' 0 = u (n - 1) := by rw [hu 0 hn]; congr 1
  have e1 : u' (n - 1) = u 0 := by rw [hu (n - 1) (by omega)]; congr 1; omega
  simp only [Spec.oddReflect]
  by_cases hn1 : n = 1
  · rw [if_pos hn1, if_pos hn1, hu 0 (by omega), show n - 1 - 0 = 0 by omega]
  · rw [if_neg hn1, if_neg hn1]
    have h1 := Int.emod_nonneg z (show ((2 * (n - 1) : Nat) : Int) ≠ 0 by omega)
    have h2 := Int.emod_lt_of_pos z (show (0 : Int) < (2 * (n - 1) : Nat) by omega)
    have h := flip_whole (n := n) (by omega) hz
    have h4 : ((2 * (n - 1) : Nat) : Int) = 2 * ((n : Int) - 1) := by omega
    rw [e0, e1]
    generalize z % (2 * (n - 1) : Nat) = r at *
    generalize z' % (2 * (n - 1) : Nat) = r' at *
    generalize z / (2 * (n - 1) : Nat) = q at *
    generalize z' / (2 * (n - 1) : Nat) = q' at *
    split_ifs at h with hc
    · rw [if_pos (by omega), if_pos (by omega), hu _ (by omega), h.2, show n - 1 - r'.toNat = r.toNat by omega]
      push_cast
      ring
    · rw [if_neg (by omega), if_neg (by omega), hu _ (by omega), h.2, show n - 1 - (2 * (n - 1) - r'.toNat) = 2 * (n - 1) - r.toNat by omega]
      push_cast
      ring

theorem border_flip {st : Stat} {wb wa : Option Int} {n : Nat} (hn : 0 < n) (u u' : Nat → α) (z z' : Int) (hu : ∀ j < n, u' j = u (n - 1 - j))
    (hz : z' = (n : Int) - 1 - z) :
    Spec.border (statVal st) wa wb n u' z' = Spec.border (statVal st) wb wa n u z := by
  have hwa := window_le (n := n) wa
  have hwb := window_le (n := n) wb
  have pa := window_pos hn wa
  have pb := window_pos hn wb
  simp only [Spec.border]
  split_ifs with h1 h2 h3 h4 h5 h6 h7
  · omega
  · omega
  · apply statVal_perm
    · have e : (List.range (Spec.window n wa)).map u' =
          (List.range (Spec.window n wa)).map fun j => (fun j => u (n - Spec.window n wa + j)) (Spec.window n wa - 1 - j) := by
        apply List.map_congr_left
        intro j hj
        have := List.mem_range.1 hj
        rw [hu _ (by omega)]
        simp only
        congr 1
        omega
      rw [e]
      exact reverse_map_range _ fun j => u (n - Spec.window n wa + j)
    · simp only [ne_eq, List.map_eq_nil_iff, List.range_eq_nil]; omega
  · omega
  · exact inside_flip u u' z z' hu hz (by omega) (by omega)
  · omega
  · apply statVal_perm
    · have e : ((List.range (Spec.window n wb)).map fun j => u' (n - Spec.window n wb + j)) =
          (List.range (Spec.window n wb)).map fun j => u (Spec.window n wb - 1 - j) := by
        apply List.map_congr_left
        intro j hj
        have := List.mem_range.1 hj
        rw [hu _ (by omega)]
        congr 1
        omega
      rw [e]
      exact reverse_map_range _ u
    · simp only [ne_eq, List.map_eq_nil_iff, List.range_eq_nil]; omega
  · omega
  · omega

/-- the rule of the exchanged settings on the reversed signal is the rule on the signal, seen from the other end -/
theorem rule_mirror {s : AxisPad α} {E : Ext α} (h : s.rule? = some E) {n : Nat} (hn : 0 < n)
    (hp : s.mode.isPeriodize = true → n % 2 = 0) :
    ∃ E', s.mirrored.rule? = some E' ∧ ∀ (u u' : Nat → α) (z z' : Int), (∀ j < n, u' j = u (n - 1 - j)) → z' = (n : Int) - 1 - z →
      E' n u' z' = E n u z := by
  obtain ⟨b, a, m, cv, ev, sl⟩ := s
  cases m <;> simp only [AxisPad.rule?, Option.some.injEq, reduceCtorEq] at h <;> subst h <;>
    refine ⟨_, rfl, ?_⟩ <;> intro u u' z z' hu hz
  · exact replicate_flip hn u u' z z' hu hz
  · exact smooth_flip hn u u' z z' hu hz
  · exact circular_flip hn u u' z z' hu hz
  · have := hp rfl
    simp only [Spec.periodize, if_pos this]
    exact circular_flip hn u u' z z' hu hz
  · exact symmetric_flip hn u u' z z' hu hz
  · exact reflect_flip hn u u' z z' hu hz
  · exact antisymmetric_flip hn u u' z z' hu hz
  · exact oddReflect_flip hn u u' z z' hu hz
  · exact oddSymmetric_flip hn u u' z z' hu hz
  · exact border_flip hn u u' z z' hu hz
  · exact constant_flip hn u u' z z' hu hz
  · exact constant_flip hn u u' z z' hu hz
  · exact linearRamp_flip hn u u' z z' hu hz

/-! ## padding -/

theorem mirrored_rule_none {s : AxisPad α} (h : s.rule? = none) : s.mirrored.rule? = none := by
  obtain ⟨b, a, m, cv, ev, sl⟩ := s
  cases m <;> simp_all [AxisPad.rule?, AxisPad.mirrored]

theorem extended_get {E : Ext α} {d b a : Nat} {x : Tensor α} {ix : List Nat} (h : InB (extendAxis E d b a x).shape ix) :
    (extendAxis E d b a x).get ix = E (x.shape.getD d 0) (fun j => x.get (ix.set d j)) ((ix.getD d 0 : Int) - b) := get_ofFn h

theorem extended_shape {E : Ext α} {d b a : Nat} {x : Tensor α} :
    (extendAxis E d b a x).shape = x.shape.set d (b + x.shape.getD d 0 + a) := rfl

theorem padStep_flip_self {x : Tensor α} {d : Nat} {s : AxisPad α} (hd : d < x.ndim)
    (hs : ¬ (s.before = 0 ∧ s.after = 0) → 0 < x.shape.getD d 0 ∧ (s.mode.isPeriodize = true → x.shape.getD d 0 % 2 = 0)) :
    padStep (flipped d x) (d, s.mirrored) = flipped d (padStep x (d, s)) := by
  by_cases hz : s.before = 0 ∧ s.after = 0
  · have hz' : s.mirrored.before = 0 ∧ s.mirrored.after = 0 := ⟨hz.2, hz.1⟩
    simp only [padStep, if_pos hz, if_pos hz']
  have hz' : ¬ (s.mirrored.before = 0 ∧ s.mirrored.after = 0) := fun e => hz ⟨e.2, e.1⟩
  obtain ⟨hn, hp⟩ := hs hz
  cases hr : s.rule? with
  | none =>
    simp only [padStep, if_neg hz, if_neg hz', hr, mirrored_rule_none hr]
  | some E =>
    obtain ⟨E', hE', hl⟩ := rule_mirror hr hn hp
    have ht : s.total (x.shape.getD d 0) = s.after := by
      rw [AxisPad.total, if_neg hz]
      split_ifs with h
      · rw [hp h, Nat.add_zero]
      · rw [Nat.add_zero]
    have ht' : s.mirrored.total (x.shape.getD d 0) = s.before := by
      rw [AxisPad.total, if_neg hz']
      show s.before + (if s.mode.isPeriodize = true then x.shape.getD d 0 % 2 else 0) = s.before
      split_ifs with h
      · rw [hp h, Nat.add_zero]
      · rw [Nat.add_zero]
    simp only [padStep, if_neg hz, if_neg hz', hr, hE', flipped_shape, ht, ht']
    have hb' : s.mirrored.before = s.after := rfl
    rw [hb']
    have hsh : (extendAxis E' d s.after s.before (flipped d x)).shape = (flipped d (extendAxis E d s.before s.after x)).shape := by
      show x.shape.set d (s.after + x.shape.getD d 0 + s.before) = x.shape.set d (s.before + x.shape.getD d 0 + s.after)
      congr 1; omega
    apply ext_get hsh
    intro ix hix
    have hix1 : InB (x.shape.set d (s.after + x.shape.getD d 0 + s.before)) ix := hix
    have hix2 : InB (extendAxis E d s.before s.after x).shape ix := by rw [hsh] at hix; exact hix
    have hdl : d < ix.length := by rw [hix1.length_eq, List.length_set]; exact hd
    have hlt := hix1.lt (k := d) (by rw [List.length_set]; exact hd)
    rw [getD_set_self _ _ _ _ hd] at hlt
    rw [flipped_get hix2, extended_get hix, extended_get (flip_inB hix2)]
    simp only [flipped_shape, extended_shape, List.set_set]
    rw [getD_set_self _ _ _ _ hdl, getD_set_self _ _ _ _ hd]
    apply hl
    · intro j hj
      rw [flipped_get (hix1.set' hj |> fun h => by rwa [List.set_set, set_getD_self] at h), List.set_set,
        getD_set_self _ _ _ _ hdl]
    · omega

theorem padStep_flip_other {x : Tensor α} {d : Nat} {o : Nat × AxisPad α} (ho : o.1 < x.ndim) (hne : o.1 ≠ d)
    (hn : ¬ (o.2.before = 0 ∧ o.2.after = 0) → 0 < x.shape.getD o.1 0) :
    padStep (flipped d x) o = flipped d (padStep x o) := by
  by_cases hz : o.2.before = 0 ∧ o.2.after = 0
  · simp only [padStep, if_pos hz]
  cases hr : o.2.rule? with
  | none => simp only [padStep, if_neg hz, hr]
  | some E =>
    simp only [padStep, if_neg hz, hr, flipped_shape]
    apply ext_get (show (extendAxis E o.1 o.2.before (o.2.total (x.shape.getD o.1 0)) (flipped d x)).shape =
      (flipped d (extendAxis E o.1 o.2.before (o.2.total (x.shape.getD o.1 0)) x)).shape from rfl)
    intro ix hix
    have hix1 : InB (extendAxis E o.1 o.2.before (o.2.total (x.shape.getD o.1 0)) x).shape ix := hix
    have hol : o.1 < ix.length := by rw [hix1.length_eq, extended_shape, List.length_set]; exact ho
    rw [flipped_get hix1, extended_get hix, extended_get (flip_inB hix1)]
    simp only [flipped_shape, extended_shape]
    rw [getD_set_ne _ _ _ _ _ hne, getD_set_ne _ _ _ _ _ (Ne.symm hne)]
    apply rule_local hr (hn hz)
    intro j hj
    have hin : InB x.shape (ix.set o.1 j) := by
      have := hix1.set' (d := o.1) hj
      rwa [extended_shape, List.set_set, set_getD_self] at this
    rw [flipped_get hin, getD_set_ne _ _ _ _ _ (Ne.symm hne), List.set_comm _ _ hne]

theorem padSeq_flip {d : Nat} : ∀ {ops : List (Nat × AxisPad α)} {x : Tensor α}, OpsOK ops → (ops.map Prod.fst).Nodup → (∀ o ∈ ops, o.1 < x.ndim) →
    (∀ o ∈ ops, ¬ (o.2.before = 0 ∧ o.2.after = 0) → 0 < x.shape.getD o.1 0 ∧
      (o.1 = d → o.2.mode.isPeriodize = true → x.shape.getD o.1 0 % 2 = 0)) →
    padSeq (flipped d x) (mirrorAt d ops) = flipped d (padSeq x ops)
  | [], _, _, _, _, _ => rfl
  | o :: ops, x, hok, hnd, hlt, hn => by
    have hnd' := List.nodup_cons.1 (show (o.1 :: ops.map Prod.fst).Nodup from hnd)
    have e : padStep (flipped d x) (if o.1 = d then (o.1, o.2.mirrored) else o) = flipped d (padStep x o) := by
      split_ifs with hd
      · subst hd
        exact padStep_flip_self (hlt o (by simp)) fun hz => ⟨(hn o (by simp) hz).1, (hn o (by simp) hz).2 rfl⟩
      · exact padStep_flip_other (hlt o (by simp)) hd fun hz => (hn o (by simp) hz).1
    have hsh := padStep_shape (x := x) (hok o (by simp))
    show padSeq (padStep (flipped d x) (if o.1 = d then (o.1, o.2.mirrored) else o)) (mirrorAt d ops) = flipped d (padSeq (padStep x o) ops)
    rw [e]
    apply padSeq_flip (fun q hq => hok q (by simp [hq])) hnd'.2
    · intro q hq
      have := hlt q (by simp [hq])
      simpa [Tensor.ndim, hsh] using this
    · intro q hq hz
      have hne : q.1 ≠ o.1 := fun e => hnd'.1 (List.mem_map.2 ⟨q, hq, e⟩)
      rw [hsh, getD_set_ne _ _ _ _ _ hne]
      exact hn q (by simp [hq]) hz

end

/-! ## pooling -/

section
variable [Field α]

theorem slide_flip_self {x : Tensor α} {d : Nat} {w : List α} {s : Nat} (hd : d < x.ndim) (hs : 0 < s) (hw : w.length ≤ x.shape.getD d 0)
    (hdiv : (x.shape.getD d 0 - w.length) % s = 0) : slide (flipped d x) ⟨d, w.reverse, s⟩ = flipped d (slide x ⟨d, w, s⟩) := by
  by_cases hk : w = []
  · simp [slide, hk]
  have hk' : w.reverse ≠ [] := by simpa using hk
  have hwp : 0 < w.length := List.length_pos_iff.2 hk
  have hcount := windowCount_pos hs hwp hw
  have hdvd : (x.shape.getD d 0 - w.length) / s * s = x.shape.getD d 0 - w.length := Nat.div_mul_cancel (Nat.dvd_of_mod_eq_zero hdiv)
  have hsh : (slide (flipped d x) ⟨d, w.reverse, s⟩).shape = (flipped d (slide x ⟨d, w, s⟩)).shape := by
    rw [flipped_shape, slide_shape, slide_shape]
    simp only [if_neg hk, if_neg hk', flipped_shape, List.length_reverse]
  apply ext_get hsh
  intro ix hix
  have hix1 : InB (slide x ⟨d, w, s⟩).shape ix := by rw [hsh] at hix; exact hix
  have hix2 : InB (x.shape.set d (windowCount (x.shape.getD d 0) w.length s 1)) ix := by
    have := hix1
    rw [slide_shape, if_neg hk] at this
    exact this
  have hdl : d < ix.length := by rw [hix2.length_eq, List.length_set]; exact hd
  have hlt := hix2.lt (k := d) (by rw [List.length_set]; exact hd)
  rw [getD_set_self _ _ _ _ hd] at hlt
  have hsz : (slide x ⟨d, w, s⟩).shape.getD d 0 = (x.shape.getD d 0 - w.length) / s + 1 := by
    rw [slide_shape, if_neg hk]
    simp only
    rw [getD_set_self _ _ _ _ hd, hcount]
  rw [flipped_get hix1, slide_get hk' hix, slide_get hk (flip_inB hix1), hsz]
  simp only [List.length_reverse, List.set_set]
  rw [getD_set_self _ _ _ _ hdl]
  set t := ix.getD d 0
  set q := (x.shape.getD d 0 - w.length) / s
  have ht : t ≤ q := by omega
  have e1 : ((List.range w.length).map fun j => w.reverse.getD j 0 * (flipped d x).get (ix.set d (t * s + j))) =
      (List.range w.length).map fun j => (fun i => w.getD i 0 * x.get (ix.set d ((q + 1 - 1 - t) * s + i))) (w.length - 1 - j) := by
    apply List.map_congr_left
    intro j hj
    have hj := List.mem_range.1 hj
    have hpos : t * s + j < x.shape.getD d 0 := window_lt hs hlt hj
    have hin : InB x.shape (ix.set d (t * s + j)) := by
      have := hix2.set' (d := d) hpos
      rwa [List.set_set, set_getD_self] at this
    rw [flipped_get hin, List.set_set, getD_set_self _ _ _ _ hdl]
    have e2 : w.reverse.getD j 0 = w.getD (w.length - 1 - j) 0 := by
      rw [List.getD_eq_getElem?_getD, List.getElem?_reverse hj, List.getD_eq_getElem?_getD]
    have e3 : x.shape.getD d 0 - 1 - (t * s + j) = (q + 1 - 1 - t) * s + (w.length - 1 - j) := by
      have : (q + 1 - 1 - t) * s = q * s - t * s := by rw [Nat.add_sub_cancel, Nat.sub_mul]
      have : t * s ≤ q * s := Nat.mul_le_mul_right _ ht
      omega
    rw [e2, e3]
  rw [e1]
  exact reverse_sum w.length fun i => w.getD i 0 * x.get (ix.set d ((q + 1 - 1 - t) * s + i))

theorem slide_flip_other {x : Tensor α} {d : Nat} {o : PoolOp α} (ho : o.kernel ≠ [] → o.axis < x.ndim) (hs : o.kernel ≠ [] → 0 < o.stride)
    (hne : o.axis ≠ d) : slide (flipped d x) o = flipped d (slide x o) := by
  by_cases hk : o.kernel = []
  · simp [slide, hk]
  have hsh : (slide (flipped d x) o).shape = (flipped d (slide x o)).shape := by
    rw [flipped_shape, slide_shape, slide_shape]
    rfl
  apply ext_get hsh
  intro ix hix
  have hix1 : InB (slide x o).shape ix := by rw [hsh] at hix; exact hix
  rw [flipped_get hix1, slide_get hk hix, slide_get hk (flip_inB hix1)]
  congr 1
  apply List.map_congr_left
  intro j hj
  have hj := List.mem_range.1 hj
  have hin := slide_inB (hs hk) (ho hk) hk hix1 hj
  rw [flipped_get hin, getD_set_ne _ _ _ _ _ hne, getD_set_ne _ _ _ _ _ (Ne.symm hne), List.set_comm _ _ hne]
  rw [slide_shape, if_neg hk, getD_set_ne _ _ _ _ _ (Ne.symm hne)]

theorem poolSeq_flip {d : Nat} : ∀ {ops : List (PoolOp α)} {x : Tensor α}, PoolOps x ops →
    (∀ o ∈ ops, o.axis = d → o.kernel ≠ [] → (x.shape.getD d 0 - o.kernel.length) % o.stride = 0) →
    poolSeq (flipped d x) (reverseAt d ops) = flipped d (poolSeq x ops)
  | [], _, _, _ => rfl
  | o :: ops, x, h, hdiv => by
    have hnd := List.nodup_cons.1 (show (o.axis :: ops.map (·.axis)).Nodup from h.nodup)
    have e : slide (flipped d x) (if o.axis = d then ⟨o.axis, o.kernel.reverse, o.stride⟩ else o) = flipped d (slide x o) := by
      split_ifs with hd
      · subst hd
        by_cases hk : o.kernel = []
        · simp [slide, hk]
        · exact slide_flip_self (h.axis o (by simp) hk) (h.stride o (by simp) hk) (h.fits o (by simp) hk) (hdiv o (by simp) rfl hk)
      · exact slide_flip_other (h.axis o (by simp)) (h.stride o (by simp)) hd
    show poolSeq (slide (flipped d x) (if o.axis = d then ⟨o.axis, o.kernel.reverse, o.stride⟩ else o)) (reverseAt d ops) =
      flipped d (poolSeq (slide x o) ops)
    rw [e]
    apply poolSeq_flip h.tail
    intro q hq hqd hk
    have hne : d ≠ o.axis := fun e => hnd.1 (List.mem_map.2 ⟨q, hq, by rw [hqd, e]⟩)
    have : (slide x o).shape.getD d 0 = x.shape.getD d 0 := by
      rw [slide_shape]
      split_ifs
      · rfl
      · exact getD_set_ne _ _ _ _ _ hne
    rw [this]
    exact hdiv q (by simp [hq]) hqd hk

end
end TI
