import Verif.Spec.Extension
import Mathlib.Tactic.Ring
import Mathlib.Tactic.Linarith
import Mathlib.Tactic.SplitIfs
import Mathlib.Tactic.Abel
import Mathlib.Algebra.Field.Basic
import Mathlib.Algebra.Ring.Int.Defs

/-! Laws of the 1-d extensions (periodicity, mirror laws, agreement with the signal). -/

set_option linter.unusedSimpArgs false

namespace TI.Spec

variable {α : Type}

theorem emod_ediv_of_eq {z P q j : Int} (hP : 0 < P) (hz : z = P * q + j) (h0 : 0 ≤ j) (h1 : j < P) :
    z % P = j ∧ z / P = q := by
  have := (Int.ediv_emod_unique (a := z) (r := j) (q := q) hP).2 ⟨by omega, h0, h1⟩
  exact ⟨this.2, this.1⟩

/-- `-1 - z` modulo `P` -/
theorem mirror_half {z P : Int} (hP : 0 < P) :
    (-1 - z) % P = P - 1 - z % P ∧ (-1 - z) / P = -1 - z / P := by
  have h1 := Int.emod_nonneg z (show P ≠ 0 by omega)
  have h2 := Int.emod_lt_of_pos z hP
  have h3 := Int.emod_add_mul_ediv z P
  apply emod_ediv_of_eq hP
  · rw [show P * (-1 - z / P) + (P - 1 - z % P) = -1 - (z % P + P * (z / P)) by ring, h3]
  · omega
  · omega

/-- `-z` modulo `P` -/
theorem mirror_whole {z P : Int} (hP : 0 < P) :
    if z % P = 0 then (-z) % P = 0 ∧ (-z) / P = - (z / P)
    else (-z) % P = P - z % P ∧ (-z) / P = -1 - z / P := by
  have h1 := Int.emod_nonneg z (show P ≠ 0 by omega)
  have h2 := Int.emod_lt_of_pos z hP
  have h3 := Int.emod_add_mul_ediv z P
  split_ifs with h
  · apply emod_ediv_of_eq hP
    · rw [h] at h3
      rw [show P * (-(z / P)) + 0 = -(0 + P * (z / P)) by ring, h3]
    · omega
    · omega
  · apply emod_ediv_of_eq hP
    · rw [show P * (-1 - z / P) + (P - z % P) = -(z % P + P * (z / P)) by ring, h3]
    · omega
    · omega

theorem emod_small {z P : Int} (h0 : 0 ≤ z) (h1 : z < P) : z % P = z ∧ z / P = 0 :=
  emod_ediv_of_eq (by omega) (by ring) h0 h1

/-- `E` continues the signal -/
def IsExt (E : Ext α) (n : Nat) : Prop := ∀ u (z : Int), 0 ≤ z → z < n → E n u z = u z.toNat

theorem replicate_isExt (n : Nat) : IsExt (replicate (α := α)) n := by
  intro u z h0 h1
  simp [replicate, h1, show ¬ z < 0 by omega]

theorem circular_isExt (n : Nat) : IsExt (circular (α := α)) n := by
  intro u z h0 h1
  simp [circular, (emod_small h0 h1).1]

theorem circular_per (n : Nat) (u : Nat → α) (z k : Int) :
    circular n u (z + k * n) = circular n u z := by
  simp [circular]

theorem periodize_isExt (n : Nat) : IsExt (periodize (α := α)) n := by
  intro u z h0 h1
  rw [periodize]
  split_ifs with h
  · exact circular_isExt n u z h0 h1
  · rw [circular_isExt (n + 1) _ z h0 (by push_cast; omega), if_pos (by omega)]

theorem symmetric_isExt (n : Nat) : IsExt (symmetric (α := α)) n := by
  intro u z h0 h1
  simp only [symmetric, (emod_small (P := 2 * n) h0 (by omega)).1]
  rw [if_pos (by omega)]

theorem symmetric_per (n : Nat) (u : Nat → α) (z k : Int) :
    symmetric n u (z + k * (n + n)) = symmetric n u z := by
  have : (z + k * (n + n)) % (2 * (n : Int)) = z % (2 * n) := by
    rw [show (n : Int) + n = 2 * n by ring, Int.add_mul_emod_self_right]
  simp only [symmetric, this]

theorem symmetric_mirror {n : Nat} (hn : 0 < n) (u : Nat → α) (z : Int) :
    symmetric n u (-1 - z) = symmetric n u z := by
  have hP : (0 : Int) < 2 * n := by omega
  have h1 := Int.emod_nonneg z (show (2 * n : Int) ≠ 0 by omega)
  have h2 := Int.emod_lt_of_pos z hP
  simp only [symmetric, (mirror_half hP).1]
  generalize z % (2 * (n : Int)) = j at *
  split_ifs with h3 h4 h4
  · omega
  · congr 1; omega
  · congr 1; omega
  · omega

theorem antisymmetric_isExt [Neg α] (n : Nat) : IsExt (antisymmetric (α := α)) n := by
  intro u z h0 h1
  simp only [antisymmetric, (emod_small (P := 2 * n) h0 (by omega)).1]
  rw [if_pos (by omega)]

theorem antisymmetric_per [Neg α] (n : Nat) (u : Nat → α) (z k : Int) :
    antisymmetric n u (z + k * (n + n)) = antisymmetric n u z := by
  have : (z + k * (n + n)) % (2 * (n : Int)) = z % (2 * n) := by
    rw [show (n : Int) + n = 2 * n by ring, Int.add_mul_emod_self_right]
  simp only [antisymmetric, this]

theorem antisymmetric_mirror [Ring α] {n : Nat} (hn : 0 < n) (u : Nat → α) (z : Int) :
    antisymmetric n u (-1 - z) = - antisymmetric n u z := by
  have hP : (0 : Int) < 2 * n := by omega
  have h1 := Int.emod_nonneg z (show (2 * n : Int) ≠ 0 by omega)
  have h2 := Int.emod_lt_of_pos z hP
  simp only [antisymmetric, (mirror_half hP).1]
  generalize z % (2 * (n : Int)) = j at *
  split_ifs with h3 h4 h4
  · omega
  · rw [neg_neg]; congr 1; omega
  · congr 2; omega
  · omega

theorem reflect_isExt (n : Nat) : IsExt (reflect (α := α)) n := by
  intro u z h0 h1
  rw [reflect]
  split_ifs with h
  · congr 1; omega
  · by_cases hz : z = 0
    · subst hz; simp; omega
    · simp only [(emod_small (z := z) (P := ((2 * (n - 1) : Nat) : Int)) h0 (by omega)).1]
      rw [if_pos (by omega)]

theorem reflect_per {n : Nat} (hn : 2 ≤ n) (u : Nat → α) (z k : Int) :
    reflect n u (z + k * (n + (n - 2 : Nat))) = reflect n u z := by
  have : (z + k * (n + (n - 2 : Nat))) % ((2 * (n - 1) : Nat) : Int) = z % ((2 * (n - 1) : Nat) : Int) := by
    rw [show (n : Int) + (n - 2 : Nat) = ((2 * (n - 1) : Nat) : Int) by omega,
      Int.add_mul_emod_self_right]
  simp only [reflect, this]

theorem reflect_mirror {n : Nat} (hn : 2 ≤ n) (u : Nat → α) (z : Int) :
    reflect n u (- z) = reflect n u z := by
  have hP : (0 : Int) < ((2 * (n - 1) : Nat) : Int) := by omega
  have h1 := Int.emod_nonneg z (show ((2 * (n - 1) : Nat) : Int) ≠ 0 by omega)
  have h2 := Int.emod_lt_of_pos z hP
  have h3 := mirror_whole (z := z) hP
  have hn1 : n ≠ 1 := by omega
  simp only [reflect, hn1, if_false]
  split_ifs at h3 with h4
  · rw [h3.1, h4]
  · rw [h3.1]
    generalize z % ((2 * (n - 1) : Nat) : Int) = j at *
    split_ifs with h5 h6 h6
    · congr 1; omega
    · congr 1; omega
    · congr 1; omega
    · omega

theorem oddSymmetric_isExt [Ring α] (n : Nat) : IsExt (oddSymmetric (α := α)) n := by
  intro u z h0 h1
  have := emod_small (z := z) (P := 2 * n) h0 (by omega)
  simp only [oddSymmetric, this.1, this.2]
  rw [if_pos (by omega)]
  simp

theorem oddSymmetric_per [Ring α] {n : Nat} (hn : 0 < n) (u : Nat → α) (z k : Int) :
    oddSymmetric n u (z + k * (2 * n)) =
      oddSymmetric n u z + (k : α) * (2 * (u (n - 1) - u 0)) := by
  have h1 : (z + k * (2 * n)) % (2 * (n : Int)) = z % (2 * n) := Int.add_mul_emod_self_right _ _ _
  have h2 : (z + k * (2 * n)) / (2 * (n : Int)) = z / (2 * n) + k :=
    Int.add_mul_ediv_right _ _ (by omega)
  simp only [oddSymmetric, h1, h2, Int.cast_add, add_mul, add_assoc]

theorem oddSymmetric_mirror [Ring α] {n : Nat} (hn : 0 < n) (u : Nat → α) (z : Int) :
    oddSymmetric n u (-1 - z) = 2 * u 0 - oddSymmetric n u z := by
  have hP : (0 : Int) < 2 * n := by omega
  have h1 := Int.emod_nonneg z (show (2 * n : Int) ≠ 0 by omega)
  have h2 := Int.emod_lt_of_pos z hP
  simp only [oddSymmetric, (mirror_half hP).1, (mirror_half hP).2]
  generalize z % (2 * (n : Int)) = j at *
  generalize z / (2 * (n : Int)) = q at *
  push_cast
  split_ifs with h3 h4 h4
  · omega
  · rw [show (2 * (n : Int) - 1 - j).toNat = 2 * n - 1 - j.toNat by omega]
    simp only [two_mul, sub_mul, mul_sub, mul_add, add_mul, neg_mul, one_mul]; abel
  · rw [show 2 * n - 1 - (2 * (n : Int) - 1 - j).toNat = j.toNat by omega]
    simp only [two_mul, sub_mul, mul_sub, mul_add, add_mul, neg_mul, one_mul]; abel
  · omega

/-- the law used by `odd_symmetric_1d`: point reflection about every block boundary -/
theorem oddSymmetric_odd [Ring α] {n : Nat} (hn : 0 < n) (u : Nat → α) (k z : Int) :
    oddSymmetric n u (2 * (k * n) - 1 - z) =
      2 * oddSymmetric n u (k * n) - oddSymmetric n u z := by
  have h0 : oddSymmetric n u 0 = u 0 := by
    have := oddSymmetric_isExt n u 0 (le_refl _) (by omega); simpa using this
  have hnn : oddSymmetric n u n = u (n - 1) := by
    have h := oddSymmetric_mirror hn u (n - 1)
    have h' := oddSymmetric_per hn u (-1 - (n - 1)) 1
    rw [show (-1 - ((n : Int) - 1) + 1 * (2 * n)) = n by ring] at h'
    have h2 := oddSymmetric_isExt n u (n - 1) (by omega) (by omega)
    rw [h', h, h2]
    rw [show ((n : Int) - 1).toNat = n - 1 by omega]
    simp only [Int.cast_one, one_mul, mul_sub, two_mul]; abel
  have h1 : oddSymmetric n u (2 * (k * n) - 1 - z) =
      2 * u 0 - oddSymmetric n u z + (k : α) * (2 * (u (n - 1) - u 0)) := by
    rw [← oddSymmetric_mirror hn, ← oddSymmetric_per hn]
    congr 1; ring
  rw [h1]
  rcases Int.even_or_odd' k with ⟨c, hc | hc⟩
  · have h2 := oddSymmetric_per hn u 0 c
    rw [h0] at h2
    rw [hc, show 2 * c * (n : Int) = 0 + c * (2 * n) by ring, h2]
    push_cast
    simp only [two_mul, sub_mul, mul_sub, mul_add, add_mul]; abel
  · have h2 := oddSymmetric_per hn u n c
    rw [hnn] at h2
    rw [hc, show (2 * c + 1) * (n : Int) = n + c * (2 * n) by ring, h2]
    push_cast
    simp only [two_mul, sub_mul, mul_sub, mul_add, add_mul, one_mul]; abel

theorem oddReflect_isExt [Ring α] (n : Nat) : IsExt (oddReflect (α := α)) n := by
  intro u z h0 h1
  rw [oddReflect]
  split_ifs with h
  · congr 1; omega
  · have := emod_small (z := z) (P := ((2 * (n - 1) : Nat) : Int)) h0 (by omega)
    simp only [this.1, this.2]
    rw [if_pos (by omega)]
    simp

theorem oddReflect_per [Ring α] {n : Nat} (hn : 2 ≤ n) (u : Nat → α) (z k : Int) :
    oddReflect n u (z + k * ((2 * (n - 1) : Nat) : Int)) =
      oddReflect n u z + (k : α) * (2 * (u (n - 1) - u 0)) := by
  have h1 : (z + k * ((2 * (n - 1) : Nat) : Int)) % ((2 * (n - 1) : Nat) : Int) =
      z % ((2 * (n - 1) : Nat) : Int) := Int.add_mul_emod_self_right _ _ _
  have h2 : (z + k * ((2 * (n - 1) : Nat) : Int)) / ((2 * (n - 1) : Nat) : Int) =
      z / ((2 * (n - 1) : Nat) : Int) + k := Int.add_mul_ediv_right _ _ (by omega)
  have hn1 : n ≠ 1 := by omega
  simp only [oddReflect, hn1, if_false, h1, h2, Int.cast_add, add_mul, add_assoc]

theorem oddReflect_mirror [Ring α] {n : Nat} (hn : 2 ≤ n) (u : Nat → α) (z : Int) :
    oddReflect n u (- z) = 2 * u 0 - oddReflect n u z := by
  have hP : (0 : Int) < ((2 * (n - 1) : Nat) : Int) := by omega
  have h1 := Int.emod_nonneg z (show ((2 * (n - 1) : Nat) : Int) ≠ 0 by omega)
  have h2 := Int.emod_lt_of_pos z hP
  have h3 := mirror_whole (z := z) hP
  have hn1 : n ≠ 1 := by omega
  simp only [oddReflect, hn1, if_false]
  split_ifs at h3 with h4
  · rw [h3.1, h3.2, h4]
    simp only [Int.toNat_zero, show 0 < n by omega, if_true]
    push_cast
    simp only [two_mul, neg_mul, mul_sub, mul_add]; abel
  · rw [h3.1, h3.2]
    generalize z % ((2 * (n - 1) : Nat) : Int) = j at *
    generalize z / ((2 * (n - 1) : Nat) : Int) = q at *
    push_cast
    split_ifs with h5 h6 h6
    · rw [show (2 * ((n - 1 : Nat) : Int) - j).toNat = n - 1 by omega, show j.toNat = n - 1 by omega]
      simp only [two_mul, sub_mul, mul_sub, mul_add, add_mul, neg_mul, one_mul]; abel
    · rw [show (2 * ((n - 1 : Nat) : Int) - j).toNat = 2 * (n - 1) - j.toNat by omega]
      simp only [two_mul, sub_mul, mul_sub, mul_add, add_mul, neg_mul, one_mul]; abel
    · rw [show 2 * (n - 1) - (2 * ((n - 1 : Nat) : Int) - j).toNat = j.toNat by omega]
      simp only [two_mul, sub_mul, mul_sub, mul_add, add_mul, neg_mul, one_mul]; abel
    · omega

/-- the law used by `odd_reflect_1d`: point reflection about every edge sample -/
theorem oddReflect_odd [Ring α] {n : Nat} (hn : 2 ≤ n) (u : Nat → α) (k z : Int) :
    oddReflect n u (2 * (k * (n - 1 : Nat)) - z) =
      2 * oddReflect n u (k * (n - 1 : Nat)) - oddReflect n u z := by
  have h0 : oddReflect n u 0 = u 0 := by
    have := oddReflect_isExt n u 0 (le_refl _) (by omega); simpa using this
  have hnn : oddReflect n u (n - 1 : Nat) = u (n - 1) := by
    have h2 := oddReflect_isExt n u ((n - 1 : Nat) : Int) (by omega) (by omega)
    rw [h2]; simp
  have h1 : oddReflect n u (2 * (k * (n - 1 : Nat)) - z) =
      2 * u 0 - oddReflect n u z + (k : α) * (2 * (u (n - 1) - u 0)) := by
    rw [← oddReflect_mirror hn, ← oddReflect_per hn]
    congr 1; push_cast; ring
  rw [h1]
  rcases Int.even_or_odd' k with ⟨c, hc | hc⟩
  · have h2 := oddReflect_per hn u 0 c
    rw [h0] at h2
    rw [hc, show 2 * c * ((n - 1 : Nat) : Int) = 0 + c * ((2 * (n - 1) : Nat) : Int) by push_cast; ring, h2]
    push_cast
    simp only [two_mul, sub_mul, mul_sub, mul_add, add_mul]; abel
  · have h2 := oddReflect_per hn u ((n - 1 : Nat) : Int) c
    rw [hnn] at h2
    rw [hc, show (2 * c + 1) * ((n - 1 : Nat) : Int) = ((n - 1 : Nat) : Int) + c * ((2 * (n - 1) : Nat) : Int) by
      push_cast; ring, h2]
    push_cast
    simp only [two_mul, sub_mul, mul_sub, mul_add, add_mul, one_mul]; abel

theorem smooth_isExt [Ring α] (n : Nat) : IsExt (smooth (α := α)) n := by
  intro u z h0 h1
  rw [smooth]
  split_ifs with h
  · congr 1; omega
  · omega
  · rfl

theorem constant_isExt (vb va : α) (n : Nat) : IsExt (constant vb va) n := by
  intro u z h0 h1
  simp [constant, h1, show ¬ z < 0 by omega]

theorem linearRamp_isExt [Field α] (b a : Nat) (vb va : α) (n : Nat) :
    IsExt (linearRamp b a vb va) n := by
  intro u z h0 h1
  simp [linearRamp, h1, show ¬ z < 0 by omega]

theorem border_isExt (stat : List α → α) (wb wa : Option Int) (n : Nat) :
    IsExt (border stat wb wa) n := by
  intro u z h0 h1
  simp [border, h1, show ¬ z < 0 by omega]

end TI.Spec
