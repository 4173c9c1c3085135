import Verif.Proofs.EdgeChange
import Verif.Proofs.Batch
import Verif.Props.Mse
import Verif.Props.EdgeLoss
import Mathlib.Analysis.SpecialFunctions.Log.Base

/-!
# Means of parts
-/

set_option linter.unusedSectionVars false

namespace TI
open Tensor Spec

variable {α : Type} [Field α] [LinearOrder α] [IsStrictOrderedRing α]

/-- the mean of all entries is the mean of the means over some of the axes -/
theorem meanOver_all (x : Tensor α) (ds : List Nat) :
    meanOver x (List.range x.ndim) = Tensor.scalar (Spec.mean (meanOver x ds).data) := by
  have hr : reducedAxes x.ndim (List.range x.ndim) = List.range x.shape.length := by rw [reducedAxes, ite_self, ndim]
  have e : Spec.mean (meanOver x ds).data = Spec.mean ((indices x.shape).map x.get) := mean_of_means x.shape (reducedAxes x.ndim ds) x.get
  rw [e, meanOver, hr, onKept_all]
  simp [ofFn, indices, collected_all, Tensor.scalar]

theorem sum_all (S ds : List Nat) (u : List Nat → α) :
    ((indices (onKept ds S)).map fun jx => ((collected S ds jx).map u).sum).sum = ((indices S).map u).sum :=
  sum_parts (onKept ds) u (indices_nodup (onKept ds S)) (L := indices S) fun _ hix => mem_indices.2 (onKept_inB (mem_indices.1 hix))

/-- the mean over a batch is the mean over its members -/
theorem mean_batch (n : Nat) (S : List Nat) (u : List Nat → α) :
    Spec.mean ((indices (n :: S)).map u) = Spec.mean ((List.range n).map fun i => Spec.mean ((indices S).map fun ix => u (i :: ix))) := by
  have hs : ((indices (n :: S)).map u).sum = ((List.range n).map fun i => ((indices S).map fun ix => u (i :: ix)).sum).sum := by
    rw [indices]
    induction List.range n with
    | nil => simp
    | cons i l ih => simp only [List.flatMap_cons, List.map_append, List.sum_append, List.map_cons, List.sum_cons, ih, List.map_map]; rfl
  have hl : ((indices (n :: S)).length : α) = (n : α) * ((indices S).length : α) := by
    rw [indices_length, indices_length, numel, Nat.cast_mul]
  have e : ((List.range n).map fun i => Spec.mean ((indices S).map fun ix => u (i :: ix))) =
      (List.range n).map fun i => ((indices S).length : α)⁻¹ * ((indices S).map fun ix => u (i :: ix)).sum := by
    apply List.map_congr_left
    intro i _
    rw [Spec.mean, List.length_map, div_eq_inv_mul]
  rw [e, Spec.mean, Spec.mean, hs, List.length_map, List.length_map, List.length_range, hl, List.sum_map_mul_left, mul_comm (n : α), ← div_div,
    div_eq_inv_mul _ ((indices S).length : α)]

theorem mean_one (S : List Nat) (u : List Nat → α) : Spec.mean ((indices (1 :: S)).map u) = Spec.mean ((indices S).map fun ix => u (0 :: ix)) := by
  rw [mean_batch]
  simp [Spec.mean]

theorem overBoth_batch (n : Nat) (S : List Nat) (U : Nat → List Nat → α) (V : Nat → Nat → List Nat → α)
    (h : ∀ i < n, ∀ a ∈ [2, 3], ∀ ix, InB S ix → V i a (0 :: ix) = U a (i :: ix)) :
    overBoth (n :: S) U = Spec.mean ((List.range n).map fun i => overBoth (1 :: S) (V i)) := by
  have e : ∀ a ∈ [2, 3], Spec.mean ((indices (n :: S)).map (U a)) = Spec.mean ((List.range n).map fun i => Spec.mean ((indices (1 :: S)).map (V i a))) := by
    intro a ha
    rw [mean_batch]
    congr 1
    apply List.map_congr_left
    intro i hi
    rw [mean_one]
    congr 1
    apply List.map_congr_left
    intro ix hix
    exact (h i (List.mem_range.1 hi) a ha ix (mem_indices.1 hix)).symm
  rw [overBoth, e 2 (by simp), e 3 (by simp)]
  simp only [overBoth, Spec.mean, List.length_map]
  rw [← add_div, div_right_comm, ← List.sum_map_add]
  congr 1
  simp only [div_eq_mul_inv _ (2 : α)]
  rw [List.sum_map_mul_right]

theorem mean_affine {l : List (List Nat)} (hne : l ≠ []) (a b : α) (u : List Nat → α) :
    Spec.mean (l.map fun i => a + b * u i) = a + b * Spec.mean (l.map u) := by
  have hl : (l.length : α) ≠ 0 := by
    rw [Nat.cast_ne_zero]
    exact fun h => hne (List.length_eq_zero_iff.1 h)
  have hs : (l.map fun i => a + b * u i).sum = l.length * a + b * (l.map u).sum := by
    rw [List.sum_map_add, List.sum_map_mul_left]
    simp
  rw [Spec.mean, Spec.mean, hs, List.length_map, List.length_map]
  field_simp

theorem mean_sub_map (l : List (List Nat)) (u u' : List Nat → α) : Spec.mean (l.map fun i => u i - u' i) = Spec.mean (l.map u) - Spec.mean (l.map u') := by
  have hs : (l.map fun i => u i - u' i).sum = (l.map u).sum - (l.map u').sum := by
    induction l with
    | nil => simp
    | cons a l ih => simp only [List.map_cons, List.sum_cons, ih]; ring
  simp only [Spec.mean, List.length_map, hs, sub_div]

theorem mean_pos [FloorRing α] {l : List (List Nat)} (hne : l ≠ []) {u : List Nat → α} (h : ∀ i ∈ l, 0 < u i) : 0 < Spec.mean (l.map u) := by
  have hl : 0 < (l.length : α) := by
    rw [Nat.cast_pos]
    exact List.length_pos_iff.2 hne
  rw [Spec.mean, List.length_map]
  refine div_pos ?_ hl
  refine lt_of_le_of_ne (List.sum_nonneg (by
    intro a ha
    obtain ⟨i, hi, rfl⟩ := List.mem_map.1 ha
    exact (h i hi).le)) fun h0 => ?_
  have hm : Spec.mean (l.map u) = 0 := by rw [Spec.mean, ← h0, zero_div]
  obtain ⟨i, hi⟩ := List.exists_mem_of_ne_nil l hne
  exact (h i hi).ne' (mean_zero (fun i hi => (h i hi).le) hm i hi)

/-- the mean of logarithms is at most the logarithm of the mean, with equality for equal numbers only -/
theorem log_mean {l : List (List Nat)} (hne : l ≠ []) {u : List Nat → ℝ} (h : ∀ i ∈ l, 0 < u i) :
    Spec.mean (l.map fun i => Real.log (u i)) ≤ Real.log (Spec.mean (l.map u)) ∧
    (Spec.mean (l.map fun i => Real.log (u i)) = Real.log (Spec.mean (l.map u)) ↔ ∀ i ∈ l, u i = Spec.mean (l.map u)) := by
  have hm := mean_pos hne h
  set M := Spec.mean (l.map u) with hM
  have hle : ∀ i ∈ l, 0 ≤ (Real.log M - 1 + M⁻¹ * u i) - Real.log (u i) := by
    intro i hi
    have := Real.log_le_sub_one_of_pos (x := M⁻¹ * u i) (mul_pos (inv_pos.2 hm) (h i hi))
    rw [Real.log_mul (inv_ne_zero hm.ne') (h i hi).ne', Real.log_inv] at this
    linarith
  have e : Spec.mean (l.map fun i => (Real.log M - 1 + M⁻¹ * u i) - Real.log (u i)) = Real.log M - Spec.mean (l.map fun i => Real.log (u i)) := by
    rw [mean_sub_map l (fun i => Real.log M - 1 + M⁻¹ * u i), mean_affine hne, ← hM, inv_mul_cancel₀ hm.ne']
    ring
  have h0 : 0 ≤ Spec.mean (l.map fun i => (Real.log M - 1 + M⁻¹ * u i) - Real.log (u i)) := mean_nonneg (by
    intro a ha
    obtain ⟨i, hi, rfl⟩ := List.mem_map.1 ha
    exact hle i hi)
  refine ⟨by linarith, fun heq i hi => ?_, fun hall => ?_⟩
  · have hz := mean_zero hle (by rw [e, heq, sub_self]) i hi
    by_contra hc
    have hne1 : M⁻¹ * u i ≠ 1 := fun h1 => hc (by field_simp at h1; linarith)
    have := Real.log_lt_sub_one_of_pos (x := M⁻¹ * u i) (mul_pos (inv_pos.2 hm) (h i hi)) hne1
    rw [Real.log_mul (inv_ne_zero hm.ne') (h i hi).ne', Real.log_inv] at this
    linarith
  · apply mean_constant (by simpa using hne)
    intro a ha
    obtain ⟨i, hi, rfl⟩ := List.mem_map.1 ha
    rw [hall i hi]

/-- some number is at least the mean -/
theorem exists_ge_mean [FloorRing α] {l : List (List Nat)} (hne : l ≠ []) (u : List Nat → α) : ∃ i ∈ l, Spec.mean (l.map u) ≤ u i := by
  by_contra hc
  push Not at hc
  have h1 : Spec.mean (l.map fun i => Spec.mean (l.map u) - u i) = 0 := by
    rw [mean_sub_map l (fun _ => Spec.mean (l.map u)), mean_constant (c := Spec.mean (l.map u)) (by simpa using hne) (by simp), sub_self]
  exact (mean_pos hne fun i hi => sub_pos.2 (hc i hi)).ne' h1

end TI
