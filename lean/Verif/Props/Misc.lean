import Verif.Model.Misc
import Verif.Spec.Misc
import Verif.Proofs.Edges
import Mathlib.Algebra.Order.Field.Rat
import Mathlib.Tactic.NormNum
import Mathlib.Tactic.Ring

/-!
# Polynomials: C63, C64
-/

namespace TI
open Tensor Spec

section
variable {α : Type} [CommSemiring α]

theorem bop_same' {β γ δ : Type} [Zero β] [Zero γ] {f : β → γ → δ} (S : List Nat) (u : List Nat → β) (v : List Nat → γ) :
    bop f (ofFn S u) (ofFn S v) = .ok (ofFn S fun ix => f (u ix) (v ix)) := by
  rw [bop_of_bshape (show bshape (ofFn S u).shape (ofFn S v).shape = some S from bshape_self S)]
  congr 1
  apply ofFn_congr
  intro ix hix
  rw [shape_ofFn, shape_ofFn, bidx_self hix, get_ofFn hix, get_ofFn hix]

theorem polyLoop_eq (S : List Nat) (u : List Nat → α) : ∀ (ws : List α) (k : Nat) (acc : Option (List Nat → α)),
    polyLoop (ofFn S u) ws (acc.map (ofFn S)) (ofFn S fun ix => u ix ^ (k + 1)) =
      .ok (if ws = [] then acc.map (ofFn S) else some (ofFn S fun ix =>
        (acc.getD fun _ => 0) ix + ((List.range ws.length).map fun i => ws.getD i 0 * u ix ^ (k + 1 + i)).sum))
  | [], k, acc => by simp [polyLoop]
  | w :: ws, k, acc => by
    have hy : (match acc.map (ofFn S) with
        | none => pure ((ofFn S fun ix => u ix ^ (k + 1)).map (w * ·))
        | some y => bop (fun a b => a + w * b) y (ofFn S fun ix => u ix ^ (k + 1)) : Except Err (Tensor α)) =
        .ok (ofFn S fun ix => (acc.getD fun _ => 0) ix + w * u ix ^ (k + 1)) := by
      cases acc with
      | none => simp [map_ofFn, pure, Except.pure]
      | some y => simp only [Option.map_some, Option.getD_some]; rw [bop_same']
    have hx : (if ws.isEmpty then pure (ofFn S fun ix => u ix ^ (k + 1)) else
        bop (· * ·) (ofFn S fun ix => u ix ^ (k + 1)) (ofFn S u) : Except Err (Tensor α)) =
        .ok (if ws = [] then ofFn S fun ix => u ix ^ (k + 1) else ofFn S fun ix => u ix ^ (k + 1 + 1)) := by
      cases ws with
      | nil => rfl
      | cons v vs => simp only [List.isEmpty_cons, Bool.false_eq_true, if_false, reduceCtorEq]; rw [bop_same']; simp [pow_succ]
    have hstep : polyLoop (ofFn S u) (w :: ws) (acc.map (ofFn S)) (ofFn S fun ix => u ix ^ (k + 1)) =
        polyLoop (ofFn S u) ws (some (ofFn S fun ix => (acc.getD fun _ => 0) ix + w * u ix ^ (k + 1)))
          (if ws = [] then ofFn S fun ix => u ix ^ (k + 1) else ofFn S fun ix => u ix ^ (k + 1 + 1)) := by
      conv_lhs => unfold polyLoop
      refine (congrArg (fun r => Except.bind r _) hy).trans ?_
      exact congrArg (fun r => Except.bind r _) hx
    rw [hstep]
    cases ws with
    | nil => simp [polyLoop]
    | cons v vs =>
      have := polyLoop_eq S u (v :: vs) (k + 1) (some fun ix => (acc.getD fun _ => 0) ix + w * u ix ^ (k + 1))
      simp only [Option.map_some, reduceCtorEq, if_false] at this ⊢
      rw [this]
      congr 2
      apply ofFn_congr
      intro ix _
      simp only [Option.getD_some]
      rw [List.length_cons (a := w), List.range_succ_eq_map, List.map_cons, List.sum_cons, List.map_map, ← add_assoc]
      simp only [List.getD_cons_zero, Nat.add_zero]
      congr 2
      apply List.map_congr_left
      intro i _
      simp only [Function.comp, List.getD_cons_succ]
      congr 2
      omega

theorem polyValue_append (ws : List α) (b v : α) :
    polyValue (ws.reverse ++ [b]) v = ((List.range ws.length).map fun i => ws.getD i 0 * v ^ (0 + 1 + i)).sum + b := by
  have hl : (ws.reverse ++ [b]).length = ws.length + 1 := by simp
  rw [polyValue, hl, List.range_succ_eq_map, List.map_cons, List.sum_cons, List.map_map, add_comm]
  congr 1
  · congr 1
    apply List.map_congr_left
    intro i hi
    have hi := List.mem_range.1 hi
    simp only [Function.comp, Nat.zero_add]
    congr 1
    · rw [List.getD_eq_getElem?_getD, List.getElem?_append_left (by simp; omega), List.getElem?_reverse (by omega),
        ← List.getD_eq_getElem?_getD]
      congr 1
      omega
    · congr 1; omega
  · simp

/-- **C63.** With at least two coefficients `poly1d` evaluates the polynomial at every entry. -/
theorem C63_poly1d (x : Tensor α) (p : List α) (hp : 2 ≤ p.length) :
    poly1d x p = .ok (x.map (polyValue p)) := by
  obtain ⟨ws, b, rfl⟩ : ∃ (ws : List α) (b : α), p = ws.reverse ++ [b] := by
    cases h : p.reverse with
    | nil => rw [List.reverse_eq_nil_iff] at h; subst h; simp at hp
    | cons b ws => exact ⟨ws, b, by rw [← p.reverse_reverse, h, List.reverse_cons]⟩
  have hne : ws ≠ [] := by rintro rfl; simp at hp
  have := polyLoop_eq x.shape x.get ws 0 none
  simp only [Option.map_none, pow_one, Nat.zero_add, Option.getD_none, zero_add, if_neg hne] at this
  rw [← Tensor.eq_ofFn_get] at this
  simp only [poly1d, List.reverse_append, List.reverse_singleton, List.reverse_reverse, List.singleton_append, bind, Except.bind, this]
  congr 1
  conv_rhs => rw [x.eq_ofFn_get, map_ofFn]
  rw [map_ofFn]
  apply ofFn_congr
  intro ix _
  rw [polyValue_append]

/-- **C64** is false: a constant polynomial raises TypeError (`None += a_0`) on every tensor. -/
theorem C64_constant_false (x : Tensor α) (a : α) : poly1d x [a] = .error .type := by
  simp [poly1d, polyLoop, bind, Except.bind]

/-- **C64**, what holds instead: the constant is obtained with an explicit zero coefficient of the first power, `poly1d(x, [0, a_0])`.
Missing: the call `poly1d(x, [a_0])` itself, which fails. -/
theorem C64_constant_partial (x : Tensor α) (a : α) : poly1d x [0, a] = .ok (x.map fun _ => a) := by
  rw [C63_poly1d x [0, a] (by simp)]
  congr 2
  funext v
  simp [polyValue, List.range_succ]

/-- **C63**: no coefficients are an IndexError. -/
theorem C63_empty (x : Tensor α) : poly1d x [] = .error .index := rfl

end

/-- C63: 2 x^2 - 3 x + 1 at three points -/
example : poly1d (Tensor.vec [0, 1, (5 : ℚ)]) [2, -3, 1] = .ok (Tensor.vec [1, 0, 36]) := by decide +kernel

/-- C63: the hypotheses hold for this call -/
example : poly1d (Tensor.vec [0, 1, (5 : ℚ)]) [2, -3, 1] = .ok ((Tensor.vec [0, 1, (5 : ℚ)]).map (polyValue [2, -3, 1])) :=
  C63_poly1d _ _ (by simp)

end TI
