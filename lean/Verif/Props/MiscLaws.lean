import Verif.Props.Misc
import Verif.Props.Shapes
import Verif.Proofs.Reduce

/-!
# Laws of outer products and polynomials: C123
-/

set_option linter.unusedSectionVars false

namespace TI
open Tensor Spec

section
variable {α : Type} [CommRing α]

theorem sum_flatMap' {β : Type} (f : β → List α) : ∀ l : List β, (l.flatMap f).sum = (l.map fun b => (f b).sum).sum
  | [] => by simp
  | b :: l => by rw [List.flatMap_cons, List.sum_append, sum_flatMap' f l, List.map_cons, List.sum_cons]

theorem indices_append : ∀ s t : List Nat, indices (s ++ t) = (indices s).flatMap fun ix => (indices t).map fun jx => ix ++ jx
  | [], t => by simp [indices]
  | n :: s, t => by
    simp only [List.cons_append, indices, indices_append s t, List.flatMap_assoc, List.map_flatMap, List.flatMap_map, List.map_map]
    rfl

/-- **C123.** The sum of all entries of an outer product is the product of the sums: kernels that sum to one give a kernel that sums to one. -/
theorem C123_outer_sum (u v : Tensor α) : ∃ w, outer u v = .ok w ∧ w.data.sum = u.data.sum * v.data.sum := by
  obtain ⟨w, h1, h2, h3⟩ := C66_outer u v
  refine ⟨w, h1, ?_⟩
  rw [data_eq_map_get w, data_eq_map_get u, data_eq_map_get v, h2, indices_append, List.map_flatMap, sum_flatMap', ← List.sum_map_mul_right]
  congr 1
  apply List.map_congr_left
  intro ix hix
  rw [← List.sum_map_mul_left, List.map_map]
  congr 1
  apply List.map_congr_left
  intro jx hjx
  exact h3 ix jx (mem_indices.1 hix) (mem_indices.1 hjx)

/-- **C123.** The outer product is linear in each factor. -/
theorem C123_outer_linear (s : List Nat) (f g : List Nat → α) (v : Tensor α) (a b : α) : ∃ p q r,
    outer (ofFn s f) v = .ok p ∧ outer (ofFn s g) v = .ok q ∧ outer (ofFn s fun ix => a * f ix + b * g ix) v = .ok r ∧
    r.shape = s ++ v.shape ∧ ∀ ix, InB (s ++ v.shape) ix → r.get ix = a * p.get ix + b * q.get ix := by
  obtain ⟨p, p1, _, p3⟩ := C66_outer (ofFn s f) v
  obtain ⟨q, q1, _, q3⟩ := C66_outer (ofFn s g) v
  obtain ⟨r, r1, r2, r3⟩ := C66_outer (ofFn s fun ix => a * f ix + b * g ix) v
  refine ⟨p, q, r, p1, q1, r1, r2, fun ix hix => ?_⟩
  obtain ⟨h1, h2, h3⟩ := hix.split
  rw [h3, p3 _ _ h1 h2, q3 _ _ h1 h2, r3 _ _ h1 h2, get_ofFn h1, get_ofFn h1, get_ofFn h1]
  ring

/-- **C123.** The same for the other factor. -/
theorem C123_outer_linear_right (u : Tensor α) (s : List Nat) (f g : List Nat → α) (a b : α) : ∃ p q r,
    outer u (ofFn s f) = .ok p ∧ outer u (ofFn s g) = .ok q ∧ outer u (ofFn s fun ix => a * f ix + b * g ix) = .ok r ∧
    r.shape = u.shape ++ s ∧ ∀ ix, InB (u.shape ++ s) ix → r.get ix = a * p.get ix + b * q.get ix := by
  obtain ⟨p, p1, _, p3⟩ := C66_outer u (ofFn s f)
  obtain ⟨q, q1, _, q3⟩ := C66_outer u (ofFn s g)
  obtain ⟨r, r1, r2, r3⟩ := C66_outer u (ofFn s fun ix => a * f ix + b * g ix)
  refine ⟨p, q, r, p1, q1, r1, r2, fun ix hix => ?_⟩
  obtain ⟨h1, h2, h3⟩ := hix.split
  rw [h3, p3 _ _ h1 h2, q3 _ _ h1 h2, r3 _ _ h1 h2, get_ofFn h2, get_ofFn h2, get_ofFn h2]
  ring

/-! ## polynomials -/

/-- Horner's rule -/
theorem polyValue_horner (p : List α) (v : α) : polyValue p v = p.foldl (fun acc c => acc * v + c) 0 := by
  have key : ∀ (p : List α) (acc : α), p.foldl (fun acc c => acc * v + c) acc = acc * v ^ p.length + polyValue p v := by
    intro p
    induction p with
    | nil => intro acc; simp [polyValue]
    | cons c p ih =>
      intro acc
      rw [List.foldl_cons, ih]
      have : polyValue (c :: p) v = c * v ^ p.length + polyValue p v := by
        simp only [polyValue, List.length_cons, Nat.add_sub_cancel]
        rw [List.range_succ, List.map_append, List.sum_append]
        simp only [List.map_cons, List.map_nil, List.sum_cons, List.sum_nil, Nat.sub_self, add_zero]
        rw [add_comm]
        congr 1
        congr 1
        apply List.map_congr_left
        intro i hi
        have := List.mem_range.1 hi
        rw [show p.length - i = (p.length - 1 - i) + 1 by omega, List.getD_cons_succ]
      rw [this, List.length_cons, pow_succ]
      ring
  rw [key p 0]
  ring

/-- **C123.** `poly1d` computes Horner's rule. -/
theorem C123_horner (x : Tensor α) (p : List α) (hp : 2 ≤ p.length) :
    poly1d x p = .ok (x.map fun v => p.foldl (fun acc c => acc * v + c) 0) := by
  rw [C63_poly1d x p hp]
  congr 2
  funext v
  exact polyValue_horner p v

/-- **C123.** Leading zero coefficients do not matter. -/
theorem C123_leading_zeros (x : Tensor α) (p : List α) (hp : 2 ≤ p.length) (n : Nat) : poly1d x (List.replicate n 0 ++ p) = poly1d x p := by
  rw [C123_horner _ _ hp, C123_horner _ _ (by rw [List.length_append]; omega)]
  congr 2
  funext v
  rw [List.foldl_append]
  congr 1
  induction n with
  | zero => rfl
  | succ n ih => rw [List.replicate_succ, List.foldl_cons, zero_mul, zero_add]; exact ih

/-- **C123.** The coefficients may be combined before or after the evaluation. -/
theorem C123_linear (x : Tensor α) {p q : List α} (hp : 2 ≤ p.length) (hq : q.length = p.length) (a b : α) : ∃ s t,
    poly1d x p = .ok s ∧ poly1d x q = .ok t ∧
    poly1d x (List.zipWith (fun c d => a * c + b * d) p q) = .ok (ofFn x.shape fun ix => a * s.get ix + b * t.get ix) := by
  refine ⟨_, _, C63_poly1d x p hp, C63_poly1d x q (by omega), ?_⟩
  have hl : (List.zipWith (fun c d => a * c + b * d) p q).length = p.length := by simp [hq]
  rw [C63_poly1d _ _ (by omega)]
  congr 1
  refine ext_get rfl fun ix hix => ?_
  have hix : InB x.shape ix := hix
  rw [get_map _ _ hix, get_ofFn hix, get_map _ _ hix, get_map _ _ hix]
  simp only [polyValue, hl, hq]
  rw [← List.sum_map_mul_left, ← List.sum_map_mul_left, ← List.sum_map_add]
  congr 1
  apply List.map_congr_left
  intro i hi
  have hi := List.mem_range.1 hi
  have h1 : p.length - 1 - i < p.length := by omega
  have h2 : p.length - 1 - i < q.length := by omega
  simp only [List.getD_eq_getElem?_getD, List.getElem?_zipWith, List.getElem?_eq_getElem h1, List.getElem?_eq_getElem h2, Option.getD_some]
  ring

/-- **C123.** One more coefficient: multiply by the variable and add. -/
theorem C123_step (x : Tensor α) {p : List α} (hp : 2 ≤ p.length) (c : α) : ∃ s, poly1d x p = .ok s ∧
    poly1d x (p ++ [c]) = .ok (ofFn x.shape fun ix => s.get ix * x.get ix + c) := by
  refine ⟨_, C123_horner x p hp, ?_⟩
  rw [C123_horner _ _ (by rw [List.length_append]; omega)]
  congr 1
  refine ext_get rfl fun ix hix => ?_
  have hix : InB x.shape ix := hix
  rw [get_map _ _ hix, get_ofFn hix, get_map _ _ hix, List.foldl_append]
  rfl

/-- **C123.** A root: if `poly1d` vanishes at `r`, then division by `x - r` (Horner's intermediate values) leaves no rest, at every entry. -/
theorem C123_root (x : Tensor α) {p : List α} {c r : α} (hp : 2 ≤ p.length) (hr : (p ++ [c]).foldl (fun acc c => acc * r + c) 0 = 0) :
    ∃ q : List α, q.length = p.length ∧ ∃ s, poly1d x q = .ok s ∧ poly1d x (p ++ [c]) = .ok (ofFn x.shape fun ix => (x.get ix - r) * s.get ix) := by
  have main : ∀ p : List α, ∃ q : List α, q.length = p.length ∧ ∀ v : α,
      p.foldl (fun acc c => acc * v + c) 0 * v =
        (v - r) * q.foldl (fun acc c => acc * v + c) 0 + p.foldl (fun acc c => acc * r + c) 0 * r := by
    intro p
    induction p using List.reverseRecOn with
    | nil => exact ⟨[], rfl, fun v => by simp⟩
    | append_singleton p d ih =>
      obtain ⟨q, hq, h⟩ := ih
      refine ⟨q ++ [p.foldl (fun acc c => acc * r + c) 0 * r + d], by simp [hq], fun v => ?_⟩
      simp only [List.foldl_append, List.foldl_cons, List.foldl_nil]
      rw [h v]
      ring
  obtain ⟨q, hq, h⟩ := main p
  refine ⟨q, hq, _, C123_horner x q (by omega), ?_⟩
  rw [C123_horner _ _ (by rw [List.length_append]; omega)]
  congr 1
  refine ext_get rfl fun ix hix => ?_
  have hix : InB x.shape ix := hix
  rw [get_map _ _ hix, get_ofFn hix, get_map _ _ hix]
  simp only [List.foldl_append, List.foldl_cons, List.foldl_nil] at hr ⊢
  rw [h (x.get ix), add_assoc, hr, add_zero]

end

/-- two kernels that sum to one -/
example : ∃ w, outer (Tensor.vec [(1 / 4 : ℚ), 1 / 2, 1 / 4]) (Tensor.vec [1 / 3, 2 / 3]) = .ok w ∧ w.data.sum = 1 := by
  obtain ⟨w, h, hs⟩ := C123_outer_sum (Tensor.vec [(1 / 4 : ℚ), 1 / 2, 1 / 4]) (Tensor.vec [1 / 3, 2 / 3])
  exact ⟨w, h, by rw [hs]; norm_num [Tensor.vec]⟩

/-- `x² - 5x + 6` has the root 2 -/
example : ∃ q : List ℚ, q.length = 2 ∧ ∃ s, poly1d (Tensor.vec [7, 3, 2]) q = .ok s ∧
    poly1d (Tensor.vec [7, 3, 2]) ([1, -5] ++ [6]) = .ok (ofFn [3] fun ix => ((Tensor.vec [7, 3, 2]).get ix - 2) * s.get ix) :=
  C123_root (Tensor.vec [7, 3, 2]) (p := [1, -5]) (c := 6) (r := 2) (by decide) (by norm_num)

end TI
