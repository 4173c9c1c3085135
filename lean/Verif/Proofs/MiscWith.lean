import Verif.Spec.MiscWith
import Verif.Props.Misc
import Verif.Props.IntSharpen
import Verif.Proofs.Outer
import Verif.Proofs.RoundingMore

/-!
# Polynomials of integers, of numbers that are not finite, and with rounding errors: auxiliary lemmas
-/

set_option linter.unusedSectionVars false

namespace TI
open Tensor Spec

section
variable {κ β γ : Type} [Zero β] [Zero γ] {mul : β → β → β} {scale : κ → β → γ} {addScaled : κ → γ → β → γ} {shift : κ → γ → γ}

/-- the loop for one entry -/
def polyGo (mul : β → β → β) (addScaled : κ → γ → β → γ) (x : β) : List κ → γ → β → γ
  | [], y, _ => y
  | w :: ws, y, xx => polyGo mul addScaled x ws (addScaled w y xx) (mul xx x)

theorem polyLoopWith_some (S : List Nat) (u : List Nat → β) : ∀ (ws : List κ) (y : List Nat → γ) (v : List Nat → β),
    polyLoopWith mul scale addScaled (ofFn S u) ws (some (ofFn S y)) (ofFn S v) = .ok (some (ofFn S fun ix => polyGo mul addScaled (u ix) ws (y ix) (v ix)))
  | [], y, v => rfl
  | w :: ws, y, v => by
    have hx : (if ws.isEmpty then pure (ofFn S v) else bop mul (ofFn S v) (ofFn S u) : Except Err (Tensor β)) =
        .ok (ofFn S fun ix => if ws.isEmpty then v ix else mul (v ix) (u ix)) := by
      cases ws with
      | nil => rfl
      | cons w' ws => simp only [List.isEmpty_cons, Bool.false_eq_true, if_false]; rw [bop_same']
    have hstep : polyLoopWith mul scale addScaled (ofFn S u) (w :: ws) (some (ofFn S y)) (ofFn S v) =
        polyLoopWith mul scale addScaled (ofFn S u) ws (some (ofFn S fun ix => addScaled w (y ix) (v ix))) (ofFn S fun ix => if ws.isEmpty then v ix else mul (v ix) (u ix)) := by
      conv_lhs => unfold polyLoopWith
      refine (congrArg (fun r => Except.bind r _) (bop_same' (f := addScaled w) S y v)).trans ?_
      exact congrArg (fun r => Except.bind r _) hx
    rw [hstep, polyLoopWith_some S u ws]
    cases ws with
    | nil => rfl
    | cons w' ws => rfl

theorem poly1dWith_eq (x : Tensor β) {p : List κ} {b w : κ} {ws : List κ} (h : p.reverse = b :: w :: ws) :
    poly1dWith mul scale addScaled shift x p = .ok (x.map fun v => shift b (polyGo mul addScaled v ws (scale w v) (mul v v))) := by
  have hx : (if ws.isEmpty then pure (ofFn x.shape x.get) else bop mul (ofFn x.shape x.get) (ofFn x.shape x.get) : Except Err (Tensor β)) =
      .ok (ofFn x.shape fun ix => if ws.isEmpty then x.get ix else mul (x.get ix) (x.get ix)) := by
    cases ws with
    | nil => rfl
    | cons w' ws => simp only [List.isEmpty_cons, Bool.false_eq_true, if_false]; rw [bop_same']
  have hstep : polyLoopWith mul scale addScaled (ofFn x.shape x.get) (w :: ws) none (ofFn x.shape x.get) =
      polyLoopWith mul scale addScaled (ofFn x.shape x.get) ws (some (ofFn x.shape fun ix => scale w (x.get ix)))
        (ofFn x.shape fun ix => if ws.isEmpty then x.get ix else mul (x.get ix) (x.get ix)) := by
    conv_lhs => unfold polyLoopWith
    rw [map_ofFn]
    exact congrArg (fun r => Except.bind r _) hx
  rw [polyLoopWith_some, ← eq_ofFn_get] at hstep
  simp only [poly1dWith, h, bind, Except.bind, hstep]
  congr 1
  conv_rhs => rw [x.eq_ofFn_get, map_ofFn]
  rw [map_ofFn]
  apply ofFn_congr
  intro ix _
  cases ws <;> rfl

theorem poly1dWith_one (x : Tensor β) (a : κ) : poly1dWith mul scale addScaled shift x [a] = .error .type := rfl

theorem poly1dWith_empty (x : Tensor β) : poly1dWith mul scale addScaled shift x [] = .error .index := rfl

end

/-- the coefficients after the constant one, in ascending order -/
theorem two_coefficients {κ : Type} {p : List κ} (hp : 2 ≤ p.length) : ∃ b w ws, p.reverse = b :: w :: ws := by
  have h := p.length_reverse
  match hr : p.reverse with
  | [] => rw [hr] at h; simp at h; omega
  | [_] => rw [hr] at h; simp at h; omega
  | b :: w :: ws => exact ⟨b, w, ws, rfl⟩

section
variable {α : Type} [CommSemiring α]

/-- the polynomial by ascending powers -/
theorem polyValue_reverse {p : List α} {b : α} {ws : List α} (h : p.reverse = b :: ws) (v : α) :
    polyValue p v = ((List.range ws.length).map fun i => ws.getD i 0 * v ^ (i + 1)).sum + b := by
  have : p = ws.reverse ++ [b] := by rw [← p.reverse_reverse, h, List.reverse_cons]
  rw [this, polyValue_append]
  congr 2
  apply List.map_congr_left
  intro i _
  congr 2
  omega

theorem sum_range_cons (w : α) (ws : List α) (f : Nat → α) :
    ((List.range (w :: ws).length).map fun i => (w :: ws).getD i 0 * f i).sum = w * f 0 + ((List.range ws.length).map fun i => ws.getD i 0 * f (i + 1)).sum := by
  rw [List.length_cons, List.range_succ_eq_map, List.map_cons, List.sum_cons, List.map_map]
  rfl

end

/-! ## integers -/

section
variable {t : IntType}

theorem polyValue_cast (p : List ℤ) (v : ℤ) : polyValue (p.map fun n => (BitVec.ofInt t.bits n : t.Word)) (BitVec.ofInt t.bits v) = BitVec.ofInt t.bits (polyValue p v) := by
  rw [polyValue, polyValue]
  simp only [ofInt_cast]
  rw [Int.cast_list_sum, List.map_map, List.length_map]
  congr 1
  apply List.map_congr_left
  intro i hi
  have hi := List.mem_range.1 hi
  simp only [Function.comp, Int.cast_mul, Int.cast_pow]
  congr 1
  have h1 : p.length - 1 - i < p.length := by omega
  simp [h1]

theorem ofInt_mul' (a b : ℤ) : (BitVec.ofInt t.bits a : t.Word) * BitVec.ofInt t.bits b = BitVec.ofInt t.bits (a * b) := by
  simp only [ofInt_cast, Int.cast_mul]

variable {α : Type} [Field α] [LinearOrder α]

theorem polyGo_word (x : t.Word) : ∀ (ws : List (Coef α)) (k : Nat) (y : α) (xx : t.Word), xx = BitVec.ofInt t.bits (t.value x ^ (k + 1)) →
    polyGo (fun a b : t.Word => a * b) (fun (w : Coef α) a v => a + w.number * ((t.value v : ℤ) : α)) x ws y xx =
      y + ((List.range ws.length).map fun i => (ws.map Coef.number).getD i 0 * ((wrapped t (t.value x ^ (k + 1 + i)) : ℤ) : α)).sum
  | [], k, y, xx, _ => by simp [polyGo]
  | w :: ws, k, y, xx, h => by
    rw [polyGo, polyGo_word x ws (k + 1) _ _ (by
      conv_lhs => rw [h, ← ofInt_value x, ofInt_mul']
      rw [ofInt_value, pow_succ (t.value x) (k + 1)])]
    have h2 := sum_range_cons w.number (ws.map Coef.number) fun i => ((wrapped t (t.value x ^ (k + 1 + i)) : ℤ) : α)
    rw [List.length_cons, List.length_map] at h2
    rw [List.length_cons, List.map_cons, h2, h, value_wrapped, add_assoc]
    congr 3
    apply List.map_congr_left
    intro i _
    rw [show k + 1 + 1 + i = k + 1 + (i + 1) by omega]

theorem ints?_eq_some {p : List (Coef α)} {ns : List ℤ} : Coef.ints? p = some ns ↔ p = ns.map Coef.int := by
  induction p generalizing ns with
  | nil => cases ns <;> simp [Coef.ints?]
  | cons c p ih =>
    cases c with
    | float a => cases ns <;> simp [Coef.ints?]
    | int n =>
      cases ns with
      | nil => simp [Coef.ints?]
      | cons m ns => simp [Coef.ints?, ih, and_comm]

theorem ints?_eq_none {p : List (Coef α)} : Coef.ints? p = none ↔ ∃ c ∈ p, ¬ IsInt c := by
  induction p with
  | nil => simp [Coef.ints?]
  | cons c p ih =>
    cases c with
    | float a => simp [Coef.ints?, IsInt]
    | int n => simp [Coef.ints?, IsInt, ih]

end

/-! ## numbers that are not finite -/

section
variable {α : Type} [Field α] [LinearOrder α]

theorem flt_mul_num (a b : α) : (Flt.num a : Flt α) * .num b = .num (a * b) := rfl

theorem flt_add_num (a b : α) : (Flt.num a : Flt α) + .num b = .num (a + b) := rfl

theorem flt_mul_nan (a : Flt α) : a * .nan = .nan := by cases a <;> rfl

theorem flt_add_nan (a : Flt α) : a + .nan = .nan := by cases a <;> rfl

theorem flt_nan_add (a : Flt α) : .nan + a = .nan := by cases a <;> rfl

theorem polyGo_num (x : α) : ∀ (ws : List α) (k : Nat) (y : α),
    polyGo (fun a b : Flt α => a * b) (fun (w : α) a v => a + .num w * v) (.num x) ws (.num y) (.num (x ^ (k + 1))) =
      .num (y + ((List.range ws.length).map fun i => ws.getD i 0 * x ^ (k + 1 + i)).sum)
  | [], k, y => by simp [polyGo]
  | w :: ws, k, y => by
    rw [polyGo, flt_mul_num, flt_mul_num, flt_add_num, ← pow_succ, polyGo_num x ws (k + 1), sum_range_cons w ws fun i => x ^ (k + 1 + i), ← add_assoc]
    congr 3
    apply List.map_congr_left
    intro i _
    rw [show k + 1 + 1 + i = k + 1 + (i + 1) by omega]

theorem polyGo_nan (x : Flt α) : ∀ (ws : List α) (xx : Flt α), polyGo (fun a b : Flt α => a * b) (fun (w : α) a v => a + .num w * v) x ws .nan xx = .nan
  | [], _ => rfl
  | w :: ws, xx => by rw [polyGo, flt_nan_add, polyGo_nan x ws]

variable [IsStrictOrderedRing α]

theorem pulls_iff {w : α} {b : Flt α} {r : Bool} (hb : ∃ s, b = .inf s) : (Flt.num w : Flt α) * b = .inf r ↔ Pulls w b r := by
  obtain ⟨s, rfl⟩ := hb
  change (if w = 0 then (.nan : Flt α) else .inf (decide (w < 0) != s)) = .inf r ↔ _
  rw [Pulls]
  rcases lt_trichotomy w 0 with h | h | h
  · rw [if_neg h.ne]
    simp only [h, decide_true, Flt.inf.injEq, not_lt.2 h.le, false_and, true_and, false_or]
    cases s <;> cases r <;> simp
  · simp [h]
  · rw [if_neg h.ne']
    simp only [h, not_lt.2 h.le, decide_false, Flt.inf.injEq, false_and, true_and, or_false]
    cases s <;> cases r <;> simp

theorem num_mul_inf (w : α) (s : Bool) : (∃ r, (Flt.num w : Flt α) * .inf s = .inf r) ∨ (Flt.num w : Flt α) * .inf s = .nan := by
  change (∃ r, (if w = 0 then (.nan : Flt α) else .inf (decide (w < 0) != s)) = .inf r) ∨ (if w = 0 then (.nan : Flt α) else .inf (decide (w < 0) != s)) = .nan
  split_ifs
  · exact Or.inr rfl
  · exact Or.inl ⟨_, rfl⟩

/-- the sign of a power of an infinity -/
def powSign (s : Bool) (k : Nat) : Bool := s && decide (k % 2 = 1)

theorem powSign_succ (s : Bool) (k : Nat) : ((powSign s k) != s) = powSign s (k + 1) := by
  rw [powSign, powSign]
  rcases Nat.mod_two_eq_zero_or_one k with h | h
  · have : (k + 1) % 2 = 1 := by omega
    cases s <;> simp [h, this]
  · have : (k + 1) % 2 = 0 := by omega
    cases s <;> simp [h, this]

theorem add_inf_iff {a b : Flt α} {r : Bool} (ha : ¬ IsFinite a) (hb : ¬ IsFinite b) : a + b = .inf r ↔ a = .inf r ∧ b = .inf r := by
  cases a with
  | num a => exact absurd ⟨a, rfl⟩ ha
  | nan => simp [flt_nan_add]
  | inf s =>
    cases b with
    | num b => exact absurd ⟨b, rfl⟩ hb
    | nan => simp [flt_add_nan]
    | inf s' =>
      change (if s = s' then (.inf s : Flt α) else .nan) = .inf r ↔ _
      split_ifs with h
      · subst h; simp
      · simp only [Flt.inf.injEq, false_iff, not_and]
        rintro rfl rfl
        exact h rfl

theorem not_finite_add {a b : Flt α} (ha : ¬ IsFinite a) : ¬ IsFinite (a + b) := by
  rintro ⟨c, hc⟩
  cases a with
  | num a => exact ha ⟨a, rfl⟩
  | nan => rw [flt_nan_add] at hc; cases hc
  | inf s =>
    cases b with
    | num b => cases hc
    | nan => cases hc
    | inf s' =>
      change (if s = s' then (.inf s : Flt α) else .nan) = _ at hc
      split_ifs at hc

theorem polyGo_inf (s : Bool) {r : Bool} : ∀ (ws : List α) (k : Nat) (y : Flt α), ¬ IsFinite y →
    ¬ IsFinite (polyGo (fun a b : Flt α => a * b) (fun (w : α) a v => a + .num w * v) (.inf s) ws y (.inf (powSign s (k + 1)))) ∧
    (polyGo (fun a b : Flt α => a * b) (fun (w : α) a v => a + .num w * v) (.inf s) ws y (.inf (powSign s (k + 1))) = .inf r ↔
      y = .inf r ∧ ∀ i < ws.length, Pulls (ws.getD i 0) (.inf (powSign s (k + 1 + i))) r)
  | [], k, y, hy => by simp [polyGo, hy]
  | w :: ws, k, y, hy => by
    have hx : (Flt.inf (powSign s (k + 1)) : Flt α) * .inf s = .inf (powSign s (k + 1 + 1)) := by
      exact congrArg Flt.inf (powSign_succ s (k + 1))
    have ih := polyGo_inf s (r := r) ws (k + 1) (y + .num w * .inf (powSign s (k + 1))) (not_finite_add hy)
    rw [polyGo, hx]
    refine ⟨ih.1, ih.2.trans ?_⟩
    have hwn : ¬ IsFinite ((Flt.num w : Flt α) * .inf (powSign s (k + 1))) := by
      rintro ⟨c, hc⟩
      rcases num_mul_inf w (powSign s (k + 1)) with ⟨q, h⟩ | h <;> rw [h] at hc <;> cases hc
    rw [add_inf_iff hy hwn, pulls_iff ⟨_, rfl⟩, and_assoc]
    refine and_congr_right fun _ => ?_
    constructor
    · rintro ⟨h1, h2⟩ i hi
      cases i with
      | zero => exact h1
      | succ i =>
        have := h2 i (by simpa using hi)
        rwa [show k + 1 + 1 + i = k + 1 + (i + 1) by omega] at this
    · intro h
      refine ⟨h 0 (by simp), fun i hi => ?_⟩
      have := h (i + 1) (by simpa using hi)
      rwa [show k + 1 + (i + 1) = k + 1 + 1 + i by omega] at this

end

/-! ## rounding -/

section
variable {α : Type} [Field α] [LinearOrder α] [IsStrictOrderedRing α] {u : α} {mul scale shift : α → α → α} {addScaled : α → α → α → α}

theorem Near1.mul_exact {e v' v A : α} (h : Near1 e v' v A) (x : α) : Near1 e (v' * x) (v * x) (A * |x|) := by
  constructor
  · rw [← sub_mul, abs_mul, ← mul_assoc]
    exact mul_le_mul_of_nonneg_right h.err (abs_nonneg x)
  · rw [abs_mul]
    exact mul_le_mul_of_nonneg_right h.le (abs_nonneg x)

theorem near_coef {w c : α} (h : Rounds u w c) : Near1 (roundingBound u 1) c w |w| := by
  rw [bound_one]
  exact ⟨h, le_rfl⟩

theorem polyGo_near (hu : 0 ≤ u) (hA : AccuratePoly u mul scale addScaled shift) (x : α) : ∀ (ws : List α) (k : Nat) {y' y A xx : α},
    Near1 (roundingBound u (k + 2)) y' y A → Near1 (roundingBound u k) xx (x ^ (k + 1)) (|x| ^ (k + 1)) →
    Near1 (roundingBound u (k + 2 + ws.length)) (polyGo mul addScaled x ws y' xx)
      (y + ((List.range ws.length).map fun i => ws.getD i 0 * x ^ (k + 1 + i)).sum)
      (A + ((List.range ws.length).map fun i => (ws.map abs).getD i 0 * |x| ^ (k + 1 + i)).sum)
  | [], k, y', y, A, xx, hy, _ => by simpa [polyGo] using hy
  | w :: ws, k, y', y, A, xx, hy, hx => by
    rw [polyGo]
    obtain ⟨c, s, h1, h2, h3⟩ := hA.addScaled w y' xx
    have t1 : Near1 (roundingBound u (k + 2)) s (w * x ^ (k + 1)) (|w| * |x| ^ (k + 1)) := by
      have := (hx.mul hu h1).round hu h2
      rwa [bound_step, bound_step] at this
    have t2 : Near1 (roundingBound u (k + 1 + 2)) (addScaled w y' xx) (y + w * x ^ (k + 1)) (A + |w| * |x| ^ (k + 1)) := by
      have := (hy.add t1).round hu h3
      rwa [bound_step] at this
    have t3 : Near1 (roundingBound u (k + 1)) (mul xx x) (x ^ (k + 1 + 1)) (|x| ^ (k + 1 + 1)) := by
      have := (hx.mul_exact x).round hu (hA.mul xx x)
      rwa [bound_step, ← pow_succ, ← pow_succ] at this
    have := polyGo_near hu hA x ws (k + 1) t2 t3
    have e1 := sum_range_cons w ws fun i => x ^ (k + 1 + i)
    have e2 := sum_range_cons |w| (ws.map abs) fun i => |x| ^ (k + 1 + i)
    rw [← List.map_cons, List.length_map, List.length_map] at e2
    rw [e1, e2, ← add_assoc, ← add_assoc, List.length_cons, show k + 2 + (ws.length + 1) = k + 1 + 2 + ws.length by omega]
    have e3 : ∀ i, k + 1 + 1 + i = k + 1 + (i + 1) := fun i => by omega
    simp only [e3] at this
    exact this

end

end TI
