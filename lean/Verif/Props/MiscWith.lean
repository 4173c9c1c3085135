import Verif.Proofs.MiscWith

/-!
# Polynomials and outer products of integers, of numbers that are not finite, and with rounding errors: C145, C146, C147
-/

set_option linter.unusedSectionVars false

namespace TI
open Tensor Spec

/-! ## C145: integers -/

section
variable {α : Type} [Field α] [LinearOrder α] {t : IntType}

theorem polyWrapped_reverse {p : List α} {b : α} {ws : List α} (h : p.reverse = b :: ws) (v : ℤ) :
    polyWrapped t p v = b + ((List.range ws.length).map fun i => ws.getD i 0 * ((wrapped t (v ^ (i + 1)) : ℤ) : α)).sum := by
  have hp : p = ws.reverse ++ [b] := by rw [← p.reverse_reverse, h, List.reverse_cons]
  have hl : p.length = ws.length + 1 := by rw [hp]; simp
  have hb : p.getLastD 0 = b := by rw [hp]; simp
  rw [polyWrapped, hb, hl, Nat.add_sub_cancel]
  congr 2
  apply List.map_congr_left
  intro i hi
  have hi := List.mem_range.1 hi
  congr 1
  have h1 : ws.length + 1 - 2 - i < ws.length := by omega
  rw [hp]
  simp only [List.getD_eq_getElem?_getD]
  rw [List.getElem?_append_left (by simpa using h1), List.getElem?_reverse h1]
  congr 2
  omega

/-- **C145.** `poly1d` of a tensor of integers with integer coefficients, at least two: the tensor of the same type whose entries are the values of the polynomial, wrapped to the type. -/
theorem C145_integers (x : Tensor t.Word) (ns : List ℤ) (hp : 2 ≤ ns.length) :
    ∃ y : Tensor t.Word, poly1dWord t x (ns.map (Coef.int (α := α))) = .ok (.int y) ∧ y.shape = x.shape ∧
      ∀ ix, InB x.shape ix → t.value (y.get ix) = wrapped t (polyValue ns (t.value (x.get ix))) := by
  obtain ⟨b, w, ws, h⟩ := two_coefficients hp
  refine ⟨x.map (polyValue (ns.map fun n => BitVec.ofInt t.bits n)), ?_, rfl, fun ix hix => ?_⟩
  · have hr : (ns.map (Coef.int (α := α))).reverse = .int b :: .int w :: ws.map Coef.int := by rw [← List.map_reverse, h]; rfl
    simp only [poly1dWord, hr, ints?_eq_some.2 rfl]
    rw [C63_poly1d _ _ (by simpa using hp)]
    rfl
  · rw [get_map _ _ hix]
    conv_lhs => rw [← ofInt_value (x.get ix), polyValue_cast, value_wrapped]

/-- **C145**: this is the correct value exactly if the correct value can be stored. -/
theorem C145_exact_iff (hb : 0 < t.bits) (x : Tensor t.Word) (ns : List ℤ) (hp : 2 ≤ ns.length) {y : Tensor t.Word} (hy : poly1dWord t x (ns.map (Coef.int (α := α))) = .ok (.int y))
    {ix : List Nat} (hix : InB x.shape ix) :
    t.value (y.get ix) = polyValue ns (t.value (x.get ix)) ↔ Holdable t (polyValue ns (t.value (x.get ix))) := by
  obtain ⟨y', h1, _, h3⟩ := C145_integers (α := α) x ns hp
  rw [hy] at h1
  cases h1
  constructor
  · intro h
    rw [← h]
    exact value_holdable _
  · intro h
    rw [h3 ix hix, wrapped_id hb h]

/-- **C145**: with a linear coefficient that is a float, the result are floating-point numbers; the powers of the entries are wrapped to the type, but nothing else is. -/
theorem C145_float (x : Tensor t.Word) {p : List (Coef α)} {c : List α} {a : α} (hp : 2 ≤ p.length) (ha : p[p.length - 2]? = some (.float a)) (hc : List.Forall₂ Means p c) :
    poly1dWord t x p = .ok (.float (x.map fun v => polyWrapped t c (t.value v))) := by
  obtain rfl : p.map Coef.number = c := by
    clear hp ha
    induction hc with
    | nil => rfl
    | cons h _ ih =>
      rw [List.map_cons, ih]
      cases h <;> rfl
  obtain ⟨b, w, ws, h⟩ := two_coefficients hp
  have hw : w = .float a := by
    have h1 : p.reverse[1]? = some w := by rw [h]; rfl
    rw [List.getElem?_reverse (by omega), show p.length - 1 - 1 = p.length - 2 by omega, ha] at h1
    exact (Option.some.inj h1).symm
  subst hw
  simp only [poly1dWord, h]
  rw [poly1dWith_eq x h]
  have hr : (p.map Coef.number).reverse = b.number :: ((Coef.float a :: ws).map Coef.number) := by rw [← List.map_reverse, h]; rfl
  change Except.ok (IntOrFloat.float _) = _
  congr 3
  funext v
  have h1 : BitVec.ofInt t.bits (t.value v ^ (1 + 1)) = v * v := by
    conv_rhs => rw [← ofInt_value v, ofInt_mul']
    rw [pow_two]
  rw [polyWrapped_reverse hr, List.map_cons, sum_range_cons _ _ fun i => ((wrapped t (t.value v ^ (i + 1)) : ℤ) : α), polyGo_word v ws 1 _ _ h1.symm]
  have h2 : ((wrapped t (t.value v ^ (0 + 1)) : ℤ) : α) = ((t.value v : ℤ) : α) := by rw [zero_add, pow_one, ← value_wrapped, ofInt_value]
  rw [h2, List.length_map, add_comm]
  congr 3
  apply List.map_congr_left
  intro i _
  rw [show 1 + 1 + i = i + 1 + 1 by omega]

/-- **C145**: the exceptions. -/
theorem C145_rejects (x : Tensor t.Word) (p : List (Coef α)) :
    (poly1dWord t x p = .error .index ↔ p = []) ∧ (poly1dWord t x p = .error .type ↔ p.length = 1) ∧
    (poly1dWord t x p = .error .runtime ↔ ∃ n : ℤ, 2 ≤ p.length ∧ p[p.length - 2]? = some (.int n) ∧ ∃ c ∈ p, ¬ IsInt c) := by
  rcases Nat.lt_or_ge p.length 2 with hp | hp
  · rcases p with _ | ⟨c, _ | ⟨c', p⟩⟩
    · exact ⟨by simp [poly1dWord], by simp [poly1dWord], by simp [poly1dWord]⟩
    · exact ⟨by simp [poly1dWord], by simp [poly1dWord], by simp [poly1dWord]⟩
    · simp at hp
  · have h0 : p ≠ [] := by rintro rfl; simp at hp
    have h1 : p.length ≠ 1 := by omega
    obtain ⟨b, w, ws, h⟩ := two_coefficients hp
    have hw : p[p.length - 2]? = some w := by
      have h1 : p.reverse[1]? = some w := by rw [h]; rfl
      rwa [List.getElem?_reverse (by omega), show p.length - 1 - 1 = p.length - 2 by omega] at h1
    cases w with
    | float a =>
      rw [C145_float (c := p.map Coef.number) x hp hw (List.forall₂_map_right_iff.2 (List.forall₂_same.2 fun c _ => by cases c <;> constructor))]
      simp [h0, h1, hw]
    | int n =>
      cases hn : Coef.ints? p with
      | some ns =>
        have e := ints?_eq_some.1 hn
        obtain ⟨y, hy, _⟩ := C145_integers (α := α) x ns (by rw [e, List.length_map] at hp; exact hp)
        rw [← e] at hy
        have hi : ¬ ∃ c ∈ p, ¬ IsInt c := by
          rw [e]
          simp [IsInt]
        rw [hy]
        simp [h0, h1]
        intro _ _ _ c hc
        by_contra hc'
        exact hi ⟨c, hc, hc'⟩
      | none =>
        have hr : poly1dWord t x p = .error .runtime := by simp only [poly1dWord, h, hn]
        rw [hr]
        refine ⟨by simp [h0], by simp [h1], fun _ => ⟨n, hp, hw, ints?_eq_none.1 hn⟩, fun _ => rfl⟩

/-- **C145**: the outer product of tensors of integers holds the products, wrapped to the type; the entry is correct exactly if the product can be stored. -/
theorem C145_outer (hb : 0 < t.bits) (u v : Tensor t.Word) : ∃ r, outer u v = .ok r ∧ r.shape = u.shape ++ v.shape ∧ ∀ i j, InB u.shape i → InB v.shape j →
    t.value (r.get (i ++ j)) = wrapped t (t.value (u.get i) * t.value (v.get j)) ∧
    (t.value (r.get (i ++ j)) = t.value (u.get i) * t.value (v.get j) ↔ Holdable t (t.value (u.get i) * t.value (v.get j))) := by
  refine ⟨_, outer_spec u v, rfl, fun i j hi hj => ?_⟩
  have h1 : t.value ((ofFn (u.shape ++ v.shape) fun ix => u.get (ix.take u.shape.length) * v.get (ix.drop u.shape.length)).get (i ++ j)) =
      wrapped t (t.value (u.get i) * t.value (v.get j)) := by
    rw [get_ofFn ((inB_append (inB_iff.1 hi).1).2 ⟨hi, hj⟩), ← (inB_iff.1 hi).1, List.take_left, List.drop_left]
    conv_lhs => rw [← ofInt_value (u.get i), ← ofInt_value (v.get j), ofInt_mul', value_wrapped]
  refine ⟨h1, fun h => ?_, fun h => by rw [h1, wrapped_id hb h]⟩
  rw [← h]
  exact value_holdable _

end

/-- C145: `x^2 + 1` of `uint8` values: 16 gives 1 -/
example : poly1dWord (α := ℚ) ⟨8, false⟩ ⟨[2], [3, 16], rfl⟩ [.int 1, .int 0, .int 1] = .ok (.int ⟨[2], [10, 1], rfl⟩) := by rfl

/-- C145: with a float for the linear coefficient, the square is still wrapped -/
example : poly1dWord (α := ℚ) ⟨8, false⟩ ⟨[2], [3, 16], rfl⟩ [.int 1, .float (1 / 2), .int 1] = .ok (.float ⟨[2], [23 / 2, 9], rfl⟩) := by
  refine (C145_float (a := 1 / 2) (c := [((1 : ℤ) : ℚ), 1 / 2, ((1 : ℤ) : ℚ)]) _ (by simp) rfl (.cons (.int 1) (.cons (.float _) (.cons (.int 1) .nil)))).trans ?_
  have : (Tensor.map (fun v => polyWrapped ⟨8, false⟩ [((1 : ℤ) : ℚ), 1 / 2, ((1 : ℤ) : ℚ)] (IntType.value ⟨8, false⟩ v)) ⟨[2], [3, 16], rfl⟩ : Tensor ℚ) = ⟨[2], [23 / 2, 9], rfl⟩ := by
    decide +kernel
  rw [this]

/-- C145: a float elsewhere is an exception -/
example : poly1dWord (α := ℚ) ⟨8, false⟩ ⟨[2], [3, 16], rfl⟩ [.int 1, .int 1, .float (1 / 2)] = .error .runtime :=
  (C145_rejects _ _).2.2.2 ⟨1, by simp, rfl, .float (1 / 2), by simp, fun h => h⟩

/-! ## C146: entries that are not finite -/

section
variable {α : Type} [Field α] [LinearOrder α] [IsStrictOrderedRing α]

/-- **C146.** `poly1d` of a tensor with entries that are not finite: exceptions as for finite ones; a finite entry gives the value of the polynomial, NaN gives NaN. -/
theorem C146_entries (x : Tensor (Flt α)) (p : List α) :
    poly1dFlt x [] = .error .index ∧ (p.length = 1 → poly1dFlt x p = .error .type) ∧
    (2 ≤ p.length → ∃ f : Flt α → Flt α, poly1dFlt x p = .ok (x.map f) ∧ (∀ v, f (.num v) = .num (polyValue p v)) ∧ f .nan = .nan ∧ (∀ b, IsFinite (f b) ↔ IsFinite b) ∧
      ∀ s r, f (.inf s) = .inf r ↔ ∀ i, 1 ≤ i → i < p.length → Pulls (p.getD (p.length - 1 - i) 0) (.inf (s && decide (i % 2 = 1))) r) := by
  refine ⟨rfl, fun h => ?_, fun hp => ?_⟩
  · obtain ⟨a, rfl⟩ := List.length_eq_one_iff.1 h
    rfl
  obtain ⟨b, w, ws, h⟩ := two_coefficients hp
  have hl : ws.length + 2 = p.length := by
    have := congrArg List.length h
    simpa using this.symm
  refine ⟨_, poly1dWith_eq x h, ?_⟩
  have hnum : ∀ v : α, (polyGo (fun a b : Flt α => a * b) (fun (w : α) a v => a + .num w * v) (.num v) ws (.num w * .num v) (.num v * .num v) + .num b : Flt α) = .num (polyValue p v) := by
    intro v
    have h1 := polyGo_num v ws 1 (w * v)
    rw [pow_two] at h1
    rw [flt_mul_num, flt_mul_num, h1, flt_add_num, polyValue_reverse h, sum_range_cons w ws fun i => v ^ (i + 1), zero_add, pow_one]
    congr 4
    apply List.map_congr_left
    intro i _
    rw [show 1 + 1 + i = i + 1 + 1 by omega]
  have hnan : (polyGo (fun a b : Flt α => a * b) (fun (w : α) a v => a + .num w * v) .nan ws (.num w * .nan) (.nan * .nan) + .num b : Flt α) = .nan := by
    rw [flt_mul_nan, polyGo_nan, flt_nan_add]
  have hw1 : ∀ s, ¬ IsFinite ((Flt.num w : Flt α) * .inf s) := by
    rintro s ⟨c, hc⟩
    rcases num_mul_inf w s with ⟨q, h⟩ | h <;> rw [h] at hc <;> cases hc
  have hsq : ∀ s, (Flt.inf s : Flt α) * .inf s = .inf (powSign s (1 + 1)) := by
    intro s
    cases s <;> rfl
  have hinf : ∀ s r, ¬ IsFinite (polyGo (fun a b : Flt α => a * b) (fun (w : α) a v => a + .num w * v) (.inf s) ws (.num w * .inf s) (.inf s * .inf s)) ∧
      (polyGo (fun a b : Flt α => a * b) (fun (w : α) a v => a + .num w * v) (.inf s) ws (.num w * .inf s) (.inf s * .inf s) = .inf r ↔
        ∀ i, 1 ≤ i → i < p.length → Pulls (p.getD (p.length - 1 - i) 0) (.inf (s && decide (i % 2 = 1))) r) := by
    intro s r
    rw [hsq]
    obtain ⟨h1, h2⟩ := polyGo_inf s (r := r) ws 1 (.num w * .inf s) (hw1 s)
    refine ⟨h1, h2.trans ?_⟩
    rw [pulls_iff ⟨_, rfl⟩]
    have hget : ∀ i < p.length, p.getD (p.length - 1 - i) 0 = (b :: w :: ws).getD i 0 := by
      intro i hi
      rw [← h]
      simp only [List.getD_eq_getElem?_getD]
      rw [List.getElem?_reverse hi]
    constructor
    · rintro ⟨h3, h4⟩ i h5 h6
      rw [hget i h6]
      rcases i with _ | _ | i
      · omega
      · simpa using h3
      · have := h4 i (by omega)
        rwa [show 1 + 1 + i = i + 1 + 1 by omega] at this
    · intro h3
      refine ⟨?_, fun i hi => ?_⟩
      · have := h3 1 le_rfl (by omega)
        rw [hget 1 (by omega)] at this
        simpa using this
      · have := h3 (i + 2) (by omega) (by omega)
        rw [hget (i + 2) (by omega)] at this
        rwa [show 1 + 1 + i = i + 2 by omega]
  have hshift : ∀ (c : Flt α), ¬ IsFinite c → ¬ IsFinite (c + .num b) ∧ ∀ r, c + .num b = .inf r ↔ c = .inf r := by
    intro c hc
    cases c with
    | num c => exact absurd ⟨c, rfl⟩ hc
    | nan => exact ⟨not_finite_add hc, fun r => by rw [flt_nan_add]⟩
    | inf s => exact ⟨not_finite_add hc, fun r => Iff.rfl⟩
  refine ⟨hnum, hnan, fun c => ?_, fun s r => ((hshift _ (hinf s r).1).2 r).trans (hinf s r).2⟩
  cases c with
  | num v => exact ⟨fun _ => ⟨v, rfl⟩, fun _ => ⟨_, hnum v⟩⟩
  | nan =>
    constructor
    · rintro ⟨c, hc⟩
      rw [hnan] at hc
      cases hc
    · rintro ⟨c, hc⟩
      cases hc
  | inf s =>
    constructor
    · intro hc
      exact absurd hc (hshift _ (hinf s true).1).1
    · rintro ⟨c, hc⟩
      cases hc

/-- **C146**: a coefficient of zero, other than the constant one, turns an infinite entry into NaN. -/
theorem C146_zero (x : Tensor (Flt α)) (p : List α) {j : Nat} (hj : j + 1 < p.length) (h0 : p.getD j 0 = 0) {ix : List Nat} (hix : InB x.shape ix)
    (hinf : ∃ s, x.get ix = .inf s) : ∃ y, poly1dFlt x p = .ok y ∧ y.get ix = .nan := by
  obtain ⟨s, hs⟩ := hinf
  obtain ⟨f, h1, _, _, h4, h5⟩ := (C146_entries x p).2.2 (by omega)
  refine ⟨_, h1, ?_⟩
  rw [get_map _ _ hix, hs]
  cases hf : f (.inf s) with
  | nan => rfl
  | num c =>
    obtain ⟨d, hd⟩ := (h4 (.inf s)).1 ⟨c, hf⟩
    cases hd
  | inf r =>
    have := (h5 s r).1 hf (p.length - 1 - j) (by omega) (by omega)
    rw [show p.length - 1 - (p.length - 1 - j) = j by omega, h0] at this
    rcases this with h | h <;> exact absurd h.1 (lt_irrefl _)

/-- **C146**: an entry of an outer product is finite exactly if both factors are, and then their product. -/
theorem C146_outer (u v : Tensor (Flt α)) : ∃ r, outer u v = .ok r ∧ r.shape = u.shape ++ v.shape ∧ ∀ i j, InB u.shape i → InB v.shape j →
    (IsFinite (r.get (i ++ j)) ↔ IsFinite (u.get i) ∧ IsFinite (v.get j)) ∧ ∀ a b, u.get i = .num a → v.get j = .num b → r.get (i ++ j) = .num (a * b) := by
  refine ⟨_, outer_spec u v, rfl, fun i j hi hj => ?_⟩
  rw [get_ofFn ((inB_append (inB_iff.1 hi).1).2 ⟨hi, hj⟩), ← (inB_iff.1 hi).1, List.take_left, List.drop_left]
  refine ⟨?_, fun a b ha hb => by rw [ha, hb]; rfl⟩
  have hinf : ∀ (a : α) s, ¬ IsFinite ((Flt.num a : Flt α) * .inf s) ∧ ¬ IsFinite ((Flt.inf s : Flt α) * .num a) := by
    intro a s
    constructor
    · rintro ⟨c, hc⟩
      rcases num_mul_inf a s with ⟨q, h⟩ | h <;> rw [h] at hc <;> cases hc
    · rintro ⟨c, hc⟩
      change (if a = 0 then (.nan : Flt α) else .inf (s != decide (a < 0))) = _ at hc
      split_ifs at hc
  have hn : ∀ {b : Flt α}, IsFinite b → b ≠ .nan := by rintro _ ⟨c, rfl⟩ h; cases h
  have hni : ∀ {s : Bool}, ¬ IsFinite (Flt.inf s : Flt α) := by rintro s ⟨c, h⟩; cases h
  cases u.get i with
  | num a =>
    cases v.get j with
    | num b => exact ⟨fun _ => ⟨⟨a, rfl⟩, ⟨b, rfl⟩⟩, fun _ => ⟨a * b, rfl⟩⟩
    | inf s => exact ⟨fun h => absurd h (hinf a s).1, fun h => absurd h.2 hni⟩
    | nan => exact ⟨fun h => absurd (flt_mul_nan _) (hn h), fun h => absurd rfl (hn h.2)⟩
  | inf s =>
    cases v.get j with
    | num b => exact ⟨fun h => absurd h (hinf b s).2, fun h => absurd h.1 hni⟩
    | inf s' =>
      refine ⟨fun h => ?_, fun h => absurd h.1 hni⟩
      obtain ⟨c, hc⟩ := h
      cases hc
    | nan => exact ⟨fun h => absurd (flt_mul_nan _) (hn h), fun h => absurd h.1 hni⟩
  | nan =>
    refine ⟨fun h => absurd ?_ (hn h), fun h => absurd rfl (hn h.1)⟩
    cases v.get j <;> rfl

end

/-- C146: `x^2 - 3` at infinity is NaN, as the linear coefficient is zero; `x^2 + x - 3` is infinite at infinity and NaN at minus infinity -/
example : (∃ y : Tensor (Flt ℚ), poly1dFlt ⟨[1], [.inf false], rfl⟩ [1, 0, -3] = .ok y ∧ y.get [0] = .nan) ∧
    poly1dFlt (⟨[4], [.num 2, .inf false, .inf true, .nan], rfl⟩ : Tensor (Flt ℚ)) [1, 1, -3] = .ok ⟨[4], [.num 3, .inf false, .nan, .nan], rfl⟩ :=
  ⟨C146_zero _ _ (j := 1) (by simp) rfl (show InB [1] [0] by simp [inB_iff]) ⟨false, rfl⟩, by decide +kernel⟩

/-! ## C147: rounding -/

section
variable {α : Type} [Field α] [LinearOrder α] [IsStrictOrderedRing α] {u : α} {mul scale shift : α → α → α} {addScaled : α → α → α → α}

/-- **C147.** With a relative error of at most `u` for every operation and for storing every coefficient, `poly1d` raises the exceptions of exact arithmetic;
and every value is off by at most `(1 + u)^(n+2) - 1` times the polynomial with the absolute values of the `n` coefficients at the absolute value of the entry. -/
theorem C147_polynomial (hu : 0 ≤ u) (hA : AccuratePoly u mul scale addScaled shift) (x : Tensor α) (p : List α) :
    (∀ e, poly1dWith mul scale addScaled shift x p = .error e ↔ poly1d x p = .error e) ∧
    (2 ≤ p.length → ∃ y, poly1dWith mul scale addScaled shift x p = .ok y ∧ y.shape = x.shape ∧ ∀ ix, InB x.shape ix →
      |y.get ix - polyValue p (x.get ix)| ≤ roundingBound u (p.length + 2) * polyValue (p.map abs) |x.get ix|) := by
  have main : 2 ≤ p.length → ∃ y, poly1dWith mul scale addScaled shift x p = .ok y ∧ y.shape = x.shape ∧ ∀ ix, InB x.shape ix →
      |y.get ix - polyValue p (x.get ix)| ≤ roundingBound u (p.length + 2) * polyValue (p.map abs) |x.get ix| := by
    intro hp
    obtain ⟨b, w, ws, h⟩ := two_coefficients hp
    have hl : ws.length + 2 = p.length := by
      have := congrArg List.length h
      simpa using this.symm
    refine ⟨_, poly1dWith_eq x h, rfl, fun ix hix => ?_⟩
    rw [get_map _ _ hix]
    set v := x.get ix
    obtain ⟨c, h1, h2⟩ := hA.scale w v
    obtain ⟨c', h3, h4⟩ := hA.shift b (polyGo mul addScaled v ws (scale w v) (mul v v))
    have t0 : Near1 (roundingBound u (1 + 2)) (scale w v) (w * v) (|w| * |v|) := by
      have := ((near_coef h1).mul_exact v).round hu h2
      rw [bound_step] at this
      exact this.mono (bound_le hu (by omega))
    have t1 : Near1 (roundingBound u 1) (mul v v) (v ^ (1 + 1)) (|v| ^ (1 + 1)) := by
      have : Near1 0 v v |v| := Near1.refl _
      have := (this.mul_exact v).round hu (hA.mul v v)
      rw [← bound_zero u, bound_step] at this
      rw [pow_two, pow_two]
      exact this
    have t2 := polyGo_near hu hA v ws 1 t0 t1
    have t3 : Near1 (roundingBound u (1 + 2 + ws.length)) c' b |b| := (near_coef h3).mono (bound_le hu (by omega : 1 ≤ 1 + 2 + ws.length))
    have t4 := (t2.add t3).round hu h4
    rw [bound_step] at t4
    have e1 := sum_range_cons w ws fun i => v ^ (i + 1)
    have e2 := sum_range_cons |w| (ws.map abs) fun i => |v| ^ (i + 1)
    have hr : (p.map abs).reverse = |b| :: (|w| :: ws.map abs) := by rw [← List.map_reverse, h]; rfl
    rw [polyValue_reverse h, polyValue_reverse hr, e1, e2, List.length_map]
    have e3 : ∀ i, 1 + 1 + i = i + 1 + 1 := fun i => by omega
    simp only [e3] at t4
    have := t4.err
    rw [show 1 + 2 + ws.length + 1 = p.length + 2 by omega] at this
    simpa using this
  refine ⟨fun e => ?_, main⟩
  rcases Nat.lt_or_ge p.length 2 with hp | hp
  · rcases p with _ | ⟨c, _ | ⟨c', p⟩⟩
    · exact Iff.rfl
    · exact Iff.rfl
    · simp at hp
  · obtain ⟨y, hy, _⟩ := main hp
    rw [hy, C63_poly1d x p hp]
    simp

/-- **C147**: if coefficients and entries are not negative, this bounds the relative error. -/
theorem C147_relative (hu : 0 ≤ u) (hA : AccuratePoly u mul scale addScaled shift) (x : Tensor α) (p : List α) (hp : 2 ≤ p.length) (h0 : ∀ a ∈ p, 0 ≤ a)
    {ix : List Nat} (hix : InB x.shape ix) (hx : 0 ≤ x.get ix) :
    ∃ y, poly1dWith mul scale addScaled shift x p = .ok y ∧ |y.get ix - polyValue p (x.get ix)| ≤ roundingBound u (p.length + 2) * polyValue p (x.get ix) := by
  obtain ⟨y, h1, _, h3⟩ := (C147_polynomial hu hA x p).2 hp
  refine ⟨y, h1, ?_⟩
  have h := h3 ix hix
  have hm : p.map abs = p := by
    conv_rhs => rw [← p.map_id]
    exact List.map_congr_left fun a ha => abs_of_nonneg (h0 a ha)
  rwa [hm, abs_of_nonneg hx] at h

/-- **C147**: the entries of an outer product have the relative error of one multiplication. -/
theorem C147_outer (hm : ∀ a b, Rounds u (a * b) (mul a b)) (v w : Tensor α) : ∃ r, outerWith mul v w = .ok r ∧ r.shape = v.shape ++ w.shape ∧ ∀ i j, InB v.shape i → InB w.shape j →
    |r.get (i ++ j) - v.get i * w.get j| ≤ u * |v.get i * w.get j| := by
  refine ⟨_, @outer_spec α _ ⟨mul⟩ v w, rfl, fun i j hi hj => ?_⟩
  rw [get_ofFn ((inB_append (inB_iff.1 hi).1).2 ⟨hi, hj⟩), ← (inB_iff.1 hi).1, List.take_left, List.drop_left]
  exact hm _ _

end

/-- the arithmetic of C147's example: every product and every sum is too large by a tenth, unless it is zero -/
theorem accuratePoly_example : AccuratePoly (1 / 10 : ℚ) (fun a b => a * b * (11 / 10)) (fun w v => w * v * (11 / 10)) (fun w a v => (a + w * v * (11 / 10)) * (11 / 10))
    (fun b a => (a + b) * (11 / 10)) := by
  have h : ∀ a : ℚ, Rounds (1 / 10) a (a * (11 / 10)) := by
    intro a
    rw [Rounds, show a * (11 / 10) - a = 1 / 10 * a by ring, abs_mul, abs_of_pos (by norm_num : (0 : ℚ) < 1 / 10)]
  have h' : ∀ a : ℚ, Rounds (1 / 10) a a := by
    intro a
    rw [Rounds, sub_self, abs_zero]
    positivity
  exact ⟨fun a b => h _, fun w v => ⟨w, h' w, h _⟩, fun w a v => ⟨w, w * v * (11 / 10), h' w, h _, h _⟩, fun b a => ⟨b, h' b, h _⟩⟩

/-- C147: `x^2 + 1` at 2 and 3 with this arithmetic -/
example : ∃ y, poly1dWith (fun a b : ℚ => a * b * (11 / 10)) (fun w v => w * v * (11 / 10)) (fun w a v => (a + w * v * (11 / 10)) * (11 / 10)) (fun b a => (a + b) * (11 / 10))
    ⟨[2], [2, 3], rfl⟩ [1, 0, 1] = .ok y ∧ |y.get [1] - polyValue [1, 0, 1] 3| ≤ roundingBound (1 / 10) 5 * polyValue [1, 0, 1] 3 :=
  C147_relative (by norm_num) accuratePoly_example ⟨[2], [2, 3], rfl⟩ [1, 0, 1] (by simp) (by simp) (show InB [2] [1] by simp [inB_iff]) (show (0 : ℚ) ≤ 3 by norm_num)

end TI
