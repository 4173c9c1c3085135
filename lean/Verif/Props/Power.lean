import Verif.Model.Power
import Verif.Spec.Misc
import Verif.Props.Misc

/-!
# safe_power: C65, C81
-/

namespace TI
open Tensor Spec

/-! ## masks -/

theorem maskedPut_select {β : Type} (f : β → β) : ∀ (m : List Bool) (l : List β), m.length = l.length →
    maskedPut m l ((maskedSelect m l).map f) = List.zipWith (fun b a => if b then f a else a) m l
  | [], [], _ => by simp [maskedPut]
  | true :: m, a :: l, h => by
    have := maskedPut_select f m l (by simpa using h)
    simp only [maskedSelect, List.map_map] at this
    simp [maskedPut, maskedSelect, this]
  | false :: m, a :: l, h => by
    have := maskedPut_select f m l (by simpa using h)
    simp only [maskedSelect, List.map_map] at this
    simp [maskedPut, maskedSelect, this]

theorem put_ofFn {β : Type} (f : β → β) (S : List Nat) (u : List Nat → β) (b : List Nat → Bool) :
    (ofFn S u).put (ofFn S b) (((ofFn S u).masked (ofFn S b)).map f) = ofFn S fun ix => if b ix then f (u ix) else u ix := by
  have h : maskedPut (ofFn S b).data (ofFn S u).data (((ofFn S u).masked (ofFn S b)).map f) =
      (ofFn S fun ix => if b ix then f (u ix) else u ix).data := by
    rw [Tensor.masked, maskedPut_select f _ _ (by simp [ofFn])]
    simp only [ofFn]
    rw [List.zipWith_map, List.zipWith_self]
  simp only [Tensor.put]
  congr 1

theorem any_ofFn (S : List Nat) (b : List Nat → Bool) : (ofFn S b).any = true ↔ ∃ ix, InB S ix ∧ b ix = true := by
  simp only [Tensor.any, ofFn, List.any_map, List.any_eq_true, Function.comp, id]
  simp only [mem_indices]

theorem getD_ofFn {β : Type} {S ix : List Nat} (h : InB S ix) (u : List Nat → β) (d : β) : (ofFn S u).data.getD (ravel S ix) d = u ix := by
  simp only [ofFn]
  rw [List.getD_eq_getElem?_getD, List.getElem?_map, indices_getElem? h]
  rfl

/-! ## the code on broadcast entries -/

theorem bidx_inB_right {s t r ix : List Nat} (h : bshape s t = some r) (hix : InB r ix) : InB t (bidx t ix) := by
  have hl := hix.length_eq
  simp only [bshape] at h
  split_ifs at h with hall
  simp only [Option.some.injEq] at h
  set n := max s.length t.length with hn
  have hs : (padOnes n s).length = n := by simp [padOnes]; omega
  have ht : (padOnes n t).length = n := by simp [padOnes]; omega
  have hr : r.length = n := by rw [← h]; simp [hs, ht]
  rw [inB_iff]
  refine ⟨by simp [bidx, hl, hr]; omega, ?_⟩
  intro k hk
  have hb : (bidx t ix).getD k 0 = if t.getD k 0 = 1 then 0 else ix.getD (n - t.length + k) 0 := by
    rw [bidx, List.getD_eq_getElem?_getD, List.getElem?_zipWith]
    have h1 : t[k]? = some (t.getD k 0) := by simp [hk]
    have h2 : (ix.drop (ix.length - t.length))[k]? = some (ix.getD (n - t.length + k) 0) := by
      rw [List.getElem?_drop, hl, hr]
      have : n - t.length + k < ix.length := by omega
      simp [this]
    rw [h1, h2]
    rfl
  have hj : n - t.length + k < n := by omega
  have hlt := (inB_iff.1 hix).2 (n - t.length + k) (by omega)
  have hpt : (padOnes n t)[n - t.length + k]? = some (t.getD k 0) := by
    rw [padOnes, List.getElem?_append_right (by simp)]
    simp [hk]
  obtain ⟨a, ha⟩ : ∃ a, (padOnes n s)[n - t.length + k]? = some a := ⟨_, List.getElem?_eq_getElem (by rw [hs]; exact hj)⟩
  have hval : r.getD (n - t.length + k) 0 = if a = 1 then t.getD k 0 else a := by
    rw [← h, List.getD_eq_getElem?_getD, List.getElem?_zipWith, ha, hpt]
    rfl
  have hcond : (a == t.getD k 0 || a == 1 || t.getD k 0 == 1) = true := by
    rw [List.all_eq_true] at hall
    apply hall
    have : (List.zipWith (fun a b => a == b || a == 1 || b == 1) (padOnes n s) (padOnes n t))[n - t.length + k]? =
        some (a == t.getD k 0 || a == 1 || t.getD k 0 == 1) := by rw [List.getElem?_zipWith, ha, hpt]
    exact List.mem_of_getElem? this
  simp only [Bool.or_eq_true, beq_iff_eq] at hcond
  rw [hb]
  rw [hval] at hlt
  by_cases h1 : t.getD k 0 = 1
  · rw [if_pos h1, h1]; omega
  · rw [if_neg h1]
    by_cases ha1 : a = 1
    · rwa [if_pos ha1] at hlt
    · rw [if_neg ha1] at hlt
      rcases hcond with (h | h) | h
      · omega
      · exact absurd h ha1
      · exact absurd h h1

/-- what the code computes per entry -/
noncomputable def codePow (ints : Bool) (eps x e : ℝ) : Val :=
  if isFractional e then
    let y := if x = 0 ∧ eps ≠ 0 then x + eps else x
    if x < 0 then (powVal ints (-y) e).neg else powVal ints y e
  else powVal ints x e

theorem torchPow_ofFn (ints : Bool) (S : List Nat) (u v : List Nat → ℝ) :
    torchPow ints (ofFn S u) (ofFn S v) = .ok (ofFn S fun ix => powVal ints (u ix) (v ix)) := bop_same' S u v

theorem isFractional_false {e : ℝ} : isFractional e = false ↔ Integral e := by
  simp only [isFractional, decide_eq_false_iff_not, not_not, Integral]
  constructor
  · intro h; exact ⟨_, h⟩
  · rintro ⟨n, rfl⟩; simp

theorem powCore_eq {x e : NumTensor} {eps : ℝ} {s : List Nat} (hs : bshape x.t.shape e.t.shape = some s)
    (hok : x.isInt = true → ∀ ix, InB s ix → Integral (e.t.get (bidx e.t.shape ix)) ∨ x.t.get (bidx x.t.shape ix) ≠ 0 ∨ eps = 0) :
    powCore x e eps = .ok (ofFn s fun ix => codePow (x.isInt && e.isInt) eps (x.t.get (bidx x.t.shape ix)) (e.t.get (bidx e.t.shape ix))) := by
  set ints := x.isInt && e.isInt
  set u : List Nat → ℝ := fun ix => x.t.get (bidx x.t.shape ix)
  set v : List Nat → ℝ := fun ix => e.t.get (bidx e.t.shape ix)
  by_cases hany : (e.t.map isFractional).any = false
  · have hnf : ∀ ix, InB e.t.shape ix → isFractional (e.t.get ix) = false := by
      intro ix hix
      by_contra h
      have h : isFractional (e.t.get ix) = true := by simpa using h
      have : (e.t.map isFractional).any = true := by
        rw [e.t.eq_ofFn_get, map_ofFn, any_ofFn]
        exact ⟨ix, hix, h⟩
      rw [this] at hany
      cases hany
    simp only [powCore, hany, if_true]
    change torchPow ints x.t e.t = _
    rw [torchPow, bop_of_bshape hs]
    congr 1
    apply ofFn_congr
    intro ix hix
    have : isFractional (v ix) = false := hnf _ (bidx_inB_right hs hix)
    simp only [codePow]
    rw [this]
    rfl
  · have hxb : x.t.expandTo s = ofFn s u := rfl
    have heb : e.t.expandTo s = ofFn s v := rfl
    have hzero : (ofFn s fun ix => ((ofFn s u).map fun w => decide (w = 0)).data.getD (ravel s ix) false &&
        ((ofFn s v).map isFractional).data.getD (ravel s ix) false) = ofFn s fun ix => decide (u ix = 0) && isFractional (v ix) := by
      apply ofFn_congr
      intro ix hix
      rw [map_ofFn, map_ofFn, getD_ofFn hix, getD_ofFn hix]
    have hneg : (ofFn s fun ix => ((ofFn s u).map fun w => decide (w < 0)).data.getD (ravel s ix) false &&
        ((ofFn s v).map isFractional).data.getD (ravel s ix) false) = ofFn s fun ix => decide (u ix < 0) && isFractional (v ix) := by
      apply ofFn_congr
      intro ix hix
      rw [map_ofFn, map_ofFn, getD_ofFn hix, getD_ofFn hix]
    set y : List Nat → ℝ := fun ix => if decide (u ix = 0) && isFractional (v ix) then (if eps ≠ 0 then u ix + eps else u ix) else u ix
    have hx2 : (if eps ≠ 0 ∧ (ofFn s fun ix => decide (u ix = 0) && isFractional (v ix)).any = true then
          if x.isInt then .error .runtime else .ok ((ofFn s u).put (ofFn s fun ix => decide (u ix = 0) && isFractional (v ix))
            (((ofFn s u).masked (ofFn s fun ix => decide (u ix = 0) && isFractional (v ix))).map fun v => v + eps))
        else .ok (ofFn s u) : Except Err (Tensor ℝ)) = .ok (ofFn s y) := by
      split_ifs with h1 h2
      · exfalso
        obtain ⟨ix, hix, h3⟩ := (any_ofFn _ _).1 h1.2
        simp only [Bool.and_eq_true, decide_eq_true_eq] at h3
        rcases hok h2 ix hix with h | h | h
        · rw [← isFractional_false] at h
          rw [show e.t.get (bidx e.t.shape ix) = v ix from rfl, h3.2] at h
          cases h
        · exact h h3.1
        · exact h1.1 h
      · rw [put_ofFn]
        congr 1
        apply ofFn_congr
        intro ix _
        simp only [y, h1.1, ne_eq, not_false_eq_true, if_true]
      · congr 1
        apply ofFn_congr
        intro ix hix
        simp only [y]
        split_ifs with h3 h4
        · exfalso
          exact h1 ⟨h4, (any_ofFn _ _).2 ⟨ix, hix, h3⟩⟩
        · rfl
        · rfl
    have hcode : ∀ ix, codePow ints eps (u ix) (v ix) =
        if decide (u ix < 0) && isFractional (v ix) then (powVal ints (-(y ix)) (v ix)).neg else powVal ints (y ix) (v ix) := by
      intro ix
      simp only [codePow, y]
      by_cases hf : isFractional (v ix) = true
      · simp only [hf, if_true, Bool.and_true, decide_eq_true_eq]
        by_cases h0 : u ix = 0 <;> by_cases he : eps = 0 <;> simp [h0, he]
      · simp only [Bool.not_eq_true] at hf
        simp [hf]
    simp only [powCore, hany]
    rw [if_neg (by simp)]
    simp only [hs, hxb, heb, hzero, hneg, bind, Except.bind]
    rw [hx2]
    simp only
    split_ifs with hn
    · rw [put_ofFn]
      change Except.bind (torchPow ints _ _) _ = _
      rw [torchPow_ofFn]
      simp only [Except.bind]
      rw [put_ofFn]
      congr 1
      apply ofFn_congr
      intro ix hix
      rw [hcode]
      split_ifs with h <;> rfl
    · change torchPow ints _ _ = _
      rw [torchPow_ofFn]
      congr 1
      apply ofFn_congr
      intro ix hix
      rw [hcode, if_neg]
      intro h
      exact hn ((any_ofFn _ _).2 ⟨ix, hix, h⟩)

open Classical in
theorem codePow_float {eps : ℝ} (heps : 0 < eps) (x e : ℝ) :
    codePow false eps x e = if x = 0 ∧ Integral e ∧ e < 0 then .bad else .real (safePow eps x e) := by
  by_cases hi : Integral e
  · have hf := isFractional_false.2 hi
    simp only [codePow, hf, powVal, safePow, hi, Bool.false_eq_true, if_false, and_false, false_or, if_true, true_and, false_and]
  · have hf : isFractional e = true := by
      by_contra h
      exact hi (isFractional_false.1 (by simpa using h))
    simp only [codePow, hf, if_true, safePow, hi, if_false, false_and, and_false]
    rcases lt_trichotomy x 0 with h | h | h
    · simp only [h, h.ne, if_true, false_and, if_false]
      have h1 : ¬ (-x < 0) := by linarith
      have h2 : ¬ (-x = 0) := by linarith
      simp [powVal, h1, h2, Val.neg]
    · have h1 : ¬ (eps < 0) := by linarith
      simp [h, heps.ne', powVal, h1]
    · have h1 : ¬ (x < 0) := by linarith
      have h2 : ¬ (x = 0) := by linarith
      simp [h1, h2, powVal]

/-- the numbers of an argument -/
noncomputable def NumArg.values : NumArg → Tensor ℝ
  | tensor x => x.t
  | int n => .scalar n
  | float r => .scalar r

/-- the base becomes a floating point tensor: it is one, or it is a number and the exponent is a floating point tensor, or it is a
float and the exponent is a number -/
def NumArg.FloatBase : NumArg → NumArg → Prop
  | tensor x, _ => x.isInt = false
  | _, tensor e => e.isInt = false
  | float _, _ => True
  | int _, _ => False

theorem NumArg.FloatBase.both {x e : NumArg} (h : x.FloatBase e) :
    (x.both e).1.isInt = false ∧ (x.both e).1.t = x.values ∧ (x.both e).2.t = e.values := by
  cases x with
  | tensor x =>
    have hx : x.isInt = false := h
    cases e <;> simp [NumArg.both, hx, NumArg.values, NumArg.asType]
  | int n =>
    cases e with
    | tensor e =>
      have he : e.isInt = false := h
      simp [NumArg.both, he, NumArg.values, NumArg.asType]
    | int m => exact h.elim
    | float r => exact h.elim
  | float r =>
    cases e with
    | tensor e =>
      have he : e.isInt = false := h
      simp [NumArg.both, he, NumArg.values, NumArg.asType]
    | int m => simp [NumArg.both, NumArg.values, NumArg.alone]
    | float q => simp [NumArg.both, NumArg.values, NumArg.alone]

/-- **C65.** For a floating point base and `epsilon > 0`, every entry of `safe_power(x, e)` is the promised power of the broadcast
entries, whatever the other entries are; the only exception is a negative integral power of zero, which is infinite. -/
theorem C65_safe_power {x e : NumArg} (h : x.FloatBase e) {eps : ℝ} (heps : 0 < eps) {s : List Nat}
    (hs : bshape x.values.shape e.values.shape = some s) :
    ∃ t, safePower x e eps = .ok t ∧ t.shape = s ∧ ∀ ix, InB s ix →
      (¬ (x.values.get (bidx x.values.shape ix) = 0 ∧ Integral (e.values.get (bidx e.values.shape ix)) ∧ e.values.get (bidx e.values.shape ix) < 0) →
        t.get ix = .real (safePow eps (x.values.get (bidx x.values.shape ix)) (e.values.get (bidx e.values.shape ix)))) ∧
      (x.values.get (bidx x.values.shape ix) = 0 ∧ Integral (e.values.get (bidx e.values.shape ix)) ∧ e.values.get (bidx e.values.shape ix) < 0 →
        t.get ix = .bad) := by
  obtain ⟨h1, h2, h3⟩ := h.both
  have := powCore_eq (x := (x.both e).1) (e := (x.both e).2) (eps := eps) (s := s) (by rw [h2, h3]; exact hs) (by rw [h1]; intro h; cases h)
  refine ⟨_, this, rfl, ?_⟩
  intro ix hix
  rw [get_ofFn hix, h1, h2, h3, Bool.false_and, codePow_float heps]
  exact ⟨fun h => if_neg h, fun h => if_pos h⟩

/-- **C65**: shapes that do not broadcast are rejected. -/
theorem C65_rejects_shapes (x e : NumArg) (eps : ℝ) (hs : bshape (x.both e).1.t.shape (x.both e).2.t.shape = none) :
    safePower x e eps = .error .runtime := by
  simp only [safePower, powCore]
  by_cases h : ((x.both e).2.t.map isFractional).any = false
  · rw [if_pos h]; simp only [torchPow, bop, hs]
  · rw [if_neg h]; simp only [hs]

/-- **C65**: the sign of the base is kept for fractional exponents. -/
theorem C65_sign {eps : ℝ} (heps : 0 < eps) {x e : ℝ} (he : ¬ Integral e) :
    (x < 0 → safePow eps x e < 0) ∧ (0 ≤ x → 0 < safePow eps x e) ∧ (x ≠ 0 → |safePow eps x e| = |x| ^ e) := by
  refine ⟨fun h => ?_, fun h => ?_, fun h => ?_⟩
  · simp only [safePow, he, if_false, h, if_true]
    have := Real.rpow_pos_of_pos (show 0 < -x by linarith) e
    linarith
  · simp only [safePow, he, if_false, not_lt.2 h]
    split_ifs with h0
    · exact Real.rpow_pos_of_pos heps e
    · exact Real.rpow_pos_of_pos (lt_of_le_of_ne h (Ne.symm h0)) e
  · simp only [safePow, he, if_false, h]
    rcases lt_or_gt_of_ne h with h0 | h0
    · rw [if_pos h0, abs_neg, abs_of_neg h0, abs_of_pos (Real.rpow_pos_of_pos (by linarith) e)]
    · rw [if_neg (by linarith), abs_of_pos h0, abs_of_pos (Real.rpow_pos_of_pos h0 e)]

/-- **C65** does not extend to `epsilon < 0`: at zero the base becomes negative and the result is NaN. -/
theorem C65_negative_epsilon {eps e : ℝ} (heps : eps < 0) (he : ¬ Integral e) :
    ∃ t, safePower (.float 0) (.float e) eps = .ok t ∧ t.get [] = .bad := by
  have := powCore_eq (x := ⟨false, .scalar 0⟩) (e := ⟨false, .scalar e⟩) (eps := eps) (s := []) rfl (by intro h; cases h)
  refine ⟨_, this, ?_⟩
  have hf : isFractional e = true := by
    by_contra h
    exact he (isFractional_false.1 (by simpa using h))
  rw [get_ofFn (by trivial)]
  simp [codePow, hf, heps.ne, powVal, heps]

/-! ## integer dtypes -/

/-- **C81** is false: with an integer tensor as base, a float exponent loses its fractional part, for every tensor and exponent. -/
theorem C81_truncates_exponent (x : Tensor ℝ) (r eps : ℝ) :
    safePower (.tensor ⟨true, x⟩) (.float r) eps = safePower (.tensor ⟨true, x⟩) (.int (truncInt r)) eps := by
  simp [safePower, NumArg.both, NumArg.asType]

/-- **C81** is false: with an integer tensor as exponent, a float base loses its fractional part. -/
theorem C81_truncates_base (e : Tensor ℝ) (r eps : ℝ) :
    safePower (.float r) (.tensor ⟨true, e⟩) eps = safePower (.int (truncInt r)) (.tensor ⟨true, e⟩) eps := by
  simp [safePower, NumArg.both, NumArg.asType]

/-- what holds for integer bases: if no entry combines a zero base with a fractional exponent, and negative exponents only occur in a
floating point tensor, the entries are the promised powers of the numbers *after* the conversion. -/
theorem C81_integers_partial {x e : NumTensor} (hx : x.isInt = true) {eps : ℝ} (heps : 0 < eps) {s : List Nat}
    (hs : bshape x.t.shape e.t.shape = some s)
    (hok : ∀ ix, InB s ix → Integral (e.t.get (bidx e.t.shape ix)) ∨ x.t.get (bidx x.t.shape ix) ≠ 0)
    (hpos : ∀ ix, InB s ix → (e.isInt = true ∨ x.t.get (bidx x.t.shape ix) = 0) → 0 ≤ e.t.get (bidx e.t.shape ix)) :
    ∃ t, safePower (.tensor x) (.tensor e) eps = .ok t ∧ t.shape = s ∧ ∀ ix, InB s ix →
      t.get ix = .real (safePow eps (x.t.get (bidx x.t.shape ix)) (e.t.get (bidx e.t.shape ix))) := by
  have := powCore_eq (x := x) (e := e) (eps := eps) (s := s) hs (fun _ ix hix => (hok ix hix).imp id Or.inl)
  refine ⟨_, this, rfl, ?_⟩
  intro ix hix
  rw [get_ofFn hix, hx, Bool.true_and]
  set a := x.t.get (bidx x.t.shape ix)
  set b := e.t.get (bidx e.t.shape ix)
  have hnb : ¬ (a = 0 ∧ Integral b ∧ b < 0) := by
    rintro ⟨h1, -, h2⟩
    have := hpos ix hix (Or.inr h1)
    linarith
  cases he : e.isInt with
  | false => rw [codePow_float heps, if_neg hnb]
  | true =>
    have hb : ¬ (b < 0) := not_lt.2 (hpos ix hix (Or.inl he))
    have hsame : ∀ y, powVal true y b = powVal false y b := by
      intro y
      simp [powVal, hb]
    have : codePow true eps a b = codePow false eps a b := by simp only [codePow, hsame]
    rw [this, codePow_float heps, if_neg hnb]

/-- **C81** is false: a zero in an integer tensor with a fractional exponent raises RuntimeError (in-place addition of a float). -/
theorem C81_zero_raises {x e : NumTensor} (hx : x.isInt = true) {eps : ℝ} (heps : eps ≠ 0) {s : List Nat}
    (hs : bshape x.t.shape e.t.shape = some s) {ix : List Nat} (hix : InB s ix)
    (h0 : x.t.get (bidx x.t.shape ix) = 0) (he : ¬ Integral (e.t.get (bidx e.t.shape ix))) :
    safePower (.tensor x) (.tensor e) eps = .error .runtime := by
  have hf : isFractional (e.t.get (bidx e.t.shape ix)) = true := by
    by_contra h
    exact he (isFractional_false.1 (by simpa using h))
  have hany : (e.t.map isFractional).any = true := by
    rw [e.t.eq_ofFn_get, map_ofFn, any_ofFn]
    exact ⟨_, bidx_inB_right hs hix, hf⟩
  have hz : (ofFn s fun ix => ((x.t.expandTo s).map fun w => decide (w = 0)).data.getD (ravel s ix) false &&
        ((e.t.expandTo s).map isFractional).data.getD (ravel s ix) false).any = true := by
    rw [any_ofFn]
    refine ⟨ix, hix, ?_⟩
    simp only [expandTo]
    rw [map_ofFn, map_ofFn, getD_ofFn hix, getD_ofFn hix, h0, hf]
    simp
  simp only [safePower, NumArg.both, NumArg.asType, powCore, hany, hs, hz, hx]
  simp [heps, bind, Except.bind]

/-- **C81** is false: a negative power of two integers is 0 unless the base is 1 or -1. -/
theorem C81_negative_exponent {x e : NumTensor} (hx : x.isInt = true) (he : e.isInt = true) (eps : ℝ) {s : List Nat}
    (hs : bshape x.t.shape e.t.shape = some s) (hi : ∀ ix, InB s ix → Integral (e.t.get (bidx e.t.shape ix))) :
    ∃ t, safePower (.tensor x) (.tensor e) eps = .ok t ∧ t.shape = s ∧ ∀ ix, InB s ix → e.t.get (bidx e.t.shape ix) < 0 →
      t.get ix = .real (if x.t.get (bidx x.t.shape ix) = 1 ∨ x.t.get (bidx x.t.shape ix) = -1 then
        x.t.get (bidx x.t.shape ix) ^ e.t.get (bidx e.t.shape ix) else 0) := by
  have := powCore_eq (x := x) (e := e) (eps := eps) (s := s) hs (fun _ ix hix => Or.inl (hi ix hix))
  refine ⟨_, this, rfl, ?_⟩
  intro ix hix hneg
  rw [get_ofFn hix, hx, he, codePow, isFractional_false.2 (hi ix hix), if_neg (by simp), powVal, if_pos ⟨rfl, hneg⟩]

/-! ## concrete cases -/

theorem half_not_integral : ¬ Integral (1 / 2) := by
  rintro ⟨n, hn⟩
  have h : (2 * n : ℝ) = 1 := by rw [hn]; norm_num
  have h2 : 2 * n = 1 := by exact_mod_cast h
  omega

/-- C81: the square root of the integer 4 is computed as 4 ^ 0 = 1 -/
theorem C81_root_of_four_false : ∃ t, safePower (.tensor ⟨true, Tensor.vec [4]⟩) (.float (1 / 2)) (1 / 1000000) = .ok t ∧
    t.get [0] = .real 1 ∧ safePow (1 / 1000000) 4 (1 / 2) = 2 := by
  rw [C81_truncates_exponent]
  have ht : truncInt (1 / 2 : ℝ) = 0 := by
    rw [truncInt, if_pos (by norm_num), Int.floor_eq_zero_iff]
    constructor <;> norm_num
  rw [ht]
  have := powCore_eq (x := ⟨true, Tensor.vec [4]⟩) (e := ⟨true, .scalar ((0 : Int) : ℝ)⟩) (eps := 1 / 1000000) (s := [1]) rfl (by
    intro _ ix _
    left
    exact ⟨0, by simp⟩)
  refine ⟨_, this, ?_, ?_⟩
  · rw [get_ofFn (by decide)]
    have hi : isFractional 0 = false := isFractional_false.2 ⟨0, by simp⟩
    simp [codePow, hi, powVal]
  · rw [safePow, if_neg half_not_integral, if_neg (by norm_num), if_neg (by norm_num), ← Real.sqrt_eq_rpow,
      show (4 : ℝ) = 2 ^ 2 by norm_num, Real.sqrt_sq (by norm_num)]

/-- C81: `safe_power(2, -1)` is 0, `safe_power(2., -1)` is 1/2 -/
theorem C81_half_false : (∃ t, safePower (.int 2) (.int (-1)) (1 / 1000000) = .ok t ∧ t.get [] = .real 0) ∧
    ∃ t, safePower (.float 2) (.int (-1)) (1 / 1000000) = .ok t ∧ t.get [] = .real (1 / 2) := by
  have hi : Integral (-1) := ⟨-1, by norm_num⟩
  constructor
  · obtain ⟨t, h1, h2, h3⟩ := C81_negative_exponent (x := ⟨true, .scalar ((2 : Int) : ℝ)⟩) (e := ⟨true, .scalar ((-1 : Int) : ℝ)⟩) rfl rfl
      (1 / 1000000) (s := []) rfl (by
        intro ix hix
        have : ix = [] := List.length_eq_zero_iff.1 (by simpa using hix.length_eq)
        subst this
        exact ⟨-1, rfl⟩)
    refine ⟨t, h1, ?_⟩
    have h := h3 [] (by trivial) (by
      show ((-1 : Int) : ℝ) < 0
      norm_num)
    rw [h]
    congr 1
    apply if_neg
    show ¬ (((2 : Int) : ℝ) = 1 ∨ ((2 : Int) : ℝ) = -1)
    norm_num
  · obtain ⟨t, h1, h2, h3⟩ := C65_safe_power (x := .float 2) (e := .int (-1)) (eps := 1 / 1000000) trivial (by norm_num) (s := []) rfl
    refine ⟨t, h1, ?_⟩
    have h : t.get [] = .real (safePow (1 / 1000000) 2 ((-1 : Int) : ℝ)) := (h3 [] (by trivial)).1 (by
      rintro ⟨h, -⟩
      have h : (2 : ℝ) = 0 := h
      norm_num at h)
    rw [h, safePow, if_pos ⟨-1, rfl⟩]
    congr 1
    rw [Real.rpow_intCast]
    norm_num

/-- C65: a row of bases against a column of exponents, among them a negative base with a fractional exponent and a zero -/
example : ∃ t, safePower (.tensor ⟨false, Tensor.vec [-4, 0, 9]⟩) (.tensor ⟨false, ⟨[2, 1], [1 / 2, 3], rfl⟩⟩) (1 / 1000000) = .ok t ∧
    t.shape = [2, 3] ∧ t.get [0, 0] = .real (-2) ∧ t.get [1, 0] = .real (-64) := by
  obtain ⟨t, h1, h2, h3⟩ := C65_safe_power (x := .tensor ⟨false, Tensor.vec [-4, 0, 9]⟩) (e := .tensor ⟨false, ⟨[2, 1], [1 / 2, 3], rfl⟩⟩)
    (eps := 1 / 1000000) rfl (by norm_num) (s := [2, 3]) rfl
  refine ⟨t, h1, h2, ?_, ?_⟩
  · have e : t.get [0, 0] = .real (safePow (1 / 1000000) (-4) (1 / 2)) := (h3 [0, 0] (by decide)).1 fun h => by
      have : (-4 : ℝ) = 0 := h.1
      norm_num at this
    rw [e, safePow, if_neg half_not_integral, if_pos (by norm_num), neg_neg, ← Real.sqrt_eq_rpow, show (4 : ℝ) = 2 ^ 2 by norm_num,
      Real.sqrt_sq (by norm_num)]
  · have e : t.get [1, 0] = .real (safePow (1 / 1000000) (-4) 3) := (h3 [1, 0] (by decide)).1 fun h => by
      have : (-4 : ℝ) = 0 := h.1
      norm_num at this
    rw [e, safePow, if_pos ⟨3, by simp⟩]
    norm_num

end TI
