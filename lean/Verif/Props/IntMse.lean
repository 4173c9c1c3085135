import Verif.Props.IntSharpen
import Verif.Props.Mse
import Mathlib.Data.Nat.Factorization.Basic

/-!
# Squared errors and peak signal-to-noise ratios of images with integer entries: C136
-/

set_option linter.unusedSectionVars false

namespace TI
open Tensor Spec

/-- squared difference of two machine integers, as a number of the type -/
def Spec.errorInt {t : IntType} (a b : t.Word) : ℤ := wrapped t ((t.value a - t.value b) ^ 2)

/-- the number of 64 bits that a number becomes -/
def Spec.to64 (n : ℤ) : ℤ := n.bmod (2 ^ 64)

theorem reduce_drop_any {α β : Type} [Zero α] (f : List α → β) {x : Tensor α} {axes : List Nat} (h : ∀ a ∈ axes, a < x.ndim) (hnd : axes.Nodup) :
    x.reduce f (castV axes) false = .ok (ofFn (onKept (reducedAxes x.ndim axes) x.shape) fun jx => f ((collected x.shape (reducedAxes x.ndim axes) jx).map x.get)) := by
  simp only [Tensor.reduce, reduceDims_eq h hnd, ok_bind, Bool.false_eq_true, if_false, collapse_none]
  rfl

section
variable {t : IntType} {X Y : Tensor t.Word} {ax : Axes} {axes : List Nat}

theorem ofInt_sq (a : ℤ) : (BitVec.ofInt t.bits a ^ 2 : t.Word) = BitVec.ofInt t.bits (a ^ 2) := by
  rw [pow_two, pow_two, BitVec.ofInt_mul]

theorem value_sq (a b : t.Word) : t.value ((a - b) ^ 2) = errorInt a b := by
  conv_lhs => rw [← ofInt_value a, ← ofInt_value b]
  rw [ofInt_sub', ofInt_sq, value_wrapped, errorInt]

theorem errorInt_comm (a b : t.Word) : errorInt a b = errorInt b a := by
  rw [errorInt, errorInt, show (t.value a - t.value b) ^ 2 = (t.value b - t.value a) ^ 2 by ring]

theorem mseWord_full (h : X.shape = Y.shape) : mseFull X Y = .ok (ofFn X.shape fun ix => (X.get ix - Y.get ix) ^ 2) := by
  simp only [mseFull, bop_same h, ok_bind, map_ofFn]

/-- **C136.** Without reduction the squared error of two images of integers is the square of the difference, modulo the size of the type. -/
theorem C136_none (h : X.shape = Y.shape) (hax : axesOf X.ndim ax = some axes) :
    mseWord t .none X Y ax = .ok (ofFn X.shape fun ix => errorInt (X.get ix) (Y.get ix)) := by
  rw [mseWord, if_neg (not_not.2 h), (checkAxes_spec hax).1, ok_bind, mseWord_full h, ok_bind]
  simp only [map_ofFn]
  congr 1
  exact ofFn_congr fun ix _ => value_sq _ _

/-- **C136.** Sums of squared errors are computed with 64 bits, the squares themselves with those of the type. -/
theorem C136_sum (h : X.shape = Y.shape) (hax : axesOf X.ndim ax = some axes) (hnd : axes.Nodup) :
    mseWord t .sum X Y ax = .ok (ofFn (onKept (reducedAxes X.ndim axes) X.shape) fun jx =>
      to64 ((collected X.shape (reducedAxes X.ndim axes) jx).map fun ix => errorInt (X.get ix) (Y.get ix)).sum) := by
  obtain ⟨h1, h2⟩ := checkAxes_spec hax
  rw [mseWord, if_neg (not_not.2 h), h1, ok_bind, mseWord_full h, ok_bind]
  simp only
  rw [reduce_drop_any (x := ofFn X.shape fun ix => (X.get ix - Y.get ix) ^ 2) _ h2 hnd]
  congr 1
  refine ofFn_congr fun jx _ => ?_
  rw [BitVec.toInt_ofInt, to64, List.map_map]
  refine congrArg (fun s => Int.bmod (List.sum s) (2 ^ 64)) (List.map_congr_left fun ix hix => ?_)
  have hix' : InB X.shape ix := (mem_collected.1 hix).1
  rw [Function.comp, get_ofFn hix', value_sq]

/-- **C136.** With the default reduction, the mean, images of integers are rejected, by the squared error and by the peak signal-to-noise ratio: PyTorch has no means of
integers. -/
theorem C136_rejects_mean (h : X.shape = Y.shape) (hax : axesOf X.ndim ax = some axes) (maxValue eps : ℝ) :
    mseWord t .mean X Y ax = .error .runtime ∧ psnrWord t maxValue eps .mean X Y ax = .error .runtime := by
  have e : mseWord t .mean X Y ax = .error .runtime := by
    rw [mseWord, if_neg (not_not.2 h), (checkAxes_spec hax).1, ok_bind, mseWord_full h, ok_bind]
  exact ⟨e, by rw [psnrWord, e]; rfl⟩

/-- **C136**: images of different shapes, and unknown reductions, are rejected as for other images. -/
theorem C136_rejects (h : X.shape ≠ Y.shape) (r : Reduction) (ax : Axes) : mseWord t r X Y ax = .error .assertion := by
  rw [mseWord, if_pos h]

theorem C136_rejects_reduction (h : X.shape = Y.shape) (hax : axesOf X.ndim ax = some axes) : mseWord t .unknown X Y ax = .error .value := by
  rw [mseWord, if_neg (not_not.2 h), (checkAxes_spec hax).1, ok_bind, mseWord_full h, ok_bind]

/-- **C136**: repeated axes are rejected. -/
theorem C136_rejects_repeated (h : X.shape = Y.shape) (hax : axesOf X.ndim ax = some axes) (hnd : ¬ axes.Nodup) : mseWord t .sum X Y ax = .error .runtime := by
  obtain ⟨h1, h2⟩ := checkAxes_spec hax
  have h3 : reduceDims (ofFn X.shape fun ix => (X.get ix - Y.get ix) ^ 2).ndim (castV axes) = .error .runtime := reduceDims_repeated h2 hnd
  rw [mseWord, if_neg (not_not.2 h), h1, ok_bind, mseWord_full h, ok_bind]
  simp only [Tensor.reduce, h3]
  rfl

/-- **C136**: exchanging the images changes nothing, whatever the arguments. -/
theorem C136_symmetric (r : Reduction) (X Y : Tensor t.Word) (ax : Axes) : mseWord t r X Y ax = mseWord t r Y X ax := by
  by_cases h : X.shape = Y.shape
  · have e : (ofFn X.shape fun ix => (X.get ix - Y.get ix) ^ 2) = ofFn Y.shape fun ix => (Y.get ix - X.get ix) ^ 2 := by
      rw [← h]
      exact ofFn_congr fun ix _ => by ring
    have hn : X.ndim = Y.ndim := by rw [ndim, ndim, h]
    simp only [mseWord, mseWord_full h, mseWord_full h.symm, e, hn, if_neg (not_not.2 h), if_neg (not_not.2 h.symm)]
  · rw [C136_rejects h, C136_rejects (Ne.symm h)]

theorem sq_dvd {b : Nat} (d : ℤ) : (2 : ℤ) ^ b ∣ d ^ 2 ↔ (2 : ℤ) ^ ((b + 1) / 2) ∣ d := by
  rcases eq_or_ne d 0 with rfl | hd
  · simp
  have hd' : d.natAbs ≠ 0 := Int.natAbs_ne_zero.2 hd
  have e1 : (2 : ℤ) ^ b ∣ d ^ 2 ↔ 2 ^ b ∣ d.natAbs ^ 2 := by
    rw [← Int.natAbs_dvd_natAbs, Int.natAbs_pow, Int.natAbs_pow]; rfl
  have e2 : (2 : ℤ) ^ ((b + 1) / 2) ∣ d ↔ 2 ^ ((b + 1) / 2) ∣ d.natAbs := by
    rw [← Int.natAbs_dvd_natAbs, Int.natAbs_pow]; rfl
  rw [e1, e2, Nat.prime_two.pow_dvd_iff_le_factorization (pow_ne_zero _ hd'), Nat.prime_two.pow_dvd_iff_le_factorization hd', Nat.factorization_pow]
  simp only [Finsupp.smul_apply, smul_eq_mul]
  omega

theorem wrapped_eq_zero (n : ℤ) : wrapped t n = 0 ↔ (2 : ℤ) ^ t.bits ∣ n := by
  rw [wrapped]
  split_ifs
  · rw [← Int.dvd_iff_bmod_eq_zero]
    push_cast
    rfl
  · exact (Int.dvd_iff_emod_eq_zero).symm

/-- **C136.** The squared error of two numbers of `b` bits is zero if and only if they differ by a multiple of 2 to the power of half of `b` (rounded up): two pictures with 8 bits
that differ by 16, 32 or 240 grey levels everywhere are equal for `MSE`. -/
theorem C136_zero_iff (a b : t.Word) : errorInt a b = 0 ↔ (2 : ℤ) ^ ((t.bits + 1) / 2) ∣ t.value a - t.value b := by
  rw [errorInt, wrapped_eq_zero, sq_dvd]

/-- **C136.** The error of one sample is a number of the type; it is the square of the difference if and only if that is a number of the type. -/
theorem C136_entry (hb : 0 < t.bits) (a b : t.Word) : Holdable t (errorInt a b) ∧ (errorInt a b = (t.value a - t.value b) ^ 2 ↔ Holdable t ((t.value a - t.value b) ^ 2)) := by
  refine ⟨wrapped_holdable _, fun h => ?_, fun h => wrapped_id hb h⟩
  rw [← h]
  exact wrapped_holdable _

theorem to64_id {n : ℤ} (h1 : -2 ^ 63 ≤ n) (h2 : n < 2 ^ 63) : to64 n = n := by
  rw [to64]
  exact Int.bmod_eq_of_le (by norm_num at h1 ⊢; exact h1) (by norm_num at h2 ⊢; exact h2)

end

section
variable {α : Type} [Field α] [LinearOrder α] [IsStrictOrderedRing α] {t : IntType} {X Y : Tensor t.Word} {ax : Axes} {axes : List Nat}

/-- **C136.** If all squared differences are numbers of the type, and the sums need no more than 64 bits, the errors are those of the numbers. -/
theorem C136_exact (hb : 0 < t.bits) (h : X.shape = Y.shape) (hax : axesOf X.ndim ax = some axes) (hnd : axes.Nodup)
    (hsq : ∀ ix, InB X.shape ix → Holdable t ((t.value (X.get ix) - t.value (Y.get ix)) ^ 2))
    (hsum : ∀ jx, ((collected X.shape (reducedAxes X.ndim axes) jx).map fun ix => (t.value (X.get ix) - t.value (Y.get ix)) ^ 2).sum < 2 ^ 63) :
    (∃ z, mseWord t .none X Y ax = .ok z ∧ mse .none (numbers X : Tensor α) (numbers Y) ax = .ok (z.map fun n : ℤ => (n : α))) ∧
      ∃ z, mseWord t .sum X Y ax = .ok z ∧ mse .sum (numbers X : Tensor α) (numbers Y) ax = .ok (z.map fun n : ℤ => (n : α)) := by
  have hN : ∀ ix, InB X.shape ix → ((errorInt (X.get ix) (Y.get ix) : ℤ) : α) = ((numbers X : Tensor α).get ix - (numbers Y : Tensor α).get ix) ^ 2 := by
    intro ix hix
    rw [(C136_entry hb _ _).2.2 (hsq ix hix), numbers, numbers, get_map _ _ hix, get_map _ _ (h ▸ hix)]
    push_cast
    rfl
  have hs : (numbers X : Tensor α).shape = (numbers Y : Tensor α).shape := h
  refine ⟨⟨_, C136_none h hax, ?_⟩, _, C136_sum h hax hnd, ?_⟩
  · rw [C55_none hs hax, map_ofFn]
    congr 1
    exact ofFn_congr fun ix hix => (hN ix hix).symm
  · rw [C55_sum hs hax hnd, map_ofFn]
    congr 1
    refine ofFn_congr fun jx _ => ?_
    have e : (collected X.shape (reducedAxes X.ndim axes) jx).map (fun ix => errorInt (X.get ix) (Y.get ix)) =
        (collected X.shape (reducedAxes X.ndim axes) jx).map fun ix => (t.value (X.get ix) - t.value (Y.get ix)) ^ 2 :=
      List.map_congr_left fun ix hix => (C136_entry hb _ _).2.2 (hsq ix (mem_collected.1 hix).1)
    have h0 : 0 ≤ ((collected X.shape (reducedAxes X.ndim axes) jx).map fun ix => (t.value (X.get ix) - t.value (Y.get ix)) ^ 2).sum :=
      List.sum_nonneg fun v hv => by
        obtain ⟨ix, _, rfl⟩ := List.mem_map.1 hv
        exact sq_nonneg _
    rw [e, to64_id (le_trans (by norm_num) h0) (hsum jx), ← e, Int.cast_list_sum, List.map_map]
    exact congrArg List.sum (List.map_congr_left fun ix hix => (hN ix (mem_collected.1 hix).1).symm)

end

section
variable {t : IntType} {X Y : Tensor t.Word} {ax : Axes}

/-- **C136**: the ratio is computed from the wrapped error. -/
theorem C136_psnr {r : Reduction} {m : Tensor ℤ} (hm : mseWord t r X Y ax = .ok m) {maxValue : ℝ} (hmax : 0 < maxValue) (eps : ℝ)
    (hpos : ∀ jx, InB m.shape jx → 0 < (m.get jx : ℝ) + max eps 0) :
    ∃ z, psnrWord t maxValue eps r X Y ax = .ok z ∧ z.shape = m.shape ∧ ∀ jx, InB m.shape jx →
      z.get jx = 10 * Real.logb 10 (maxValue ^ 2 / ((m.get jx : ℝ) + max eps 0)) := by
  have hlog : ∀ v : ℝ, 0 < v → 20 * Real.logb 10 maxValue - 10 * Real.logb 10 v = 10 * Real.logb 10 (maxValue ^ 2 / v) := by
    intro v hv
    rw [Real.logb_div (by positivity) hv.ne', Real.logb_pow]
    push_cast
    ring
  by_cases he : eps > 0
  · refine ⟨((m.map fun n : ℤ => (n : ℝ)).map (· + eps)).map fun v => 20 * Real.logb 10 maxValue - 10 * Real.logb 10 v, ?_, rfl, ?_⟩
    · simp only [psnrWord, hm, ok_bind, if_pos he]
    · intro jx hjx
      have := hpos jx hjx
      rw [get_map _ _ (show InB ((m.map fun n : ℤ => (n : ℝ)).map (· + eps)).shape jx from hjx), get_map _ _ (show InB (m.map fun n : ℤ => (n : ℝ)).shape jx from hjx),
        get_map _ _ hjx]
      rw [max_eq_left he.le] at this ⊢
      exact hlog _ this
  · refine ⟨(m.map fun n : ℤ => (n : ℝ)).map fun v => 20 * Real.logb 10 maxValue - 10 * Real.logb 10 v, ?_, rfl, ?_⟩
    · simp only [psnrWord, hm, ok_bind, if_neg he]
    · intro jx hjx
      have := hpos jx hjx
      rw [get_map _ _ (show InB (m.map fun n : ℤ => (n : ℝ)).shape jx from hjx), get_map _ _ hjx]
      rw [max_eq_right (not_lt.1 he), add_zero] at this ⊢
      exact hlog _ this

end

namespace IntMseExample
open IntPadExample

/-- the errors of two signals -/
def runMse (t : IntType) (r : Reduction) (a b : List ℤ) : Option (List ℤ) :=
  match mseWord t r (img t a) (img t b) .none with
  | .ok z => some z.data
  | .error _ => none

/-- two signals with small differences -/
example : ∃ z, mseWord uint8 .sum (img uint8 [10, 20, 200]) (img uint8 [13, 20, 190]) .none = .ok z ∧
    mse .sum (numbers (img uint8 [10, 20, 200]) : Tensor ℚ) (numbers (img uint8 [13, 20, 190])) .none = .ok (z.map fun n : ℤ => (n : ℚ)) := by
  refine (C136_exact (α := ℚ) (t := uint8) (X := img uint8 [10, 20, 200]) (Y := img uint8 [13, 20, 190]) (ax := .none) (axes := [0]) (by decide) rfl rfl (by simp) ?_ ?_).2
  · intro ix hix
    have hm := mem_indices.2 hix
    have : ix = [0] ∨ ix = [1] ∨ ix = [2] := by
      have e : indices (img uint8 [10, 20, 200]).shape = [[0], [1], [2]] := by decide
      rw [e] at hm
      simpa using hm
    rcases this with rfl | rfl | rfl <;> simp only [Holdable] <;> decide
  · intro jx
    by_cases h : jx = []
    · subst h
      decide +kernel
    · have e : collected (img uint8 [10, 20, 200]).shape (reducedAxes (img uint8 [10, 20, 200]).ndim [0]) jx = [] := by
        rw [collected, List.filter_eq_nil_iff]
        intro ix hix
        have e : indices (img uint8 [10, 20, 200]).shape = [[0], [1], [2]] := by decide
        rw [e] at hix
        have e2 : onKept (reducedAxes (img uint8 [10, 20, 200]).ndim [0]) ix = [] := by
          rcases (by simpa using hix : ix = [0] ∨ ix = [1] ∨ ix = [2]) with rfl | rfl | rfl <;> decide
        rw [e2]
        simpa using Ne.symm h
      rw [e]
      norm_num

end IntMseExample

open IntMseExample IntPadExample in
/-- **C136**: errors of 16 grey levels are no errors with 8 bits; errors may be negative in signed types; a sum of squares may exceed the type; the mean is refused. -/
theorem C136_differ :
    runMse uint8 .sum [10, 20, 200] [26, 4, 248] = some [0] ∧ runMse uint8 .none [10, 20, 200] [13, 37, 100] = some [9, 33, 16] ∧
    runMse int8 .none [10, 0, -100] [-2, 11, 100] = some [-112, 121, 64] ∧ runMse uint8 .sum [0, 0, 0] [15, 15, 15] = some [675] ∧
    runMse uint8 .mean [0, 0, 0] [15, 15, 15] = none := by
  decide +kernel

end TI
