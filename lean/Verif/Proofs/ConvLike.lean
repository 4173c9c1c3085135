import Verif.Model.ConvLike
import Verif.Spec.Counts
import Mathlib.Tactic.Ring
import Mathlib.Tactic.Linarith
import Mathlib.Tactic.SplitIfs
import Mathlib.Algebra.Order.Ring.Int

/-!
# Window arithmetic
-/

namespace TI
open Spec

theorem countP_interval (k a b : Nat) :
    (List.range k).countP (fun j => decide (a ≤ j ∧ j < b)) = min k b - a := by
  induction k with
  | zero => simp
  | succ k ih =>
    rw [List.range_succ, List.countP_append, ih, List.countP_singleton]
    by_cases h : a ≤ k ∧ k < b
    · simp [h]; omega
    · simp [h]; omega

theorem countP_lt (k b : Nat) : (List.range k).countP (fun j => decide (j < b)) = min k b := by
  have := countP_interval k 0 b
  simpa using this

theorem windowCount_eq {n k s d : Nat} (hs : 0 < s) :
    windowCount n k s d = if d * (k - 1) < n then (n - d * (k - 1) - 1) / s + 1 else 0 := by
  rw [windowCount]
  generalize d * (k - 1) = e
  split_ifs with h
  · have : (fun t : Nat => decide (t * s + e < n)) = fun t => decide (t < (n - e - 1) / s + 1) := by
      funext t
      congr 1
      rw [Nat.lt_succ_iff, Nat.le_div_iff_mul_le hs]
      simp only [eq_iff_iff]
      omega
    rw [this, countP_lt]
    have : (n - e - 1) / s ≤ n - e - 1 := Nat.div_le_self _ _
    omega
  · have : (fun t : Nat => decide (t * s + e < n)) = fun _ => false := by
      funext t
      simp only [decide_eq_false_iff_not]
      omega
    rw [this]
    simp

theorem ceilDiv_eq {n s : Nat} (hs : 0 < s) : ceilDiv n s = (n + s - 1) / s := by
  have h := windowCount_eq (n := n) (k := 1) (s := s) (d := 0) hs
  have e : ceilDiv n s = windowCount n 1 s 0 := by simp [ceilDiv, windowCount]
  rw [e, h]
  split_ifs with h0
  · rw [Nat.zero_mul] at h0 ⊢
    have : n + s - 1 = (n - 0 - 1) + s := by omega
    rw [this, Nat.add_div_right _ hs]
  · have : n = 0 := by omega
    subst this
    rw [Nat.zero_add, Nat.div_eq_of_lt (by omega)]

theorem fdiv_bounds {a s : Int} (hs : 0 < s) : a.fdiv s * s ≤ a ∧ a < (a.fdiv s + 1) * s := by
  rw [Int.fdiv_eq_ediv_of_nonneg _ (by omega)]
  have h1 := Int.emod_nonneg a (show s ≠ 0 by omega)
  have h2 := Int.emod_lt_of_pos a hs
  have h3 := Int.mul_ediv_add_emod a s
  constructor <;> nlinarith

theorem conv1d_eq {n k s d : Nat} (hs : 0 < s) (hk : 0 < k) :
    ∃ r, conv1d n k s d = .ok r ∧ r.toNat = windowCount n k s d ∧ (d * (k - 1) < n → r = windowCount n k s d) := by
  refine ⟨((n : Int) - d * (k - 1) - 1).fdiv s + 1, by
    rw [conv1d, pyDiv, if_neg (show (s : Int) ≠ 0 by omega)]; rfl, ?_⟩
  rw [windowCount_eq hs]
  have e : ((n : Int) - d * (k - 1) - 1) = (n : Int) - ((d * (k - 1) : Nat) : Int) - 1 := by
    rw [Nat.cast_mul, Nat.cast_sub hk]; simp
  rw [e]
  generalize d * (k - 1) = e
  rw [Int.fdiv_eq_ediv_of_nonneg _ (by omega)]
  split_ifs with h
  · have : ((n : Int) - e - 1) = ((n - e - 1 : Nat) : Int) := by omega
    rw [this]
    have := Int.natCast_div (n - e - 1) s
    have := Int.ediv_nonneg (Int.natCast_nonneg (n - e - 1)) (Int.natCast_nonneg s)
    constructor
    · omega
    · intro _; push_cast; omega
  · refine ⟨?_, fun h' => absurd h' h⟩
    have : ((n : Int) - e - 1) / s < 0 := Int.ediv_neg_of_neg_of_pos (by omega) (by omega)
    omega

/-! ### same padding -/

theorem samePaddingWidth_eq {k s n : Nat} (hs : 0 < s) :
    ∃ t : Nat, samePaddingWidth k (some (s : Int)) (some (n : Int)) = .ok (((t - t / 2 : Nat) : Int), ((t / 2 : Nat) : Int)) ∧
      (t : Int) = max (((ceilDiv n s : Nat) : Int) * s - s + k - n) 0 := by
  have hc : ∀ (hs1 : s ≠ 1), -((-(n : Int)).fdiv s) = ((ceilDiv n s : Nat) : Int) := by
    intro _
    rw [ceilDiv_eq hs, Int.fdiv_eq_ediv_of_nonneg _ (by omega)]
    have h := fdiv_bounds (a := -(n : Int)) (s := s) (by omega)
    rw [Int.fdiv_eq_ediv_of_nonneg _ (by omega)] at h
    have h1 : (n + s - 1) / s * s ≤ n + s - 1 := Nat.div_mul_le_self _ _
    have h2 : n + s - 1 < ((n + s - 1) / s + 1) * s := by
      have := Nat.lt_div_mul_add (a := n + s - 1) hs
      rw [Nat.add_mul]; omega
    generalize (n + s - 1) / s = c at *
    generalize (-(n : Int)) / (s : Int) = q at *
    have h1' : (c : Int) * s ≤ n + s - 1 := by
      have : ((c * s : Nat) : Int) ≤ ((n + s - 1 : Nat) : Int) := by exact_mod_cast h1
      push_cast [Nat.cast_sub (show 1 ≤ n + s by omega)] at this
      linarith
    have h2' : (n : Int) ≤ c * s := by
      have : n + s - 1 < c * s + s := by rw [Nat.add_mul] at h2; omega
      have : n ≤ c * s := by omega
      exact_mod_cast this
    have hs' : (0 : Int) < s := by omega
    have l1 : -q < (c : Int) + 1 := by
      by_contra hcon
      have : ((c : Int) + 1) * s ≤ -q * s := Int.mul_le_mul_of_nonneg_right (by omega) (by omega)
      nlinarith [h.1, h.2]
    have l2 : (c : Int) < -q + 1 := by
      by_contra hcon
      have : (-q + 1) * (s : Int) ≤ c * s := Int.mul_le_mul_of_nonneg_right (by omega) (by omega)
      nlinarith [h.1, h.2]
    omega
  have hfin : ∀ T : Int, ∃ t : Nat, (T.toNat = t) ∧ (max T 0 - (max T 0).fdiv 2, (max T 0).fdiv 2) =
      (((t - t / 2 : Nat) : Int), ((t / 2 : Nat) : Int)) := by
    intro T
    refine ⟨T.toNat, rfl, ?_⟩
    rw [Int.fdiv_eq_ediv_of_nonneg _ (by omega)]
    ext <;> simp <;> omega
  by_cases hs1 : s = 1
  · subst hs1
    obtain ⟨t, h1, h2⟩ := hfin ((k : Int) - 1)
    refine ⟨t, ?_, ?_⟩
    · simp only [samePaddingWidth]
      rw [if_pos (by simp)]
      exact congrArg _ h2
    · have : ceilDiv n 1 = n := by rw [ceilDiv_eq (by omega)]; simp
      rw [this]
      push_cast
      omega
  · obtain ⟨t, h1, h2⟩ := hfin (((ceilDiv n s : Nat) - 1) * s + k - n)
    refine ⟨t, ?_, ?_⟩
    · simp only [samePaddingWidth]
      rw [if_neg (by simpa using hs1)]
      simp only [Option.getD_some]
      rw [if_neg (by omega), hc hs1]
      exact congrArg _ h2
    · have : ((ceilDiv n s : Nat) : Int) * s - s + k - n = ((ceilDiv n s : Nat) - 1) * s + k - n := by ring
      rw [this]
      omega

/-! ### n_original_elements_1d -/

/-- count of original samples in a window of size `k` whose first original sample is at offset `p` -/
def cnt (n k : Nat) (p : Int) : Int := max 0 (min (k : Int) (p + n) - max 0 p)

theorem originals_eq (n b k s t : Nat) : ((originals n b k s t : Nat) : Int) = cnt n k ((b : Int) - t * s) := by
  have : (fun j : Nat => decide (b ≤ t * s + j ∧ t * s + j < b + n)) =
      fun j => decide (b - t * s ≤ j ∧ j < b + n - t * s) := by
    funext j
    congr 1
    simp only [eq_iff_iff]
    omega
  rw [originals, this, countP_interval, cnt]
  have e : ((t : Int) * s) = ((t * s : Nat) : Int) := by push_cast; rfl
  rw [e]
  omega

/-- the list so far is correct and `p` is the offset of the next window -/
def Inv (n b k s : Nat) (t : Nat) (ret : List Int) (p : Int) : Prop :=
  ret = (List.range t).map (fun t => ((originals n b k s t : Nat) : Int)) ∧ p = (b : Int) - t * s

variable {n b k s t : Nat} {ret : List Int} {p : Int}

theorem Inv.push (h : Inv n b k s t ret p) {v : Int} (hv : v = cnt n k p) :
    Inv n b k s (t + 1) (ret ++ [v]) (p - s) := by
  obtain ⟨h1, h2⟩ := h
  refine ⟨?_, ?_⟩
  · rw [List.range_succ, List.map_append, ← h1, hv, h2, ← originals_eq]
    rfl
  · rw [h2]; push_cast; ring

theorem Inv.rep (h : Inv n b k s t ret p) {v : Int} {m : Nat} (hv : ∀ i : Nat, i < m → v = cnt n k (p - i * s)) :
    Inv n b k s (t + m) (ret ++ List.replicate m v) (p - s * m) := by
  induction m generalizing t ret p with
  | zero => simpa using h
  | succ m ih =>
    have h1 := h.push (v := v) (by simpa using hv 0 (by omega))
    have h2 := ih h1 (fun i hi => by
      rw [hv (i + 1) (by omega)]
      congr 1
      push_cast; ring)
    rw [List.replicate_succ, List.append_cons]
    have e1 : t + 1 + m = t + (m + 1) := by omega
    have e2 : p - s - s * (m : Int) = p - s * ((m + 1 : Nat) : Int) := by push_cast; ring
    rw [← e1, ← e2]
    exact h2

theorem Inv.rising (h : Inv n b k s t ret p) (hp : p ≤ k) {m : Nat}
    (hm : ∀ i : Nat, i < m → 0 ≤ p - i * s ∧ (k : Int) ≤ p - i * s + n) :
    Inv n b k s (t + m) (risingLoop k s m ret p).1 (risingLoop k s m ret p).2 ∧
      (risingLoop k s m ret p).2 = p - m * s := by
  induction m generalizing t ret p with
  | zero => exact ⟨by simpa [risingLoop] using h, by simp [risingLoop]⟩
  | succ m ih =>
    rw [risingLoop]
    have h0 := hm 0 (by omega)
    simp only [Nat.cast_zero, Int.zero_mul, sub_zero] at h0
    have h1 := h.push (v := k - p) (by rw [cnt]; omega)
    obtain ⟨g1, g2⟩ := ih h1 (by omega) (fun i hi => by
      have := hm (i + 1) (by omega)
      have e : p - s - (i : Int) * s = p - ((i + 1 : Nat) : Int) * s := by push_cast; ring
      rw [e]; exact this)
    have e1 : t + 1 + m = t + (m + 1) := by omega
    refine ⟨by rw [← e1]; exact g1, ?_⟩
    rw [g2]; push_cast; ring

theorem Inv.plateau (hs : 0 < s) : ∀ (fuel : Nat) {t : Nat} {ret : List Int} {p : Int}, Inv n b k s t ret p →
    (0 < p → p + n ≤ k) → p ≤ fuel →
    ∃ t' ret' p', plateauLoop n s fuel ret p = some (ret', p') ∧ Inv n b k s t' ret' p' ∧ p' ≤ 0 ∧
      (p' ≤ p)
  | fuel, t, ret, p, h, hk, hf => by
    rw [plateauLoop.eq_def]
    simp only
    by_cases hp : p > 0
    · rw [if_pos hp]
      cases fuel with
      | zero => omega
      | succ fuel =>
        simp only
        have h1 := h.push (v := n) (by rw [cnt]; omega)
        obtain ⟨t', ret', p', g1, g2, g3, g4⟩ := Inv.plateau hs fuel h1 (fun _ => by omega) (by omega)
        exact ⟨t', ret', p', g1, g2, g3, by omega⟩
    · rw [if_neg hp]
      exact ⟨t, ret, p, rfl, h, by omega, le_refl _⟩

theorem Inv.falling (h : Inv n b k s t ret p) (hp : p ≤ 0) (m : Nat) (hk : p + n ≤ k)
    (hm : ∀ i : Nat, i < m → 0 < p + n - i * s) :
    ∃ (ret' : List Int) (p' : Int), fallingLoop s ((List.range m).map fun (j : Nat) => (p + n) - (j : Int) * s) ret (p + n) = (ret', p' + n) ∧
      Inv n b k s (t + m) ret' p' ∧ p' = p - m * s := by
  induction m generalizing t ret p with
  | zero => exact ⟨ret, p, by simp [fallingLoop], by simpa using h, by simp⟩
  | succ m ih =>
    have h0 := hm 0 (by omega)
    simp only [Nat.cast_zero, Int.zero_mul, sub_zero] at h0
    have h1 := h.push (v := p + n) (by rw [cnt]; omega)
    obtain ⟨ret', p', g1, g2, g3⟩ := ih h1 (by omega) (by omega) (fun i hi => by
      have := hm (i + 1) (by omega)
      have e : p - s + (n : Int) - (i : Int) * s = p + n - ((i + 1 : Nat) : Int) * s := by push_cast; ring
      rw [e]; exact this)
    refine ⟨ret', p', ?_, ?_, ?_⟩
    · rw [List.range_succ_eq_map, List.map_cons, fallingLoop, List.map_map]
      have e1 : p + (n : Int) - (s : Int) = p - s + n := by ring
      have e2 : ((fun j : Nat => p + (n : Int) - (j : Int) * s) ∘ Nat.succ) = fun j : Nat => (p - s + (n : Int)) - (j : Int) * s := by
        funext j
        simp only [Function.comp, Nat.succ_eq_add_one]
        push_cast; ring
      rw [e1, e2]
      have e3 : p + (n : Int) - ((0 : Nat) : Int) * s = p + n := by simp
      rw [e3]
      exact g1
    · have e1 : t + 1 + m = t + (m + 1) := by omega
      rw [← e1]; exact g2
    · rw [g3]; push_cast; ring

theorem pyRep_toNat (m : Int) (v : Int) : pyRep m v = List.replicate m.toNat v := rfl

theorem pyDiv_pos {a s : Int} (hs : 0 < s) : pyDiv a s = .ok (a.fdiv s) := by
  rw [pyDiv, if_neg (by omega)]

theorem fdiv_sub_mul {a s : Int} (hs : 0 < s) (t : Nat) : (a - t * s).fdiv s = a.fdiv s - t := by
  rw [Int.fdiv_eq_ediv_of_nonneg _ (by omega), Int.fdiv_eq_ediv_of_nonneg _ (by omega),
    Int.sub_mul_ediv_right _ _ (by omega)]

theorem Inv.skip (hs : 0 < s) (hk : 0 < k) :
    ∃ t ret p, skipBefore b k s = .ok (ret, p) ∧ Inv n b k s t ret p ∧ p ≤ k ∧ -(s : Int) < p := by
  rw [skipBefore]
  have hinit : Inv n b k s 0 [] b := ⟨rfl, by simp⟩
  by_cases h : (b : Int) > k
  · rw [if_pos h, pyDiv_pos (by omega), pyMod, if_neg (by omega)]
    have hb := fdiv_bounds (a := (b : Int) - k) (s := s) (by omega)
    have hq : 0 ≤ ((b : Int) - k).fdiv s := by
      rw [Int.fdiv_eq_ediv_of_nonneg _ (by omega)]
      exact Int.ediv_nonneg (by omega) (by omega)
    have hr : ((b : Int) - k).fmod s = (b : Int) - k - s * ((b : Int) - k).fdiv s := by
      have := Int.mul_fdiv_add_fmod ((b : Int) - k) s
      linarith
    rw [hr]
    generalize ((b : Int) - k).fdiv s = q at *
    have hrep := hinit.rep (v := 0) (m := (q + 1).toNat) (by
      intro i hi
      have : (i : Int) * s ≤ q * s := Int.mul_le_mul_of_nonneg_right (by omega) (by omega)
      rw [cnt]
      omega)
    have e : (b : Int) - s * (((q + 1).toNat : Nat) : Int) = k - (s - ((b : Int) - k - s * q)) := by
      rw [Int.toNat_of_nonneg (by omega)]; ring
    rw [e] at hrep
    exact ⟨_, _, _, rfl, hrep, by nlinarith [hb.1, hb.2],
      by have : (0 : Int) < k := by omega
         nlinarith [hb.1, hb.2]⟩
  · rw [if_neg h]
    exact ⟨0, [], b, rfl, hinit, by omega, by omega⟩

/-- the main fact: `n_original_elements_1d` counts original samples in every window -/
theorem nOriginal1d_eq {n b a k s : Nat} (hk : 0 < k) (hs : 0 < s) :
    nOriginal1d n (b, a) k s =
      .ok ((List.range (windowCount (n + b + a) k s 1)).map fun t => ((originals n b k s t : Nat) : Int)) := by
  have hs' : (0 : Int) < s := by omega
  have hwc := windowCount_eq (n := n + b + a) (k := k) (s := s) (d := 1) hs
  rw [Nat.one_mul] at hwc
  have hconv : conv1d ((n : Int) + b + a) k s 1 = .ok (((n : Int) + b + a - k).fdiv s + 1) := by
    rw [conv1d, pyDiv_pos hs']
    have : (n : Int) + b + a - 1 * (k - 1) - 1 = n + b + a - k := by ring
    rw [this]; rfl
  simp only [nOriginal1d, hconv, bind, Except.bind, pure, Except.pure]
  by_cases hfit : (k : Int) > b + a + n
  · rw [if_pos hfit, hwc, if_neg (by omega)]
    rfl
  rw [if_neg hfit]
  obtain ⟨t0, ret0, p0, e0, i0, hp0, hp0'⟩ := Inv.skip (n := n) (b := b) (k := k) hs hk
  rw [e0]
  simp only [pyDiv_pos hs']
  -- rising
  have hb1 := fdiv_bounds (a := p0 + n - k) hs'
  have hb2 := fdiv_bounds (a := p0) hs'
  generalize hQ1 : (p0 + n - k).fdiv (s : Int) = q1 at *
  generalize hQ2 : p0.fdiv (s : Int) = q2 at *
  have hq2 : -1 ≤ q2 := by
    by_contra hcon
    have : (q2 + 1) * (s : Int) ≤ -1 * s := Int.mul_le_mul_of_nonneg_right (by omega) (by omega)
    omega
  obtain ⟨i1, hp1⟩ := i0.rising hp0 (m := (min (q1 + 1) (q2 + 1)).toNat) (by
    intro i hi
    have l1 : (i : Int) * s ≤ q1 * s := Int.mul_le_mul_of_nonneg_right (by omega) (by omega)
    have l2 : (i : Int) * s ≤ q2 * s := Int.mul_le_mul_of_nonneg_right (by omega) (by omega)
    omega)
  generalize risingLoop k s (min (q1 + 1) (q2 + 1)).toNat ret0 p0 = R1 at *
  obtain ⟨ret1, p1⟩ := R1
  simp only at i1 hp1 ⊢
  -- the constant part
  have i2 := i1.rep (v := k) (m := (max (q1 + 1 - min (q1 + 1) (q2 + 1)) 0).toNat) (by
    intro i hi
    have hmin : min (q1 + 1) (q2 + 1) = q2 + 1 := by omega
    have ht : ((min (q1 + 1) (q2 + 1)).toNat : Int) = q2 + 1 := by omega
    rw [ht] at hp1
    have l1 : ((q2 + 1) + (i : Int)) * s ≤ q1 * s := Int.mul_le_mul_of_nonneg_right (by omega) (by omega)
    have l2 : (0 : Int) ≤ (i : Int) * s := Int.mul_nonneg (by omega) (by omega)
    rw [cnt, hp1]
    have e1 : (q2 + 1 + (i : Int)) * s = (q2 + 1) * s + i * s := by ring
    rw [e1] at l1
    generalize (q2 + 1) * (s : Int) = A at *
    generalize (i : Int) * (s : Int) = B at *
    omega)
  have hms : ((max (q1 + 1 - min (q1 + 1) (q2 + 1)) 0).toNat : Int) = max (q1 + 1 - min (q1 + 1) (q2 + 1)) 0 := by omega
  rw [hms] at i2
  rw [pyRep_toNat]
  generalize hP2 : p1 - (s : Int) * max (q1 + 1 - min (q1 + 1) (q2 + 1)) 0 = p2 at *
  -- after it the window is not inside the signal any more
  have hp2k : p2 + n < k := by
    rw [← hP2, hp1]
    have e : (((min (q1 + 1) (q2 + 1)).toNat : Nat) : Int) + max (q1 + 1 - min (q1 + 1) (q2 + 1)) 0 = max (q1 + 1) 0 := by
      omega
    have e2 : p0 - (((min (q1 + 1) (q2 + 1)).toNat : Nat) : Int) * s - s * max (q1 + 1 - min (q1 + 1) (q2 + 1)) 0 =
        p0 - ((((min (q1 + 1) (q2 + 1)).toNat : Nat) : Int) + max (q1 + 1 - min (q1 + 1) (q2 + 1)) 0) * s := by ring
    rw [e2, e]
    have : (q1 + 1) * (s : Int) ≤ max (q1 + 1) 0 * s := Int.mul_le_mul_of_nonneg_right (by omega) (by omega)
    omega
  obtain ⟨t3, ret3, p3, e3, i3, hp3, hp3'⟩ := Inv.plateau hs p2.toNat i2 (fun _ => by omega) (by omega)
  rw [e3]
  simp only
  -- the end
  have hfinal : ∀ (t : Nat) (ret : List Int) (p : Int), Inv n b k s t ret p → p + n ≤ 0 →
      pyTake (((n : Int) + b + a - k).fdiv s + 1) (ret ++ pyRep (((a : Int) + (p + n) - k).fdiv s + 1) 0) =
        (List.range (windowCount (n + b + a) k s 1)).map fun t => ((originals n b k s t : Nat) : Int) := by
    intro t ret p hi hp
    have hz : ((a : Int) + (p + n) - k).fdiv s = ((n : Int) + b + a - k).fdiv s - t := by
      rw [hi.2]
      have : (a : Int) + ((b : Int) - t * s + n) - k = (n : Int) + b + a - k - t * s := by ring
      rw [this, fdiv_sub_mul hs']
    have hout : 0 ≤ ((n : Int) + b + a - k).fdiv s := by
      rw [Int.fdiv_eq_ediv_of_nonneg _ (by omega)]
      exact Int.ediv_nonneg (by omega) (by omega)
    have hwc' : ((windowCount (n + b + a) k s 1 : Nat) : Int) = ((n : Int) + b + a - k).fdiv s + 1 := by
      rw [hwc, if_pos (by omega), Int.fdiv_eq_ediv_of_nonneg _ (by omega)]
      have : (n : Int) + b + a - k = ((n + b + a - (k - 1) - 1 : Nat) : Int) := by omega
      rw [this]
      push_cast
      rfl
    rw [hz, pyRep_toNat]
    generalize ((n : Int) + b + a - k).fdiv s = o at *
    have hrep := hi.rep (v := 0) (m := (o - t + 1).toNat) (by
      intro i hi
      have : (0 : Int) ≤ (i : Int) * s := Int.mul_nonneg (by omega) (by omega)
      rw [cnt]; omega)
    rw [hrep.1, pyTake, if_neg (by omega)]
    have hw : (o + 1).toNat = windowCount (n + b + a) k s 1 := by omega
    rw [hw, ← List.map_take, List.take_range]
    congr 2
    omega
  rw [afterPlateau]
  by_cases hneg : (n : Int) + p3 < 0
  · rw [if_pos hneg, pyDiv_pos hs']
    simp only [bind, Except.bind]
    have e : (n : Int) + p3 + a - k = a + (p3 + n) - k := by ring
    rw [e, hfinal t3 ret3 p3 i3 (by omega)]
  · rw [if_neg hneg]
    have emin : min ((n : Int) + p3) k = p3 + n := by omega
    have einS : (n : Int) + p3 = p3 + n := by ring
    rw [emin, einS]
    have hb3 := fdiv_bounds (a := p3 + n + s - 1) hs'
    have hnn : 0 ≤ (p3 + n + s - 1 : Int).fdiv s := by
      rw [Int.fdiv_eq_ediv_of_nonneg _ (by omega)]
      exact Int.ediv_nonneg (by omega) (by omega)
    obtain ⟨ret4, p4, e4, i4, hp4⟩ := i3.falling hp3 ((p3 + n + s - 1 : Int).fdiv s).toNat (by omega) (by
      intro i hi
      have : ((i : Int) + 1) * s ≤ (p3 + n + s - 1 : Int).fdiv s * s :=
        Int.mul_le_mul_of_nonneg_right (by omega) (by omega)
      have e : ((i : Int) + 1) * s = i * s + s := by ring
      rw [e] at this
      omega)
    rw [rangeDown, e4]
    simp only [pyDiv_pos hs', bind, Except.bind]
    rw [hfinal _ ret4 p4 i4]
    rw [hp4, Int.toNat_of_nonneg hnn]
    have e : ((p3 + n + s - 1 : Int).fdiv s + 1) * s = (p3 + n + s - 1 : Int).fdiv s * s + s := by ring
    rw [e] at hb3
    omega

end TI
