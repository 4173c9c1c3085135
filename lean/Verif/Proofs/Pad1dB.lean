import Verif.Proofs.Pad1dA
import Mathlib.Algebra.Ring.Basic

/-! Mirroring loops (`symmetric`, `antisymmetric`, `reflect`) and point-reflection loops. -/

namespace TI

open Tensor

section
variable {α : Type} [Ring α] {y0 : Tensor α} {W : List (Nat × Nat)} {d head tail : Nat}
  {E : (Nat → α) → Int → α} {η : α → α} {o n L : Nat}

/-- the filled buffer for an extension given on integer positions -/
abbrev fillZ (y0 : Tensor α) (W : List (Nat × Nat)) (d : Nat) (E : (Nat → α) → Int → α) (lo hi : Nat) :=
  fill y0 W d (fun u i => E u (i : Int)) lo hi

/-- what the cache of flipped values has to be -/
def CacheOK (y0 : Tensor α) (W : List (Nat × Nat)) (d : Nat) (E : (Nat → α) → Int → α) (η : α → α)
    (a L : Nat) : Option (Tensor α) → Prop
  | none => True
  | some cf => cf = chunk y0 W d (fun u t => η (E u ((a + (L - 1 - t) : Nat) : Int))) L

theorem mirrorBefore_fill (hW : WinOK W y0.shape) (hd : d < W.length)
    {h : Tensor α → Tensor α}
    (hh : ∀ g m, h (chunk y0 W d g m) = chunk y0 W d (fun u t => η (g u t)) m)
    (hL : 0 < L) (hn : 0 < n) (ho : L + 2 * o = n) (htl : head + n = tail)
    (htN : tail ≤ y0.shape.getD d 0)
    (hper : ∀ u z (k : Int), E u (z + k * (n + L)) = E u z)
    (hmir : ∀ u z, E u (2 * head - 1 + o - z) = η (E u z))
    {cache : Option (Tensor α)} (hcache : CacheOK y0 W d E η (head + o) L cache) :
    ∀ (fuel curr : Nat) (flip : Bool), curr ≤ fuel → curr ≤ head →
      (0 < curr → ∃ k : Int, (curr : Int) = head - (if flip then 0 else (L : Int)) - k * (n + L)) →
    mirrorBefore (fun s => modifyIdx s (idxOf W) d) (fun s => makeIdx s d W.length) h d cache
      (o : Int) (tail : Int) (n : Int) (L : Int) fuel (fillZ y0 W d E curr tail) (curr : Int) flip
      = .ok (fillZ y0 W d E 0 tail) := by
  intro fuel
  induction fuel with
  | zero =>
    intro curr flip hf _ _
    have : curr = 0 := by omega
    subst this
    rw [mirrorBefore, if_neg (by simp)]
  | succ fuel ih =>
    intro curr flip hf hch hk
    rw [mirrorBefore]
    by_cases h0 : curr = 0
    · subst h0; rw [if_neg (by simp)]
    · rw [if_pos (by omega)]
      obtain ⟨k, hk'⟩ := hk (by omega)
      clear hk
      cases flip with
      | true =>
        simp only [if_true, sub_zero] at hk' ⊢
        have hcm : min (curr : Int) (L : Int) = ((min curr L : Nat) : Int) := by omega
        simp only [hcm]
        generalize hcc : min curr L = c
        have e1 : ((curr : Int) - (c : Int)) = ((curr - c : Nat) : Int) := by omega
        have hval : ∀ u t, t < c → η (E u ((curr + o + (c - 1 - t) : Nat) : Int)) =
            E u ((curr - c + t : Nat) : Int) := by
          intro u t ht
          rw [← hmir, ← hper u _ (- (2 * k))]
          congr 1
          have : ((curr + o + (c - 1 - t) : Nat) : Int) = (curr : Int) + o + c - 1 - t := by omega
          rw [this]
          have : ((curr - c + t : Nat) : Int) = (curr : Int) - c + t := by omega
          rw [this, hk']
          ring
        have hv : cachedOr cache (makeIdx (.from (-(c : Int))) d W.length)
            (h (((fillZ y0 W d E curr tail).getSlice
                (modifyIdx (.between ((curr : Int) + o) ((curr : Int) + o + c)) (idxOf W) d)).flip d)) =
            chunk y0 W d (fun u t => E u ((curr - c + t : Nat) : Int)) c := by
          cases cache with
          | none =>
            simp only [cachedOr]
            have e2 : ((curr : Int) + o) = ((curr + o : Nat) : Int) := by omega
            have e3 : (((curr + o : Nat) : Int) + c) = ((curr + o + c : Nat) : Int) := by omega
            rw [e2, e3, getSlice_fill (a := curr + o) (b := curr + o + c) hW hd
              (resolve_between (by omega) (by omega)) (by omega) (by omega) (by omega)]
            rw [show curr + o + c - (curr + o) = c by omega, flip_chunk hd, hh]
            apply chunk_congr hd
            intro u t ht
            exact hval u t ht
          | some cf =>
            simp only [CacheOK] at hcache
            simp only [cachedOr]
            rw [hcache, getSlice_chunk hd (a := L - c) (b := L)
              (resolve_fromNeg (by omega) (by omega)) (by omega) rfl]
            rw [show L - (L - c) = c by omega]
            apply chunk_congr hd
            intro u t ht
            rw [← hval u t ht]
            congr 1
            rw [← hper u _ (-k)]
            congr 1
            have a1 : ((head + o + (L - 1 - (L - c + t)) : Nat) : Int) = (head : Int) + o + (c - 1 - t) := by
              omega
            have a2 : ((curr + o + (c - 1 - t) : Nat) : Int) = (curr : Int) + o + (c - 1 - t) := by omega
            rw [a1, a2, hk']; ring
        rw [e1, hv]
        rw [setSlice_fill (a := curr - c) (b := curr) hW hd (resolve_between (by omega) (by omega))
          (by omega) (by omega) (by omega) (by intro u t ht; rfl)]
        simp only [bind, Except.bind]
        rw [show min curr (curr - c) = curr - c by omega, show max tail curr = tail by omega]
        apply ih _ _ (by omega) (by omega)
        intro hpos
        have hcn : c = L := by omega
        refine ⟨k, ?_⟩
        simp only [Bool.not_true, Bool.false_eq_true, if_false]
        have : ((curr - c : Nat) : Int) = (curr : Int) - L := by omega
        rw [this, hk']; ring
      | false =>
        simp only [Bool.false_eq_true, if_false] at hk' ⊢
        have hcm : min (curr : Int) (n : Int) = ((min curr n : Nat) : Int) := by omega
        simp only [hcm]
        generalize hcc : min curr n = c
        have e1 : ((curr : Int) - (c : Int)) = ((curr - c : Nat) : Int) := by omega
        have e2 : ((tail : Int) - (c : Int)) = ((tail - c : Nat) : Int) := by omega
        rw [e1, e2]
        rw [getSlice_fill (a := tail - c) (b := tail) hW hd
          (resolve_between (by omega) (by omega)) (by omega) (by omega) (by omega)]
        rw [setSlice_fill (a := curr - c) (b := curr) hW hd (resolve_between (by omega) (by omega))
          (by omega) (by omega) (by omega) (by
            intro u t ht
            rw [← hper u ((curr - c + t : Nat) : Int) (k + 1)]
            congr 1
            have a1 : ((tail - c + t : Nat) : Int) = (tail : Int) - c + t := by omega
            have a2 : ((curr - c + t : Nat) : Int) = (curr : Int) - c + t := by omega
            rw [a1, a2, hk', ← htl]
            push_cast; ring)]
        simp only [bind, Except.bind]
        rw [show min curr (curr - c) = curr - c by omega, show max tail curr = tail by omega]
        apply ih _ _ (by omega) (by omega)
        intro hpos
        have hcn : c = n := by omega
        refine ⟨k + 1, ?_⟩
        simp only [Bool.not_false, if_true]
        have : ((curr - c : Nat) : Int) = (curr : Int) - n := by omega
        rw [this, hk']; ring

theorem mirrorAfter_fill (hW : WinOK W y0.shape) (hd : d < W.length)
    {h : Tensor α → Tensor α}
    (hh : ∀ g m, h (chunk y0 W d g m) = chunk y0 W d (fun u t => η (g u t)) m)
    (hL : 0 < L) (hn : 0 < n) (ho : L + 2 * o = n) (htl : head + n = tail)
    (hper : ∀ u z (k : Int), E u (z + k * (n + L)) = E u z)
    (hmir : ∀ u z, E u (2 * head - 1 + o - z) = η (E u z))
    {cache : Option (Tensor α)} (hcache : CacheOK y0 W d E η (head + o) L cache) :
    ∀ (fuel curr : Nat) (flip : Bool), y0.shape.getD d 0 - curr ≤ fuel → tail ≤ curr →
      curr ≤ y0.shape.getD d 0 →
      (curr < y0.shape.getD d 0 →
        ∃ k : Int, (curr : Int) = tail + (if flip then 0 else (L : Int)) + k * (n + L)) →
    mirrorAfter (fun s => modifyIdx s (idxOf W) d) (fun s => makeIdx s d W.length) h d cache
      (o : Int) (head : Int) (n : Int) (L : Int) fuel (fillZ y0 W d E 0 curr) (curr : Int) flip
      = .ok (fillZ y0 W d E 0 (y0.shape.getD d 0)) := by
  intro fuel
  generalize hN : y0.shape.getD d 0 = N
  induction fuel with
  | zero =>
    intro curr flip hf _ _ _
    have : curr = N := by omega
    subst this
    rw [mirrorAfter, if_neg (by rw [shape_fill]; omega)]
  | succ fuel ih =>
    intro curr flip hf hct hcN hk
    rw [mirrorAfter]
    by_cases h0 : curr = N
    · subst h0; rw [if_neg (by rw [shape_fill]; omega)]
    · rw [if_pos (by rw [shape_fill]; omega)]
      simp only [shape_fill, hN]
      obtain ⟨k, hk'⟩ := hk (by omega)
      clear hk
      cases flip with
      | true =>
        simp only [if_true, add_zero] at hk' ⊢
        have hcm : min ((N : Int) - (curr : Int)) (L : Int) = ((min (N - curr) L : Nat) : Int) := by omega
        simp only [hcm]
        generalize hcc : min (N - curr) L = c
        have e1 : ((curr : Int) + (c : Int)) = ((curr + c : Nat) : Int) := by omega
        have hval : ∀ u t, t < c → η (E u ((curr - o - c + (c - 1 - t) : Nat) : Int)) =
            E u ((curr + t : Nat) : Int) := by
          intro u t ht
          rw [← hmir, ← hper u _ (2 * k + 1)]
          congr 1
          have : ((curr - o - c + (c - 1 - t) : Nat) : Int) = (curr : Int) - o - 1 - t := by omega
          rw [this]
          push_cast
          rw [hk', ← htl]
          push_cast
          have : (n : Int) = L + 2 * o := by omega
          rw [this]; ring
        have hv : cachedOr cache (makeIdx (.upto (c : Int)) d W.length)
            (h (((fillZ y0 W d E 0 curr).getSlice
                (modifyIdx (.between ((curr : Int) - o - c) ((curr : Int) - o)) (idxOf W) d)).flip d)) =
            chunk y0 W d (fun u t => E u ((curr + t : Nat) : Int)) c := by
          cases cache with
          | none =>
            simp only [cachedOr]
            have e2 : ((curr : Int) - o) = ((curr - o : Nat) : Int) := by omega
            have e3 : (((curr - o : Nat) : Int) - c) = ((curr - o - c : Nat) : Int) := by omega
            rw [e2, e3, getSlice_fill (a := curr - o - c) (b := curr - o) hW hd
              (resolve_between (by omega) (by omega)) (by omega) (by omega) (by omega)]
            rw [show curr - o - (curr - o - c) = c by omega, flip_chunk hd, hh]
            apply chunk_congr hd
            intro u t ht
            exact hval u t ht
          | some cf =>
            simp only [CacheOK] at hcache
            simp only [cachedOr]
            rw [hcache, getSlice_chunk hd (a := 0) (b := c)
              (resolve_upto (by omega)) (by omega) rfl]
            rw [show c - 0 = c by omega]
            apply chunk_congr hd
            intro u t ht
            rw [← hval u t ht]
            congr 1
            rw [← hper u _ k]
            congr 1
            have a1 : ((head + o + (L - 1 - (0 + t)) : Nat) : Int) = (head : Int) + o + (L - 1 - t) := by
              omega
            have a2 : ((curr - o - c + (c - 1 - t) : Nat) : Int) = (curr : Int) - o - 1 - t := by omega
            rw [a1, a2, hk', ← htl]
            push_cast
            have : (n : Int) = L + 2 * o := by omega
            rw [this]; ring
        rw [e1, hv]
        rw [setSlice_fill (a := curr) (b := curr + c) hW hd (resolve_between (by omega) (by omega))
          (by omega) (by omega) (by omega) (by intro u t ht; rfl)]
        simp only [bind, Except.bind]
        rw [show min 0 curr = 0 by omega, show max curr (curr + c) = curr + c by omega]
        apply ih _ _ (by omega) (by omega) (by omega)
        intro hpos
        have hcn : c = L := by omega
        refine ⟨k, ?_⟩
        simp only [Bool.not_true, Bool.false_eq_true, if_false]
        push_cast
        rw [hcn, hk']; ring
      | false =>
        simp only [Bool.false_eq_true, if_false] at hk' ⊢
        have hcm : min ((N : Int) - (curr : Int)) (n : Int) = ((min (N - curr) n : Nat) : Int) := by omega
        simp only [hcm]
        generalize hcc : min (N - curr) n = c
        have e1 : ((curr : Int) + (c : Int)) = ((curr + c : Nat) : Int) := by omega
        have e2 : ((head : Int) + (c : Int)) = ((head + c : Nat) : Int) := by omega
        rw [e1, e2]
        rw [getSlice_fill (a := head) (b := head + c) hW hd
          (resolve_between (by omega) (by omega)) (by omega) (by omega) (by omega)]
        rw [setSlice_fill (a := curr) (b := curr + c) hW hd (resolve_between (by omega) (by omega))
          (by omega) (by omega) (by omega) (by
            intro u t ht
            rw [← hper u ((head + t : Nat) : Int) (k + 1)]
            congr 1
            push_cast
            rw [hk', ← htl]
            push_cast; ring)]
        simp only [bind, Except.bind]
        rw [show min 0 curr = 0 by omega, show max curr (curr + c) = curr + c by omega]
        apply ih _ _ (by omega) (by omega) (by omega)
        intro hpos
        have hcn : c = n := by omega
        refine ⟨k + 1, ?_⟩
        simp only [Bool.not_false, if_true]
        push_cast
        rw [hcn, hk']; ring

theorem oddBefore_fill (hW : WinOK W y0.shape) (hd : d < W.length)
    (hL : 0 < L) (ho : o ≤ 1) (htl : head + L + o = tail) (htN : tail ≤ y0.shape.getD d 0)
    (hodd : ∀ u (k : Int) z, E u (2 * (head + k * L) - 1 + o - z) = 2 * E u (head + k * L) - E u z) :
    ∀ (fuel curr : Nat), curr ≤ fuel → curr ≤ head →
      (0 < curr → ∃ k : Int, (curr : Int) = head + k * L) →
    oddBefore (fun s => modifyIdx s (idxOf W) d) d (o : Int) (L : Int) fuel
      (fillZ y0 W d E curr tail) (curr : Int) = .ok (fillZ y0 W d E 0 tail) := by
  intro fuel
  induction fuel with
  | zero =>
    intro curr hf _ _
    have : curr = 0 := by omega
    subst this
    rw [oddBefore, if_neg (by simp)]
  | succ fuel ih =>
    intro curr hf hch hk
    rw [oddBefore]
    by_cases h0 : curr = 0
    · subst h0; rw [if_neg (by simp)]
    · rw [if_pos (by omega)]
      obtain ⟨k, hk'⟩ := hk (by omega)
      clear hk
      have hcm : min (curr : Int) (L : Int) = ((min curr L : Nat) : Int) := by omega
      simp only [hcm]
      generalize hcc : min curr L = c
      have e1 : ((curr : Int) - (c : Int)) = ((curr - c : Nat) : Int) := by omega
      have e2 : ((curr : Int) + o) = ((curr + o : Nat) : Int) := by omega
      have e3 : (((curr + o : Nat) : Int) + c) = ((curr + o + c : Nat) : Int) := by omega
      have e4 : ((curr : Int) + 1) = ((curr + 1 : Nat) : Int) := by omega
      rw [e1, e2, e3, e4]
      rw [getSlice_fill (a := curr + o) (b := curr + o + c) hW hd
        (resolve_between (by omega) (by omega)) (by omega) (by omega) (by omega)]
      rw [getSlice_fill (a := curr) (b := curr + 1) hW hd
        (resolve_between (by omega) (by omega)) (by omega) (by omega) (by omega)]
      rw [show curr + o + c - (curr + o) = c by omega, show curr + 1 - curr = 1 by omega,
        flip_chunk hd, map_chunk, bop_chunk_one hd]
      simp only [bind, Except.bind]
      rw [setSlice_fill (a := curr - c) (b := curr) hW hd (resolve_between (by omega) (by omega))
          (by omega) (by omega) (by omega) (by
            intro u t ht
            simp only [Nat.add_zero]
            rw [hk', ← hodd]
            congr 1
            have a1 : ((curr + o + (c - 1 - t) : Nat) : Int) = (curr : Int) + o + c - 1 - t := by omega
            have a2 : ((curr - c + t : Nat) : Int) = (curr : Int) - c + t := by omega
            rw [a1, a2, hk']; ring)]
      simp only []
      rw [show min curr (curr - c) = curr - c by omega, show max tail curr = tail by omega]
      apply ih _ (by omega) (by omega)
      intro hpos
      refine ⟨k - 1, ?_⟩
      have hcn : c = L := by omega
      have : ((curr - c : Nat) : Int) = (curr : Int) - L := by omega
      rw [this, hk']; ring

theorem oddAfter_fill (hW : WinOK W y0.shape) (hd : d < W.length)
    (hL : 0 < L) (ho : o ≤ 1) (htl : head + L + o = tail)
    (hodd : ∀ u (k : Int) z, E u (2 * (head + k * L) - 1 + o - z) = 2 * E u (head + k * L) - E u z) :
    ∀ (fuel curr : Nat), y0.shape.getD d 0 - curr ≤ fuel → tail ≤ curr → curr ≤ y0.shape.getD d 0 →
      (curr < y0.shape.getD d 0 → ∃ k : Int, (curr : Int) = tail + k * L) →
    oddAfter (fun s => modifyIdx s (idxOf W) d) d (o : Int) (L : Int) fuel
      (fillZ y0 W d E 0 curr) (curr : Int) = .ok (fillZ y0 W d E 0 (y0.shape.getD d 0)) := by
  intro fuel
  generalize hN : y0.shape.getD d 0 = N
  induction fuel with
  | zero =>
    intro curr hf _ _ _
    have : curr = N := by omega
    subst this
    rw [oddAfter, if_neg (by rw [shape_fill]; omega)]
  | succ fuel ih =>
    intro curr hf hct hcN hk
    rw [oddAfter]
    by_cases h0 : curr = N
    · subst h0; rw [if_neg (by rw [shape_fill]; omega)]
    · rw [if_pos (by rw [shape_fill]; omega)]
      simp only [shape_fill, hN]
      obtain ⟨k, hk'⟩ := hk (by omega)
      clear hk
      have hcm : min ((N : Int) - (curr : Int)) (L : Int) = ((min (N - curr) L : Nat) : Int) := by omega
      simp only [hcm]
      generalize hcc : min (N - curr) L = c
      have e1 : ((curr : Int) + (c : Int)) = ((curr + c : Nat) : Int) := by omega
      have e2 : ((curr : Int) - o) = ((curr - o : Nat) : Int) := by omega
      have e3 : (((curr - o : Nat) : Int) - c) = ((curr - o - c : Nat) : Int) := by omega
      have e4 : ((curr : Int) - 1) = ((curr - 1 : Nat) : Int) := by omega
      rw [e1, e2, e3, e4]
      rw [getSlice_fill (a := curr - o - c) (b := curr - o) hW hd
        (resolve_between (by omega) (by omega)) (by omega) (by omega) (by omega)]
      rw [getSlice_fill (a := curr - 1) (b := curr) hW hd
        (resolve_between (by omega) (by omega)) (by omega) (by omega) (by omega)]
      rw [show curr - o - (curr - o - c) = c by omega, show curr - (curr - 1) = 1 by omega,
        flip_chunk hd, map_chunk, bop_chunk_one hd]
      simp only [bind, Except.bind]
      -- the block boundary next to `curr`
      have hb : ((curr - o : Nat) : Int) = head + (k + 1) * L := by
        have : ((curr - o : Nat) : Int) = (curr : Int) - o := by omega
        rw [this, hk', ← htl]; push_cast; ring
      -- both samples next to the boundary agree in the half-sample case
      have hedge : ∀ u, E u ((curr - 1 : Nat) : Int) = E u (head + (k + 1) * L) := by
        intro u
        rw [← hb]
        by_cases h1 : o = 0
        · subst h1
          have := hodd u (k + 1) (head + (k + 1) * L)
          rw [← hb] at this
          have h2 : (2 * ((curr - 0 : Nat) : Int) - 1 + ((0 : Nat) : Int) - ((curr - 0 : Nat) : Int))
              = ((curr - 1 : Nat) : Int) := by omega
          rw [h2] at this
          rw [this]
          rw [two_mul, add_sub_cancel_right]
        · have h2 : o = 1 := by omega
          rw [h2]
      rw [setSlice_fill (a := curr) (b := curr + c) hW hd (resolve_between (by omega) (by omega))
          (by omega) (by omega) (by omega) (by
            intro u t ht
            simp only [Nat.add_zero]
            rw [hedge u, ← hodd]
            congr 1
            have a1 : ((curr - o - c + (c - 1 - t) : Nat) : Int) = ((curr - o : Nat) : Int) - 1 - t := by
              omega
            have a2 : ((curr + t : Nat) : Int) = ((curr - o : Nat) : Int) + o + t := by omega
            rw [a1, a2, hb]; ring)]
      simp only []
      rw [show min 0 curr = 0 by omega, show max curr (curr + c) = curr + c by omega]
      apply ih _ (by omega) (by omega) (by omega)
      intro hpos
      refine ⟨k + 1, ?_⟩
      have hcn : c = L := by omega
      push_cast
      rw [hcn, hk']; ring

end

end TI
