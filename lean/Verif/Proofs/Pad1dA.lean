import Verif.Proofs.Chunk
import Verif.Spec.Extension

/-! Copying modes: `replicate`, `circular`. -/

namespace TI

open Tensor

section
variable {α : Type} [Zero α] {y0 : Tensor α} {W : List (Nat × Nat)} {d head tail : Nat}
  {e : (Nat → α) → Nat → α}

theorem replicate1d_fill (hW : WinOK W y0.shape) (hd : d < W.length)
    (hwin : W.getD d (0, 0) = (head, tail)) (hlt : head < tail)
    (h1 : ∀ u i, i < head → e u i = e u head)
    (h2 : ∀ u i, tail ≤ i → e u i = e u (tail - 1)) :
    replicate1d (fill y0 W d e head tail) (idxOf W) d =
      .ok (fill y0 W d e 0 (y0.shape.getD d 0)) := by
  have hb := hW.get hd
  rw [hwin] at hb
  simp only at hb
  have step1 : (if (head : Int) > 0 then
      (fill y0 W d e head tail).setSlice (modifyIdx (.upto head) (idxOf W) d)
        ((fill y0 W d e head tail).getSlice (modifyIdx (.between head (head + 1)) (idxOf W) d))
      else pure (fill y0 W d e head tail)) = .ok (fill y0 W d e 0 tail) := by
    split_ifs with hh
    · rw [getSlice_fill (a := head) (b := head + 1) hW hd
        (by exact_mod_cast resolve_between (a := head) (b := head + 1) (by omega) (by omega))
        (by omega) (by omega) (by omega)]
      have : head + 1 - head = 1 := by omega
      rw [this, setSlice_fill_one (a := 0) (b := head) hW hd (resolve_upto (by omega))
        (by omega) (by omega) (by
          intro u t ht
          simp only [Nat.add_zero, Nat.zero_add]
          exact (h1 u t (by omega)).symm)]
      rw [show min head 0 = 0 by omega, show max tail head = tail by omega]
    · have : head = 0 := by omega
      subst this
      rfl
  simp only [replicate1d, bounds_idxOf hd hwin]
  simp only [bind, Except.bind]
  rw [step1]
  simp only []
  by_cases hh : tail < y0.shape.getD d 0
  · rw [if_pos (by rw [shape_fill]; omega)]
    have e1 : ((tail : Int) - 1) = ((tail - 1 : Nat) : Int) := by omega
    rw [e1, getSlice_fill (a := tail - 1) (b := tail) hW hd
      (resolve_between (by omega) (by omega)) (by omega) (by omega) (by omega)]
    have : tail - (tail - 1) = 1 := by omega
    rw [this, setSlice_fill_one (a := tail) (b := y0.shape.getD d 0) hW hd
      (resolve_from (by omega)) (by omega) (by omega) (by
        intro u t ht
        simp only [Nat.add_zero]
        exact (h2 u (tail + t) (by omega)).symm)]
    rw [show min 0 tail = 0 by omega,
      show max tail (y0.shape.getD d 0) = y0.shape.getD d 0 by omega]
  · have : tail = y0.shape.getD d 0 := by omega
    rw [if_neg (by rw [shape_fill]; omega), this]; rfl

theorem circularBefore_fill (hW : WinOK W y0.shape) (hd : d < W.length) {n hi : Nat}
    (hn : 0 < n) (hth : tail ≤ hi) (hhi : hi ≤ y0.shape.getD d 0)
    (hper : ∀ u i k, e u (i + k * n) = e u i) :
    ∀ (fuel curr : Nat), curr ≤ fuel → curr + n ≤ tail → (0 < curr → ∃ k, curr + k * n = tail) →
    circularBefore (fun s => modifyIdx s (idxOf W) d) (tail : Int) (n : Int) fuel
      (fill y0 W d e curr hi) (curr : Int) = .ok (fill y0 W d e 0 hi) := by
  intro fuel
  induction fuel with
  | zero =>
    intro curr hf _ _
    have : curr = 0 := by omega
    subst this
    rw [circularBefore, if_neg (by simp)]
  | succ fuel ih =>
    intro curr hf hc hk
    rw [circularBefore]
    by_cases h0 : curr = 0
    · subst h0; rw [if_neg (by simp)]
    · rw [if_pos (by omega)]
      obtain ⟨k, hk'⟩ := hk (by omega)
      clear hk
      have hcm : min (curr : Int) (n : Int) = ((min curr n : Nat) : Int) := by omega
      simp only [hcm]
      generalize hcc : min curr n = c
      have e1 : ((curr : Int) - (c : Int)) = ((curr - c : Nat) : Int) := by omega
      have e2 : ((tail : Int) - (c : Int)) = ((tail - c : Nat) : Int) := by omega
      rw [e1, e2]
      rw [getSlice_fill (a := tail - c) (b := tail) hW hd
        (resolve_between (by omega) (by omega)) (by omega) (by omega) (by omega)]
      rw [setSlice_fill (a := curr - c) (b := curr) hW hd (resolve_between (by omega) (by omega))
        (by omega) (by omega) (by omega) (by
          intro u t ht
          have : tail - c + t = (curr - c + t) + k * n := by omega
          rw [this, hper])]
      simp only [bind, Except.bind]
      have e3 : min curr (curr - c) = curr - c := by omega
      have e4 : max hi curr = hi := by omega
      rw [e3, e4]
      apply ih _ (by omega) (by omega)
      intro hpos
      have hcn : c = n := by omega
      refine ⟨k + 1, ?_⟩
      rw [Nat.add_mul]; omega

theorem circularAfter_fill (hW : WinOK W y0.shape) (hd : d < W.length) {n : Nat}
    (hn : 0 < n) (hper : ∀ u i k, e u (i + k * n) = e u i) :
    ∀ (fuel curr : Nat), y0.shape.getD d 0 - curr ≤ fuel → curr ≤ y0.shape.getD d 0 →
      head + n ≤ curr →
      (curr < y0.shape.getD d 0 → ∃ k, curr = head + k * n) →
    circularAfter (fun s => modifyIdx s (idxOf W) d) d (head : Int) (n : Int) fuel
      (fill y0 W d e 0 curr) (curr : Int) = .ok (fill y0 W d e 0 (y0.shape.getD d 0)) := by
  intro fuel
  induction fuel with
  | zero =>
    intro curr hf hcN _ _
    have : curr = y0.shape.getD d 0 := by omega
    rw [this, circularAfter, if_neg (by simp [shape_fill])]
  | succ fuel ih =>
    intro curr hf hcN hc hk
    rw [circularAfter]
    by_cases h0 : curr = y0.shape.getD d 0
    · rw [h0, if_neg (by simp [shape_fill])]
    · rw [if_pos (by rw [shape_fill]; omega)]
      simp only [shape_fill]
      obtain ⟨k, hk'⟩ := hk (by omega)
      clear hk
      have hcm : min (((y0.shape.getD d 0 : Nat) : Int) - (curr : Int)) (n : Int)
          = ((min (y0.shape.getD d 0 - curr) n : Nat) : Int) := by omega
      simp only [hcm]
      generalize hcc : min (y0.shape.getD d 0 - curr) n = c
      have e1 : ((curr : Int) + (c : Int)) = ((curr + c : Nat) : Int) := by omega
      have e2 : ((head : Int) + (c : Int)) = ((head + c : Nat) : Int) := by omega
      rw [e1, e2]
      rw [getSlice_fill (a := head) (b := head + c) hW hd
        (resolve_between (by omega) (by omega)) (by omega) (by omega) (by omega)]
      rw [setSlice_fill (a := curr) (b := curr + c) hW hd (resolve_between (by omega) (by omega))
        (by omega) (by omega) (by omega) (by
          intro u t ht
          have : curr + t = (head + t) + k * n := by omega
          rw [this, hper])]
      simp only [bind, Except.bind]
      have e3 : min 0 curr = 0 := by omega
      have e4 : max curr (curr + c) = curr + c := by omega
      rw [e3, e4]
      apply ih _ (by omega) (by omega) (by omega)
      intro hlt
      have hcn : c = n := by omega
      refine ⟨k + 1, ?_⟩
      rw [Nat.add_mul]; omega

theorem circular1d_fill (hW : WinOK W y0.shape) (hd : d < W.length)
    (hwin : W.getD d (0, 0) = (head, tail)) (hlt : head < tail)
    (hper : ∀ u i k, e u (i + k * (tail - head)) = e u i) {fuel : Nat}
    (hfuel : max head (y0.shape.getD d 0 - tail) ≤ fuel) :
    circular1d fuel (fill y0 W d e head tail) (idxOf W) d =
      .ok (fill y0 W d e 0 (y0.shape.getD d 0)) := by
  have hb := hW.get hd
  rw [hwin] at hb
  simp only at hb
  simp only [circular1d, bounds_idxOf hd hwin]
  simp only [bind, Except.bind]
  split_ifs with h1
  · apply replicate1d_fill hW hd hwin hlt
    · intro u i hi
      have := hper u i (head - i)
      have h2 : tail - head = 1 := by omega
      rw [h2] at this
      rw [← this]
      congr 1; omega
    · intro u i hi
      have := hper u (tail - 1) (i - (tail - 1))
      have h2 : tail - head = 1 := by omega
      rw [h2] at this
      rw [← this]
      congr 1; omega
  · have e1 : ((tail : Int) - (head : Int)) = ((tail - head : Nat) : Int) := by omega
    rw [e1, circularBefore_fill (n := tail - head) hW hd (by omega) (Nat.le_refl _) hb.2 hper fuel head
      (by omega) (by omega) (fun _ => ⟨1, by omega⟩)]
    simp only []
    rw [circularAfter_fill (head := head) hW hd (by omega) hper fuel tail (by omega) hb.2 (by omega)
      (fun _ => ⟨1, by omega⟩)]

end

end TI
