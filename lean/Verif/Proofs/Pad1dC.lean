import Verif.Proofs.Pad1dB
import Verif.Proofs.ExtLaws
import Mathlib.Tactic.FieldSimp
import Mathlib.Tactic.Push

/-! Every `*_1d` function writes exactly the extension named in `Verif.Spec.Extension`. -/

namespace TI

open Tensor

/-- `y0` with the fibres along `d` through `W` replaced on `[lo, hi)` by the extension `E` of their
part on `[head, tail)` -/
abbrev applyExt {α : Type} [Zero α] (E : Spec.Ext α) (head tail : Nat) (y0 : Tensor α)
    (W : List (Nat × Nat)) (d : Nat) (lo hi : Nat) : Tensor α :=
  fill y0 W d (fun u i => E (tail - head) (fun j => u (head + j)) ((i : Int) - head)) lo hi

section Copy
variable {α : Type} [Zero α] {y0 : Tensor α} {W : List (Nat × Nat)} {d head tail : Nat}

omit [Zero α] in
theorem isExt_at {E : Spec.Ext α} (hE : Spec.IsExt E (tail - head)) (u : Nat → α) (i : Nat)
    (h1 : head ≤ i) (h2 : i < tail) :
    E (tail - head) (fun j => u (head + j)) ((i : Int) - head) = u i := by
  rw [hE _ _ (by omega) (by omega)]
  congr 1; omega

theorem applyExt_init {E : Spec.Ext α} (hE : Spec.IsExt E (tail - head)) (hd : d < W.length) :
    applyExt E head tail y0 W d head tail = y0 :=
  fill_init hd (isExt_at hE)

theorem fill_set_win (e : (Nat → α) → Nat → α) (p : Nat × Nat) (lo hi : Nat) :
    fill y0 (W.set d p) d e lo hi = fill y0 W d e lo hi := by
  simp only [fill, List.set_set]

omit [Zero α] in
theorem idxOf_eq_modify (hwin : W.getD d (0, 0) = (head, tail)) :
    idxOf W = modifyIdx (.between (head : Int) tail) (idxOf W) d := by
  have h : W = W.set d (head, tail) := by
    rw [← hwin]
    apply List.ext_getElem (by simp)
    intro k h1 h2
    rw [List.getElem_set]
    split_ifs with hk
    · subst hk; simp [List.getD_eq_getElem?_getD, List.getElem?_eq_getElem h1]
    · rfl
  rw [modifyIdx]
  conv_lhs => rw [h]
  simp [idxOf, List.map_set]

theorem replicate1d_spec (hW : WinOK W y0.shape) (hd : d < W.length)
    (hwin : W.getD d (0, 0) = (head, tail)) (hlt : head < tail) :
    replicate1d y0 (idxOf W) d =
      .ok (applyExt Spec.replicate head tail y0 W d 0 (y0.shape.getD d 0)) := by
  have h := replicate1d_fill (y0 := y0) (e := fun u i =>
    Spec.replicate (tail - head) (fun j => u (head + j)) ((i : Int) - head)) hW hd hwin hlt
    (by
      intro u i hi
      simp only [Spec.replicate]
      rw [if_pos (by omega), if_neg (by omega), if_pos (by omega)]
      congr 1; omega)
    (by
      intro u i hi
      simp only [Spec.replicate]
      rw [if_neg (by omega), if_neg (by omega), if_neg (by omega), if_pos (by omega)]
      congr 1; omega)
  have h2 := applyExt_init (y0 := y0) (Spec.replicate_isExt (α := α) (tail - head)) hd
  rw [applyExt] at h2
  rwa [h2] at h

theorem circular1d_spec (hW : WinOK W y0.shape) (hd : d < W.length)
    (hwin : W.getD d (0, 0) = (head, tail)) (hlt : head < tail) {fuel : Nat}
    (hfuel : max head (y0.shape.getD d 0 - tail) ≤ fuel) :
    circular1d fuel y0 (idxOf W) d =
      .ok (applyExt Spec.circular head tail y0 W d 0 (y0.shape.getD d 0)) := by
  have h := circular1d_fill (y0 := y0) (e := fun u i =>
    Spec.circular (tail - head) (fun j => u (head + j)) ((i : Int) - head)) hW hd hwin hlt
    (by
      intro u i k
      rw [← Spec.circular_per _ _ ((i : Int) - head) (k : Int)]
      congr 1
      push_cast
      ring) hfuel
  have h2 := applyExt_init (y0 := y0) (Spec.circular_isExt (α := α) (tail - head)) hd
  rw [applyExt] at h2
  rwa [h2] at h

theorem periodize1d_spec (hW : WinOK W y0.shape) (hd : d < W.length)
    (hwin : W.getD d (0, 0) = (head, tail)) (hlt : head < tail)
    (hslot : tail + (tail - head) % 2 ≤ y0.shape.getD d 0) {fuel : Nat}
    (hfuel : max head (y0.shape.getD d 0 - tail) ≤ fuel) :
    periodize1d fuel y0 (idxOf W) d =
      .ok (applyExt Spec.periodize head tail y0 W d 0 (y0.shape.getD d 0)) := by
  have hb := hW.get hd
  rw [hwin] at hb
  simp only at hb
  simp only [periodize1d, bounds_idxOf hd hwin, bind, Except.bind]
  have hmod : ((tail : Int) - head).fmod 2 = (((tail - head) % 2 : Nat) : Int) := by
    rw [Int.fmod_eq_emod_of_nonneg _ (by omega)]; omega
  rw [hmod]
  by_cases hp : (tail - head) % 2 = 0
  · rw [if_pos (by exact_mod_cast hp), circular1d_spec hW hd hwin hlt hfuel]
    simp only [applyExt, Spec.periodize, hp, if_true]
  · rw [if_neg (by exact_mod_cast hp)]
    have hE : Spec.IsExt (Spec.periodize (α := α)) (tail - head) := Spec.periodize_isExt _
    have h0 := applyExt_init (y0 := y0) hE hd
    have e1 : ((tail : Int) - 1) = ((tail - 1 : Nat) : Int) := by omega
    have e2 : ((tail : Int) + 1) = ((tail + 1 : Nat) : Int) := by omega
    rw [e1, e2]
    have hget : y0.getSlice (modifyIdx (.between ((tail - 1 : Nat) : Int) tail) (idxOf W) d) =
        chunk y0 W d (fun u t => Spec.periodize (tail - head) (fun j => u (head + j))
          (((tail - 1 + t : Nat) : Int) - head)) 1 := by
      have := getSlice_fill (y0 := y0) (e := fun u i =>
        Spec.periodize (tail - head) (fun j => u (head + j)) ((i : Int) - head)) hW hd
        (lo := head) (hi := tail) (a := tail - 1) (b := tail)
        (resolve_between (by omega) (by omega)) (by omega) (by omega) (by omega)
      rw [applyExt] at h0
      rw [h0] at this
      rw [this, show tail - (tail - 1) = 1 by omega]
    rw [hget]
    have hset := setSlice_fill_one (y0 := y0) (e := fun u i =>
        Spec.periodize (tail - head) (fun j => u (head + j)) ((i : Int) - head)) hW hd
        (lo := head) (hi := tail) (a := tail) (b := tail + 1)
        (s := .between tail ((tail + 1 : Nat) : Int))
        (resolve_between (by omega) (by omega)) (by omega) (by omega)
        (g := fun u t => Spec.periodize (tail - head) (fun j => u (head + j))
          (((tail - 1 + t : Nat) : Int) - head)) (by
          intro u t ht
          have ht : t = 0 := by omega
          subst ht
          simp only [Spec.periodize, hp, if_false, Spec.circular]
          rw [(Spec.emod_small (z := ((tail - 1 + 0 : Nat) : Int) - head)
            (P := ((tail - head + 1 : Nat) : Int)) (by omega) (by omega)).1,
            (Spec.emod_small (z := ((tail + 0 : Nat) : Int) - head)
            (P := ((tail - head + 1 : Nat) : Int)) (by omega) (by omega)).1]
          rw [if_pos (by omega), if_neg (by omega)]
          congr 1; omega)
    rw [applyExt] at h0
    rw [h0] at hset
    rw [hset, show min head tail = head by omega, show max tail (tail + 1) = tail + 1 by omega]
    simp only []
    have hidx : modifyIdx (.between (head : Int) ((tail + 1 : Nat) : Int)) (idxOf W) d =
        idxOf (W.set d (head, tail + 1)) := by
      simp [modifyIdx, idxOf, List.map_set]
    rw [hidx, ← fill_set_win _ (head, tail + 1)]
    have hW' : WinOK (W.set d (head, tail + 1)) y0.shape := hW.set (by omega) (by omega)
    rw [circular1d_fill hW' (by simpa using hd) (getD_set_self _ _ _ _ hd) (by omega) _ (by omega)]
    · rw [fill_set_win]
    · intro u i k
      simp only [Spec.periodize, hp, if_false]
      rw [← Spec.circular_per _ _ ((i : Int) - head) (k : Int)]
      congr 1
      push_cast
      rw [show ((tail + 1 - head : Nat) : Int) = ((tail - head : Nat) : Int) + 1 by omega]
      ring

end Copy

section Ring
variable {α : Type} [Ring α] {y0 : Tensor α} {W : List (Nat × Nat)} {d head tail : Nat}

theorem symmetric1d_spec (hW : WinOK W y0.shape) (hd : d < W.length)
    (hwin : W.getD d (0, 0) = (head, tail)) (hlt : head < tail) {np : Bool} {fuel : Nat}
    (hfuel : max head (y0.shape.getD d 0 - tail) ≤ fuel) :
    symmetric1d np fuel false y0 (idxOf W) d =
      .ok (applyExt Spec.symmetric head tail y0 W d 0 (y0.shape.getD d 0)) := by
  have hb := hW.get hd
  rw [hwin] at hb
  simp only at hb
  simp only [symmetric1d, bounds_idxOf hd hwin, bind, Except.bind, and_true, Bool.false_eq_true,
    if_false]
  by_cases h1 : (tail : Int) - head = 1
  · rw [if_pos h1]
    rw [replicate1d_spec hW hd hwin hlt]
    have h2 : tail - head = 1 := by omega
    simp only [applyExt, h2]
    congr 2
    funext u i
    simp only [Spec.replicate, Spec.symmetric]
    have h3 : 2 * 1 - 1 - (((i : Int) - head) % (2 * (1 : Nat))).toNat = 0 ∨
      (((i : Int) - head) % (2 * (1 : Nat))).toNat = 0 := by omega
    split_ifs <;> congr 1 <;> omega
  · rw [if_neg h1]
    have hlen : ((tail : Int) - head) = ((tail - head : Nat) : Int) := by omega
    have hn0 : ((tail - head : Nat) : Int) ≠ 0 := by omega
    rw [hlen]
    simp only [lengthDiv, hn0, if_false]
    have hE : Spec.IsExt (Spec.symmetric (α := α)) (tail - head) := Spec.symmetric_isExt _
    have h0 := applyExt_init (y0 := y0) hE hd
    rw [applyExt] at h0
    generalize (((y0.shape.getD d 0 : Nat) : Int).fdiv ((tail - head : Nat) : Int)) = q
    have hcache : CacheOK y0 W d (fun u z => Spec.symmetric (tail - head) (fun j => u (head + j)) (z - head))
        id (head + 0) (tail - head)
        (if q ≥ 2 then some ((y0.getSlice (idxOf W)).flip d) else none) := by
      split_ifs
      · simp only [CacheOK]
        have hidx := idxOf_eq_modify hwin
        rw [hidx]
        have := getSlice_fill (y0 := y0) (e := fun u i =>
          Spec.symmetric (tail - head) (fun j => u (head + j)) ((i : Int) - head)) hW hd
          (lo := head) (hi := tail) (a := head) (b := tail)
          (resolve_between (by omega) (by omega)) (by omega) (by omega) (by omega)
        rw [h0] at this
        rw [this, flip_chunk hd]
        rfl
      · trivial
    have hper : ∀ (u : Nat → α) (z k : Int),
        Spec.symmetric (tail - head) (fun j => u (head + j)) (z + k * ((tail - head : Nat) + (tail - head : Nat)) - head) =
        Spec.symmetric (tail - head) (fun j => u (head + j)) (z - head) := by
      intro u z k
      rw [← Spec.symmetric_per _ _ (z - head) k]
      congr 1; ring
    have hmir : ∀ (u : Nat → α) (z : Int),
        Spec.symmetric (tail - head) (fun j => u (head + j)) (2 * head - 1 + (0 : Nat) - z - head) =
        id (Spec.symmetric (tail - head) (fun j => u (head + j)) (z - head)) := by
      intro u z
      rw [id, ← Spec.symmetric_mirror (by omega) _ (z - head)]
      congr 1; push_cast; ring
    have hnd : y0.ndim = W.length := hW.length_eq.symm
    have hB := mirrorBefore_fill (y0 := y0) (h := fun a => if (false = true) then a.map (- ·) else a)
      (E := fun u z => Spec.symmetric (tail - head) (fun j => u (head + j)) (z - head))
      (η := id) (o := 0) (n := tail - head) (L := tail - head) (head := head) (tail := tail) hW hd
      (by intro g m; rfl) (by omega) (by omega) (by omega) (by omega) (by omega) hper hmir hcache
      fuel head true (by omega) (by omega) (fun _ => ⟨0, by simp⟩)
    rw [fillZ, h0] at hB
    have hA := mirrorAfter_fill (y0 := y0) (h := fun a => if (false = true) then a.map (- ·) else a)
      (E := fun u z => Spec.symmetric (tail - head) (fun j => u (head + j)) (z - head))
      (η := id) (o := 0) (n := tail - head) (L := tail - head) (head := head) (tail := tail) hW hd
      (by intro g m; rfl) (by omega) (by omega) (by omega) (by omega) hper hmir hcache
      fuel tail true (by omega) (by omega) (by omega) (fun _ => ⟨0, by simp⟩)
    rw [hnd]
    simp only [Nat.cast_zero] at hB hA
    simp only [Bool.false_eq_true, if_false] at hB hA ⊢
    rw [hB]
    exact hA

theorem antisymmetric1d_spec (hW : WinOK W y0.shape) (hd : d < W.length)
    (hwin : W.getD d (0, 0) = (head, tail)) (hlt : head < tail) {np : Bool} {fuel : Nat}
    (hfuel : max head (y0.shape.getD d 0 - tail) ≤ fuel) :
    symmetric1d np fuel true y0 (idxOf W) d =
      .ok (applyExt Spec.antisymmetric head tail y0 W d 0 (y0.shape.getD d 0)) := by
  have hb := hW.get hd
  rw [hwin] at hb
  simp only at hb
  simp only [symmetric1d, bounds_idxOf hd hwin, bind, Except.bind, Bool.true_eq_false, and_false,
    if_false]
  have hlen : ((tail : Int) - head) = ((tail - head : Nat) : Int) := by omega
  have hn0 : ((tail - head : Nat) : Int) ≠ 0 := by omega
  rw [hlen]
  simp only [lengthDiv, hn0, if_false]
  have hE : Spec.IsExt (Spec.antisymmetric (α := α)) (tail - head) := Spec.antisymmetric_isExt _
  have h0 := applyExt_init (y0 := y0) hE hd
  rw [applyExt] at h0
  generalize (((y0.shape.getD d 0 : Nat) : Int).fdiv ((tail - head : Nat) : Int)) = q
  have hcache : CacheOK y0 W d (fun u z => Spec.antisymmetric (tail - head) (fun j => u (head + j)) (z - head))
      (- ·) (head + 0) (tail - head)
      (if q ≥ 2 then some (((y0.getSlice (idxOf W)).flip d).map (- ·)) else none) := by
    split_ifs
    · simp only [CacheOK]
      have hidx := idxOf_eq_modify hwin
      rw [hidx]
      have := getSlice_fill (y0 := y0) (e := fun u i =>
        Spec.antisymmetric (tail - head) (fun j => u (head + j)) ((i : Int) - head)) hW hd
        (lo := head) (hi := tail) (a := head) (b := tail)
        (resolve_between (by omega) (by omega)) (by omega) (by omega) (by omega)
      rw [h0] at this
      rw [this, flip_chunk hd, map_chunk]
      rfl
    · trivial
  have hper : ∀ (u : Nat → α) (z k : Int),
      Spec.antisymmetric (tail - head) (fun j => u (head + j)) (z + k * ((tail - head : Nat) + (tail - head : Nat)) - head) =
      Spec.antisymmetric (tail - head) (fun j => u (head + j)) (z - head) := by
    intro u z k
    rw [← Spec.antisymmetric_per _ _ (z - head) k]
    congr 1; ring
  have hmir : ∀ (u : Nat → α) (z : Int),
      Spec.antisymmetric (tail - head) (fun j => u (head + j)) (2 * head - 1 + (0 : Nat) - z - head) =
      - (Spec.antisymmetric (tail - head) (fun j => u (head + j)) (z - head)) := by
    intro u z
    rw [← Spec.antisymmetric_mirror (by omega) _ (z - head)]
    congr 1; push_cast; ring
  have hnd : y0.ndim = W.length := hW.length_eq.symm
  have hB := mirrorBefore_fill (y0 := y0) (h := fun a => a.map (- ·))
    (E := fun u z => Spec.antisymmetric (tail - head) (fun j => u (head + j)) (z - head))
    (η := (- ·)) (o := 0) (n := tail - head) (L := tail - head) (head := head) (tail := tail) hW hd
    (by intro g m; exact map_chunk _ _ _) (by omega) (by omega) (by omega) (by omega) (by omega) hper hmir hcache
    fuel head true (by omega) (by omega) (fun _ => ⟨0, by simp⟩)
  rw [fillZ, h0] at hB
  have hA := mirrorAfter_fill (y0 := y0) (h := fun a => a.map (- ·))
    (E := fun u z => Spec.antisymmetric (tail - head) (fun j => u (head + j)) (z - head))
    (η := (- ·)) (o := 0) (n := tail - head) (L := tail - head) (head := head) (tail := tail) hW hd
    (by intro g m; exact map_chunk _ _ _) (by omega) (by omega) (by omega) (by omega) hper hmir hcache
    fuel tail true (by omega) (by omega) (by omega) (fun _ => ⟨0, by simp⟩)
  rw [hnd]
  simp only [Nat.cast_zero] at hB hA
  simp only [if_true] at hB hA ⊢
  rw [hB]
  exact hA

theorem reflect1d_spec (hW : WinOK W y0.shape) (hd : d < W.length)
    (hwin : W.getD d (0, 0) = (head, tail)) (hlt : head < tail) {np : Bool} {fuel : Nat}
    (hfuel : max head (y0.shape.getD d 0 - tail) ≤ fuel) :
    reflect1d np fuel y0 (idxOf W) d =
      .ok (applyExt Spec.reflect head tail y0 W d 0 (y0.shape.getD d 0)) := by
  have hb := hW.get hd
  rw [hwin] at hb
  simp only at hb
  simp only [reflect1d, bounds_idxOf hd hwin, bind, Except.bind]
  split_ifs with h1 h2
  · rw [replicate1d_spec hW hd hwin hlt]
    have h2 : tail - head = 1 := by omega
    simp only [applyExt, h2, Spec.reflect, if_true, Spec.replicate]
    congr 2
    funext u i
    split_ifs <;> congr 1; omega
  · rw [circular1d_spec hW hd hwin hlt hfuel]
    have h3 : tail - head = 2 := by omega
    simp only [applyExt, h3, Spec.reflect, Spec.circular]
    congr 2
    funext u i
    rw [if_neg (by omega)]
    norm_num
    have := Int.emod_two_eq ((i : Int) - head)
    intro hh
    omega
  · have hlen : ((tail : Int) - head) = ((tail - head : Nat) : Int) := by omega
    have hlen2 : (((tail - head : Nat) : Int) - 2) = ((tail - head - 2 : Nat) : Int) := by omega
    have hn0 : ((tail - head : Nat) : Int) ≠ 0 := by omega
    rw [hlen, hlen2]
    simp only [lengthDiv, hn0, if_false]
    have hE : Spec.IsExt (Spec.reflect (α := α)) (tail - head) := Spec.reflect_isExt _
    have h0 := applyExt_init (y0 := y0) hE hd
    rw [applyExt] at h0
    generalize (((y0.shape.getD d 0 : Nat) : Int).fdiv ((tail - head : Nat) : Int)) = q
    have hcache : CacheOK y0 W d (fun u z => Spec.reflect (tail - head) (fun j => u (head + j)) (z - head))
        id (head + 1) (tail - head - 2)
        (if q ≥ 2 then some ((y0.getSlice (modifyIdx (.between ((head : Int) + 1) ((tail : Int) - 1)) (idxOf W) d)).flip d) else none) := by
      split_ifs
      · simp only [CacheOK]
        have e1 : ((tail : Int) - 1) = ((tail - 1 : Nat) : Int) := by omega
        have e2 : ((head : Int) + 1) = ((head + 1 : Nat) : Int) := by omega
        rw [e1, e2]
        have := getSlice_fill (y0 := y0) (e := fun u i =>
          Spec.reflect (tail - head) (fun j => u (head + j)) ((i : Int) - head)) hW hd
          (lo := head) (hi := tail) (a := head + 1) (b := tail - 1)
          (resolve_between (by omega) (by omega)) (by omega) (by omega) (by omega)
        rw [h0] at this
        rw [this, flip_chunk hd, show tail - 1 - (head + 1) = tail - head - 2 by omega]
        rfl
      · trivial
    have hper : ∀ (u : Nat → α) (z k : Int),
        Spec.reflect (tail - head) (fun j => u (head + j)) (z + k * ((tail - head : Nat) + (tail - head - 2 : Nat)) - head) =
        Spec.reflect (tail - head) (fun j => u (head + j)) (z - head) := by
      intro u z k
      rw [← Spec.reflect_per (by omega) _ (z - head) k]
      congr 1; ring
    have hmir : ∀ (u : Nat → α) (z : Int),
        Spec.reflect (tail - head) (fun j => u (head + j)) (2 * head - 1 + (1 : Nat) - z - head) =
        id (Spec.reflect (tail - head) (fun j => u (head + j)) (z - head)) := by
      intro u z
      rw [id, ← Spec.reflect_mirror (by omega) _ (z - head)]
      congr 1; push_cast; ring
    have hnd : y0.ndim = W.length := hW.length_eq.symm
    have hB := mirrorBefore_fill (y0 := y0) (h := id)
      (E := fun u z => Spec.reflect (tail - head) (fun j => u (head + j)) (z - head))
      (η := id) (o := 1) (n := tail - head) (L := tail - head - 2) (head := head) (tail := tail) hW hd
      (by intro g m; rfl) (by omega) (by omega) (by omega) (by omega) (by omega) hper hmir hcache
      fuel head true (by omega) (by omega) (fun _ => ⟨0, by simp⟩)
    rw [fillZ, h0] at hB
    have hA := mirrorAfter_fill (y0 := y0) (h := id)
      (E := fun u z => Spec.reflect (tail - head) (fun j => u (head + j)) (z - head))
      (η := id) (o := 1) (n := tail - head) (L := tail - head - 2) (head := head) (tail := tail) hW hd
      (by intro g m; rfl) (by omega) (by omega) (by omega) (by omega) hper hmir hcache
      fuel tail true (by omega) (by omega) (by omega) (fun _ => ⟨0, by simp⟩)
    rw [hnd]
    simp only [Nat.cast_one] at hB hA
    rw [hB]
    exact hA

theorem oddSymmetric1d_spec (hW : WinOK W y0.shape) (hd : d < W.length)
    (hwin : W.getD d (0, 0) = (head, tail)) (hlt : head < tail) {fuel : Nat}
    (hfuel : max head (y0.shape.getD d 0 - tail) ≤ fuel) :
    oddSymmetric1d fuel y0 (idxOf W) d =
      .ok (applyExt Spec.oddSymmetric head tail y0 W d 0 (y0.shape.getD d 0)) := by
  have hb := hW.get hd
  rw [hwin] at hb
  simp only at hb
  simp only [oddSymmetric1d, bounds_idxOf hd hwin, bind, Except.bind]
  have hlen : ((tail : Int) - head) = ((tail - head : Nat) : Int) := by omega
  rw [hlen]
  have hE : Spec.IsExt (Spec.oddSymmetric (α := α)) (tail - head) := Spec.oddSymmetric_isExt _
  have h0 := applyExt_init (y0 := y0) hE hd
  rw [applyExt] at h0
  have hodd : ∀ (u : Nat → α) (k z : Int),
      Spec.oddSymmetric (tail - head) (fun j => u (head + j))
        (2 * (head + k * (tail - head : Nat)) - 1 + (0 : Nat) - z - head) =
      2 * Spec.oddSymmetric (tail - head) (fun j => u (head + j)) (head + k * (tail - head : Nat) - head)
        - Spec.oddSymmetric (tail - head) (fun j => u (head + j)) (z - head) := by
    intro u k z
    have := Spec.oddSymmetric_odd (n := tail - head) (by omega) (fun j => u (head + j)) k (z - head)
    convert this using 2
    · push_cast; ring
    · ring_nf
  have hB := oddBefore_fill (y0 := y0)
    (E := fun u z => Spec.oddSymmetric (tail - head) (fun j => u (head + j)) (z - head))
    (o := 0) (L := tail - head) (head := head) (tail := tail) hW hd
    (by omega) (by omega) (by omega) (by omega) hodd
    fuel head (by omega) (by omega) (fun _ => ⟨0, by simp⟩)
  rw [fillZ, h0] at hB
  have hA := oddAfter_fill (y0 := y0)
    (E := fun u z => Spec.oddSymmetric (tail - head) (fun j => u (head + j)) (z - head))
    (o := 0) (L := tail - head) (head := head) (tail := tail) hW hd
    (by omega) (by omega) (by omega) hodd
    fuel tail (by omega) (by omega) (by omega) (fun _ => ⟨0, by simp⟩)
  simp only [Nat.cast_zero] at hB hA
  rw [hB]
  exact hA

theorem oddReflect1d_spec (hW : WinOK W y0.shape) (hd : d < W.length)
    (hwin : W.getD d (0, 0) = (head, tail)) (hlt : head < tail) {fuel : Nat}
    (hfuel : max head (y0.shape.getD d 0 - tail) ≤ fuel) :
    oddReflect1d fuel y0 (idxOf W) d =
      .ok (applyExt Spec.oddReflect head tail y0 W d 0 (y0.shape.getD d 0)) := by
  have hb := hW.get hd
  rw [hwin] at hb
  simp only at hb
  simp only [oddReflect1d, bounds_idxOf hd hwin, bind, Except.bind]
  split_ifs with h1
  · rw [replicate1d_spec hW hd hwin hlt]
    have h2 : tail - head = 1 := by omega
    simp only [applyExt, h2, Spec.oddReflect, if_true, Spec.replicate]
    congr 2
    funext u i
    split_ifs <;> congr 1; omega
  have hlen : ((tail : Int) - head - 1) = ((tail - head - 1 : Nat) : Int) := by omega
  rw [hlen]
  have hE : Spec.IsExt (Spec.oddReflect (α := α)) (tail - head) := Spec.oddReflect_isExt _
  have h0 := applyExt_init (y0 := y0) hE hd
  rw [applyExt] at h0
  have hodd : ∀ (u : Nat → α) (k z : Int),
      Spec.oddReflect (tail - head) (fun j => u (head + j))
        (2 * (head + k * (tail - head - 1 : Nat)) - 1 + (1 : Nat) - z - head) =
      2 * Spec.oddReflect (tail - head) (fun j => u (head + j)) (head + k * (tail - head - 1 : Nat) - head)
        - Spec.oddReflect (tail - head) (fun j => u (head + j)) (z - head) := by
    intro u k z
    have := Spec.oddReflect_odd (n := tail - head) (by omega) (fun j => u (head + j)) k (z - head)
    convert this using 2
    · push_cast; ring
    · ring_nf
  have hB := oddBefore_fill (y0 := y0)
    (E := fun u z => Spec.oddReflect (tail - head) (fun j => u (head + j)) (z - head))
    (o := 1) (L := tail - head - 1) (head := head) (tail := tail) hW hd
    (by omega) (by omega) (by omega) (by omega) hodd
    fuel head (by omega) (by omega) (fun _ => ⟨0, by simp⟩)
  rw [fillZ, h0] at hB
  have hA := oddAfter_fill (y0 := y0)
    (E := fun u z => Spec.oddReflect (tail - head) (fun j => u (head + j)) (z - head))
    (o := 1) (L := tail - head - 1) (head := head) (tail := tail) hW hd
    (by omega) (by omega) (by omega) hodd
    fuel tail (by omega) (by omega) (by omega) (fun _ => ⟨0, by simp⟩)
  simp only [Nat.cast_one] at hB hA
  rw [hB]
  exact hA

end Ring

end TI
