import Verif.Proofs.Pad1dC

/-! `smooth_1d`, `zeros_1d`, `constant_1d`, `linear_ramp_1d`, `stat_1d`. -/

namespace TI

open Tensor

section Ring
variable {α : Type} [Ring α] {y0 : Tensor α} {W : List (Nat × Nat)} {d head tail : Nat}

theorem constant1d_spec (vb va : α) (hW : WinOK W y0.shape) (hd : d < W.length)
    (hwin : W.getD d (0, 0) = (head, tail)) :
    constant1d vb va y0 (idxOf W) d =
      .ok (applyExt (Spec.constant vb va) head tail y0 W d 0 (y0.shape.getD d 0)) := by
  have hb := hW.get hd
  rw [hwin] at hb
  simp only at hb
  have h0 := applyExt_init (y0 := y0) (Spec.constant_isExt vb va (tail - head)) hd
  conv_lhs => rw [← h0]
  simp only [constant1d, bounds_idxOf hd hwin, bind, Except.bind]
  have step1 : (if (head : Int) > 0 then
      (applyExt (Spec.constant vb va) head tail y0 W d head tail).setSlice
        (modifyIdx (.upto head) (idxOf W) d) (.scalar vb)
      else pure (applyExt (Spec.constant vb va) head tail y0 W d head tail)) =
      .ok (applyExt (Spec.constant vb va) head tail y0 W d 0 tail) := by
    split_ifs with hh
    · rw [setSlice_fill_scalar (a := 0) (b := head) hW hd (resolve_upto (by omega)) (by omega)
        (by omega) (by
          intro u t ht
          simp only [Spec.constant]
          rw [if_pos (by omega)])]
      rw [show min head 0 = 0 by omega, show max tail head = tail by omega]
    · have : head = 0 := by omega
      subst this
      rfl
  rw [step1]
  simp only []
  by_cases hh : tail < y0.shape.getD d 0
  · rw [if_pos (by rw [shape_fill]; omega)]
    rw [setSlice_fill_scalar (a := tail) (b := y0.shape.getD d 0) hW hd (resolve_from (by omega))
      (by omega) (by omega) (by
          intro u t ht
          simp only [Spec.constant]
          rw [if_neg (by omega), if_neg (by omega)])]
    rw [show min 0 tail = 0 by omega, show max tail (y0.shape.getD d 0) = y0.shape.getD d 0 by omega]
  · rw [if_neg (by rw [shape_fill]; omega), show y0.shape.getD d 0 = tail by omega]
    rfl

theorem zeros1d_eq_constant1d (y0 : Tensor α) (idx : List PySlice) (d : Nat) :
    zeros1d y0 idx d = constant1d 0 0 y0 idx d := rfl

theorem length_arangeDown (m : Nat) : (arangeDown (α := α) (m : Int)).length = m := by
  simp [arangeDown]

theorem getD_arangeDown {m t : Nat} (h : t < m) :
    (arangeDown (α := α) (m : Int)).getD t 0 = (((m : Int) - t : Int) : α) := by
  simp [arangeDown, List.getD_eq_getElem?_getD, h]

theorem length_arangeUp (m : Nat) : (arangeUp (α := α) (m : Int)).length = m := by
  simp [arangeUp]

theorem getD_arangeUp {m t : Nat} (h : t < m) :
    (arangeUp (α := α) (m : Int)).getD t 0 = ((1 + (t : Int) : Int) : α) := by
  simp [arangeUp, List.getD_eq_getElem?_getD, h]

theorem smooth1d_spec (hW : WinOK W y0.shape) (hd : d < W.length)
    (hwin : W.getD d (0, 0) = (head, tail)) (hlt : head < tail) :
    smooth1d y0 (idxOf W) d =
      .ok (applyExt Spec.smooth head tail y0 W d 0 (y0.shape.getD d 0)) := by
  have hb := hW.get hd
  rw [hwin] at hb
  simp only at hb
  simp only [smooth1d, bounds_idxOf hd hwin, bind, Except.bind]
  by_cases h1 : (tail : Int) - head = 1
  · rw [if_pos h1, replicate1d_spec hW hd hwin hlt]
    have h2 : tail - head = 1 := by omega
    simp only [applyExt, h2, Spec.smooth, if_true, Spec.replicate]
    congr 2
    funext u i
    split_ifs <;> congr 1; omega
  rw [if_neg h1]
  have hn1 : tail - head ≠ 1 := by omega
  have hnd : y0.ndim = W.length := hW.length_eq.symm
  have hE := Spec.smooth_isExt (α := α) (tail - head)
  have h0 := applyExt_init (y0 := y0) hE hd
  have hval := fun (u : Nat → α) (i : Nat) => isExt_at (head := head) (tail := tail) hE u i
  generalize hY : applyExt Spec.smooth head tail y0 W d head tail = Y at h0
  have step1 : (if (head : Int) > 0 then (do
      let dist := Tensor.column (arangeDown (α := α) head) (Y.ndim - d - 1)
      let dd ← Tensor.bop (· - ·) (Y.getSlice (modifyIdx (.between (head + 1) (head + 2)) (idxOf W) d))
        (Y.getSlice (modifyIdx (.between head (head + 1)) (idxOf W) d))
      let p ← Tensor.bop (· * ·) dist dd
      let v ← Tensor.bop (· - ·) (Y.getSlice (modifyIdx (.between head (head + 1)) (idxOf W) d)) p
      Y.setSlice (modifyIdx (.upto head) (idxOf W) d) v : Except Err (Tensor α))
    else pure Y) =
      .ok (applyExt Spec.smooth head tail y0 W d 0 tail) := by
    split_ifs with hh
    · subst hY
      have hnd' : (applyExt (Spec.smooth (α := α)) head tail y0 W d head tail).ndim = W.length := hnd
      rw [getSlice_fill (a := head + 1) (b := head + 2) hW hd
        (by exact_mod_cast resolve_between (a := head + 1) (b := head + 2) (by omega) (by omega))
        (by omega) (by omega) (by omega)]
      rw [getSlice_fill (a := head) (b := head + 1) hW hd
        (by exact_mod_cast resolve_between (a := head) (b := head + 1) (by omega) (by omega))
        (by omega) (by omega) (by omega)]
      rw [show head + 1 - head = 1 by omega, show head + 2 - (head + 1) = 1 by omega,
        bop_chunk_one hd]
      simp only [bind, Except.bind]
      rw [bop_column hd _ _ _ hnd' rfl (length_arangeDown head).symm]
      simp only []
      rw [bop_chunk_one hd]
      simp only []
      rw [setSlice_fill (a := 0) (b := head) hW hd (resolve_upto (by omega)) (by omega)
        (by omega) (by omega) (by
          intro u t ht
          rw [getD_arangeDown (by omega)]
          simp only [Nat.add_zero, Nat.zero_add]
          rw [hval u head (by omega) (by omega), hval u (head + 1) (by omega) (by omega)]
          simp only [Spec.smooth, hn1, if_false]
          rw [if_pos (by omega)]
          simp only [Nat.add_zero]
          rw [show ((t : Int) - head) = -((head : Int) - t) by ring, Int.cast_neg, neg_mul,
            sub_eq_add_neg])]
      rw [show min head 0 = 0 by omega, show max tail head = tail by omega]
    · have : head = 0 := by omega
      subst this
      rw [← hY]
      rfl
  simp only [bind, Except.bind] at step1
  rw [h0] at step1
  rw [step1]
  simp only []
  have hnd' : (applyExt (Spec.smooth (α := α)) head tail y0 W d 0 tail).ndim = W.length := hnd
  by_cases hh : tail < y0.shape.getD d 0
  · rw [if_pos (by rw [shape_fill]; omega)]
    have e1 : ((tail : Int) - 1) = ((tail - 1 : Nat) : Int) := by omega
    have e2 : ((tail : Int) - 2) = ((tail - 2 : Nat) : Int) := by omega
    simp only [shape_fill]
    have e3 : (((y0.shape.getD d 0 : Nat) : Int) - tail) = ((y0.shape.getD d 0 - tail : Nat) : Int) := by
      omega
    rw [e1, e2, e3]
    rw [getSlice_fill (a := tail - 1) (b := tail) hW hd (resolve_between (by omega) (by omega))
        (by omega) (by omega) (by omega)]
    rw [getSlice_fill (a := tail - 2) (b := tail - 1) hW hd (resolve_between (by omega) (by omega))
        (by omega) (by omega) (by omega)]
    rw [show tail - (tail - 1) = 1 by omega, show tail - 1 - (tail - 2) = 1 by omega,
        bop_chunk_one hd]
    simp only []
    rw [bop_column hd _ _ _ hnd' rfl (length_arangeUp _).symm]
    simp only []
    rw [bop_chunk_one hd]
    simp only []
    rw [setSlice_fill (a := tail) (b := y0.shape.getD d 0) hW hd (resolve_from (by omega)) (by omega)
        (by omega) (by omega) (by
          intro u t ht
          rw [getD_arangeUp (by omega)]
          simp only [Nat.add_zero]
          rw [hval u (tail - 1) (by omega) (by omega), hval u (tail - 2) (by omega) (by omega)]
          simp only [Spec.smooth, hn1, if_false]
          rw [if_neg (by omega), if_neg (by omega)]
          rw [show head + (tail - head - 1) = tail - 1 by omega,
            show head + (tail - head - 2) = tail - 2 by omega]
          congr 3
          omega)]
    rw [show min 0 tail = 0 by omega, show max tail (y0.shape.getD d 0) = y0.shape.getD d 0 by omega]
  · rw [if_neg (by rw [shape_fill]; omega), show y0.shape.getD d 0 = tail by omega]
    rfl

end Ring

section Field
variable {α : Type} [Field α] {y0 : Tensor α} {W : List (Nat × Nat)} {d head tail : Nat}

theorem length_linspace (a b : α) (m : Nat) : (linspace a b m).length = m := by simp [linspace]

theorem getD_linspace {a b : α} {m t : Nat} (h : t < m) :
    (linspace a b m).getD t 0 = a + (t : α) * ((b - a) / ((m - 1 : Nat) : α)) := by
  simp [linspace, List.getD_eq_getElem?_getD, h]

theorem getD_dropLast {l : List α} {t : Nat} (h : t < l.length - 1) : l.dropLast.getD t 0 = l.getD t 0 := by
  simp [List.getD_eq_getElem?_getD, h, List.getElem?_eq_getElem (show t < l.length by omega)]

theorem getD_tail {l : List α} {t : Nat} : l.tail.getD t 0 = l.getD (t + 1) 0 := by
  simp [List.getD_eq_getElem?_getD]

theorem linearRamp1d_spec [CharZero α] (vb va : α) (hW : WinOK W y0.shape) (hd : d < W.length)
    (hwin : W.getD d (0, 0) = (head, tail)) (hlt : head < tail) :
    linearRamp1d vb va y0 (idxOf W) d =
      .ok (applyExt (Spec.linearRamp head (y0.shape.getD d 0 - tail) vb va) head tail y0 W d 0
        (y0.shape.getD d 0)) := by
  have hb := hW.get hd
  rw [hwin] at hb
  simp only at hb
  simp only [linearRamp1d, bounds_idxOf hd hwin, bind, Except.bind]
  have hnd : y0.ndim = W.length := hW.length_eq.symm
  have hE := Spec.linearRamp_isExt head (y0.shape.getD d 0 - tail) vb va (tail - head)
  have h0 := applyExt_init (y0 := y0) hE hd
  have hval := fun (u : Nat → α) (i : Nat) => isExt_at (head := head) (tail := tail) hE u i
  generalize hEE : Spec.linearRamp head (y0.shape.getD d 0 - tail) vb va = E at h0 hval hE
  generalize hY : applyExt E head tail y0 W d head tail = Y at h0
  have step1 : (if (head : Int) > 0 then (do
      let dist := Tensor.column (linspace (0 : α) 1 ((head : Int).toNat + 1)).dropLast (Y.ndim - d - 1)
      let dd := (Y.getSlice (modifyIdx (.between head (head + 1)) (idxOf W) d)).map (· - vb)
      let p ← Tensor.bop (· * ·) dist dd
      Y.setSlice (modifyIdx (.upto head) (idxOf W) d) (p.map (vb + ·)) : Except Err (Tensor α))
    else pure Y) =
      .ok (applyExt E head tail y0 W d 0 tail) := by
    split_ifs with hh
    · subst hY
      have hnd' : (applyExt E head tail y0 W d head tail).ndim = W.length := hnd
      rw [getSlice_fill (a := head) (b := head + 1) hW hd
        (by exact_mod_cast resolve_between (a := head) (b := head + 1) (by omega) (by omega))
        (by omega) (by omega) (by omega)]
      rw [show head + 1 - head = 1 by omega, map_chunk]
      simp only [bind, Except.bind]
      rw [bop_column hd _ _ _ hnd' rfl (m := head) (by simp [length_linspace])]
      simp only [map_chunk]
      rw [setSlice_fill (a := 0) (b := head) hW hd (resolve_upto (by omega)) (by omega)
        (by omega) (by omega) (by
          intro u t ht
          rw [getD_dropLast (by rw [length_linspace]; omega), getD_linspace (by omega)]
          simp only [Nat.add_zero, Nat.zero_add]
          rw [hval u head (by omega) (by omega), ← hEE]
          simp only [Spec.linearRamp]
          rw [if_pos (by omega)]
          have hne : (head : α) ≠ 0 := by exact_mod_cast (show head ≠ 0 by omega)
          simp only [Int.toNat_natCast, Nat.add_sub_cancel, Nat.add_zero]
          push_cast
          field_simp
          ring)]
      rw [show min head 0 = 0 by omega, show max tail head = tail by omega]
    · have : head = 0 := by omega
      subst this
      rw [← hY]
      rfl
  simp only [bind, Except.bind] at step1
  rw [h0] at step1
  rw [step1]
  simp only []
  have hnd' : (applyExt E head tail y0 W d 0 tail).ndim = W.length := hnd
  by_cases hh : tail < y0.shape.getD d 0
  · rw [if_pos (by rw [shape_fill]; omega)]
    have e1 : ((tail : Int) - 1) = ((tail - 1 : Nat) : Int) := by omega
    simp only [shape_fill]
    have e3 : (((y0.shape.getD d 0 : Nat) : Int) - tail).toNat = y0.shape.getD d 0 - tail := by
      omega
    rw [e1, e3]
    rw [getSlice_fill (a := tail - 1) (b := tail) hW hd (resolve_between (by omega) (by omega))
        (by omega) (by omega) (by omega)]
    rw [show tail - (tail - 1) = 1 by omega, map_chunk]
    rw [bop_column hd _ _ _ hnd' rfl (m := y0.shape.getD d 0 - tail) (by simp [length_linspace])]
    simp only [map_chunk]
    rw [setSlice_fill (a := tail) (b := y0.shape.getD d 0) hW hd (resolve_from (by omega)) (by omega)
        (by omega) (by omega) (by
          intro u t ht
          rw [getD_tail, getD_linspace (by omega)]
          simp only [Nat.add_zero]
          rw [hval u (tail - 1) (by omega) (by omega), ← hEE]
          simp only [Spec.linearRamp]
          rw [if_neg (by omega), if_neg (by omega)]
          have hne : ((y0.shape.getD d 0 - tail : Nat) : α) ≠ 0 := by
            exact_mod_cast (show y0.shape.getD d 0 - tail ≠ 0 by omega)
          rw [show head + (tail - head - 1) = tail - 1 by omega, Nat.add_sub_cancel,
            show (((tail + t : Nat) : Int) - head - ((tail - head - 1 : Nat) : Int)) = t + 1 by omega]
          push_cast
          field_simp
          ring)]
    rw [show min 0 tail = 0 by omega, show max tail (y0.shape.getD d 0) = y0.shape.getD d 0 by omega]
  · rw [if_neg (by rw [shape_fill]; omega), show y0.shape.getD d 0 = tail by omega]
    rfl

variable [LinearOrder α]

/-- the value of a statistic on a non-empty list -/
def Stat.val (s : Stat) (l : List α) : α := match s.eval l with
  | .ok v => v
  | .error _ => 0

theorem reduce_chunk (s : Stat) (hd : d < W.length) {g : (Nat → α) → Nat → α} {m : Nat} (hm : 0 < m) :
    s.reduce (chunk y0 W d g m) d =
      .ok (chunk y0 W d (fun u _ => s.val ((List.range m).map fun j => g u j)) 1) := by
  have hm' : (chunk y0 W d g m).shape.getD d 0 = m := by
    rw [shape_chunk, getD_set_self _ _ _ _ (by simpa [length_wlen] using hd)]
  rw [Stat.reduce, if_neg (by omega), shape_chunk, List.set_set]
  congr 1
  apply ofFn_congr
  intro jx hjx
  have hl := hjx.length_eq
  rw [List.length_set, length_wlen] at hl
  have : (chunk y0 W d g m).fibre d jx =
      (List.range m).map fun j => g (fun j => y0.get ((shift W jx).set d j)) j := by
    rw [Tensor.fibre, hm']
    apply List.map_congr_left
    intro j hj
    rw [List.mem_range] at hj
    have hin : InB ((wlen W).set d m) (jx.set d j) := hjx.set hj
    rw [get_chunk hin, getD_set_self _ _ _ _ (by omega)]
    simp only [shift_set_fibre hl]
  rw [this]
  rfl

theorem stat1d_spec (s : Stat) (b a : Option Int) (hW : WinOK W y0.shape) (hd : d < W.length)
    (hwin : W.getD d (0, 0) = (head, tail)) (hlt : head < tail) :
    stat1d s b a y0 (idxOf W) d =
      .ok (applyExt (Spec.border s.val b a) head tail y0 W d 0 (y0.shape.getD d 0)) := by
  have hb := hW.get hd
  rw [hwin] at hb
  simp only at hb
  simp only [stat1d, bounds_idxOf hd hwin, bind, Except.bind]
  have hE := Spec.border_isExt (Stat.val (α := α) s) b a (tail - head)
  have h0 := applyExt_init (y0 := y0) hE hd
  have hval := fun (u : Nat → α) (i : Nat) => isExt_at (head := head) (tail := tail) hE u i
  generalize hEE : Spec.border (Stat.val (α := α) s) b a = E at h0 hval hE
  -- reduction of a window that lies in the ground truth
  have hred : ∀ (lo hi p q : Nat), lo ≤ head → tail ≤ hi → hi ≤ y0.shape.getD d 0 → head ≤ p → p < q → q ≤ tail →
      s.reduce ((applyExt E head tail y0 W d lo hi).getSlice
        (modifyIdx (.between (p : Int) q) (idxOf W) d)) d =
      .ok (chunk y0 W d (fun u _ => s.val ((List.range (q - p)).map fun j => u (p + j))) 1) := by
    intro lo hi p q h1 h2 h3 h4 h5 h6
    rw [getSlice_fill (a := p) (b := q) hW hd (resolve_between (by omega) (by omega))
      (by omega) (by omega) (by omega), reduce_chunk s hd (by omega)]
    congr 1
    apply chunk_congr hd
    intro u t _
    congr 1
    apply List.map_congr_left
    intro j hj
    rw [List.mem_range] at hj
    exact hval u (p + j) (by omega) (by omega)
  -- writing the statistic before / after
  have hsetB : ∀ (lo hi : Nat), lo ≤ head → head ≤ hi → hi ≤ y0.shape.getD d 0 →
      ∀ g : (Nat → α) → Nat → α,
      (∀ u, g u 0 = s.val ((List.range (Spec.window (tail - head) b)).map fun j => u (head + j))) →
      (applyExt E head tail y0 W d lo hi).setSlice (modifyIdx (.upto head) (idxOf W) d)
        (chunk y0 W d g 1) = .ok (applyExt E head tail y0 W d 0 hi) := by
    intro lo hi h1 h2 h3 g hg
    rw [setSlice_fill_one (a := 0) (b := head) hW hd (resolve_upto (by omega)) (by omega) (by omega) (by
      intro u t ht
      rw [hg, ← hEE]
      simp only [Spec.border]
      rw [if_pos (by omega)])]
    rw [show min lo 0 = 0 by omega, show max hi head = hi by omega]
  have hsetA : ∀ (hi : Nat), tail ≤ hi → hi ≤ y0.shape.getD d 0 →
      ∀ g : (Nat → α) → Nat → α,
      (∀ u, g u 0 = s.val ((List.range (Spec.window (tail - head) a)).map fun j =>
          u (tail - Spec.window (tail - head) a + j))) →
      (applyExt E head tail y0 W d 0 hi).setSlice (modifyIdx (.from tail) (idxOf W) d)
        (chunk y0 W d g 1) = .ok (applyExt E head tail y0 W d 0 (y0.shape.getD d 0)) := by
    intro hi h1 h2 g hg
    have hwl : Spec.window (tail - head) a ≤ tail - head := by
      cases a with
      | none => simp [Spec.window]
      | some w => simp only [Spec.window]; omega
    rw [setSlice_fill_one (a := tail) (b := y0.shape.getD d 0) hW hd (resolve_from (by omega)) (by omega) (by omega) (by
      intro u t ht
      rw [hg, ← hEE]
      simp only [Spec.border]
      rw [if_neg (by omega), if_neg (by omega)]
      congr 1
      apply List.map_congr_left
      intro j hj
      congr 1
      omega)]
    rw [show min 0 tail = 0 by omega, show max hi (y0.shape.getD d 0) = (y0.shape.getD d 0) by omega]
  have hlen : ((tail : Int) - head) = ((tail - head : Nat) : Int) := by omega
  -- the three stages
  have stage1 : ∃ lo hi, lo ≤ head ∧ tail ≤ hi ∧ hi ≤ y0.shape.getD d 0 ∧
      (if ((head : Int) > 0 ∧ (tail : Int) < y0.shape.getD d 0) ∧ (b = none ∧ a = none) then
        statBoth s y0 (fun s => modifyIdx s (idxOf W) d) head tail d
      else pure y0) = (.ok (applyExt E head tail y0 W d lo hi) : Except Err (Tensor α)) := by
    split_ifs with hc
    · obtain ⟨⟨hc1, hc2⟩, hc3, hc4⟩ := hc
      refine ⟨0, y0.shape.getD d 0, by omega, by omega, by omega, ?_⟩
      have hr := hred head tail head tail (by omega) (by omega) (by omega) (by omega) (by omega) (by omega)
      rw [h0] at hr
      simp only [statBoth, bind, Except.bind]
      rw [hr]
      simp only []
      have hs := hsetB head tail (by omega) (by omega) (by omega) (fun u _ => s.val ((List.range (tail - head)).map fun j => u (head + j))) (by
        intro u; rw [hc3]; rfl)
      rw [h0] at hs
      rw [hs]
      simp only []
      rw [hsetA tail (by omega) (by omega) _ (by
        intro u
        rw [hc4]
        simp only [Spec.window]
        rw [show tail - (tail - head) = head by omega])]
    · exact ⟨head, tail, by omega, by omega, by omega, by rw [h0]; rfl⟩
  obtain ⟨lo, hi, hlo, hhi, hhN, hs1⟩ := stage1
  rw [hs1]
  simp only []
  have stage2 :
      (if (head : Int) > 0 then
        statBefore s b (applyExt E head tail y0 W d lo hi) (fun s => modifyIdx s (idxOf W) d) head tail d
      else pure (applyExt E head tail y0 W d lo hi)) =
        (.ok (applyExt E head tail y0 W d 0 hi) : Except Err (Tensor α)) := by
    split_ifs with hc
    · cases b with
      | none =>
        simp only [statBefore, bind, Except.bind]
        rw [hred lo hi head tail (by omega) (by omega) (by omega) (by omega) (by omega) (by omega)]
        simp only []
        rw [hsetB lo hi (by omega) (by omega) (by omega) _ (by intro u; rfl)]
      | some w =>
        simp only [statBefore, bind, Except.bind]
        obtain ⟨m, hm⟩ : ∃ m : Nat, min ((tail : Int) - head) (max 1 w) = m :=
          ⟨(min ((tail : Int) - head) (max 1 w)).toNat, by omega⟩
        rw [hm, show (head : Int) + m = ((head + m : Nat) : Int) by omega]
        rw [hred lo hi head (head + m) (by omega) (by omega) (by omega) (by omega) (by omega) (by omega)]
        simp only []
        rw [hsetB lo hi (by omega) (by omega) (by omega) _ (by
          intro u
          simp only [Spec.window]
          rw [← hlen, hm, show head + m - head = m by omega]; rfl)]
    · have : head = 0 := by omega
      have : lo = 0 := by omega
      rw [this]; rfl
  rw [stage2]
  simp only []
  by_cases hh : tail < y0.shape.getD d 0
  · rw [if_pos (by rw [shape_fill]; omega)]
    cases a with
    | none =>
      simp only [statAfter, bind, Except.bind]
      rw [hred 0 hi head tail (by omega) (by omega) (by omega) (by omega) (by omega) (by omega)]
      simp only []
      rw [hsetA hi (by omega) (by omega) _ (by
        intro u
        simp only [Spec.window]
        rw [show tail - (tail - head) = head by omega])]
    | some w =>
      simp only [statAfter, bind, Except.bind]
      obtain ⟨m, hm⟩ : ∃ m : Nat, min ((tail : Int) - head) (max 1 w) = m :=
        ⟨(min ((tail : Int) - head) (max 1 w)).toNat, by omega⟩
      rw [hm, show (tail : Int) - m = ((tail - m : Nat) : Int) by omega]
      rw [hred 0 hi (tail - m) tail (by omega) (by omega) (by omega) (by omega) (by omega) (by omega)]
      simp only []
      rw [hsetA hi (by omega) (by omega) _ (by
        intro u
        simp only [Spec.window]
        rw [← hlen, hm, show tail - (tail - m) = m by omega]; rfl)]
  · rw [if_neg (by rw [shape_fill]; omega), show hi = y0.shape.getD d 0 by omega]
    rfl

end Field

end TI
