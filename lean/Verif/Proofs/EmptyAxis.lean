import Verif.Proofs.PadAxis

/-! The loops of the padding functions on an empty region: no number of iterations suffices. -/

namespace TI
open Tensor

variable {α : Type} {W : List (Nat × Nat)} {d : Nat}

theorem cut_shape [Zero α] {x : Tensor α} (hW : WinOK W x.shape) (s : PySlice) :
    (x.getSlice (modifyIdx s (idxOf W) d)).shape = (wlen W).set d (s.resolve (x.shape.getD d 0)).cnt := by
  have h : (W.map toRng).map (·.cnt) = wlen W := by simp [wlen, toRng, Function.comp_def]
  simp only [getSlice, ofFn]
  rw [modifyIdx, resolveAll_set (by simp [idxOf, hW.length_eq]), resolveAll_idxOf hW, List.map_set, h]

theorem put_ok [Zero α] {x v : Tensor α} (hW : WinOK W x.shape) (s : PySlice)
    (hv : v.shape = (wlen W).set d (s.resolve (x.shape.getD d 0)).cnt) :
    ∃ z, x.setSlice (modifyIdx s (idxOf W) d) v = .ok z ∧ z.shape = x.shape := by
  have h : (W.map toRng).map (·.cnt) = wlen W := by simp [wlen, toRng, Function.comp_def]
  have hb : bcastable v.shape ((resolveAll (modifyIdx s (idxOf W) d) x.shape).map (·.cnt)) = true := by
    rw [modifyIdx, resolveAll_set (by simp [idxOf, hW.length_eq]), resolveAll_idxOf hW, List.map_set, h, hv]
    exact bcastable_self _
  simp only [setSlice, hb, if_true]
  exact ⟨_, rfl, rfl⟩

theorem between_cnt_zero {a b : Int} {n : Nat} (h : normBound n b ≤ normBound n a) :
    ((PySlice.between a b).resolve n).cnt = 0 := by
  simp only [PySlice.resolve, PySlice.between]
  rw [Nat.sub_eq_zero_of_le h]

theorem normBound_mono_neg {n : Nat} {a b : Int} (h : b ≤ a) (ha : a < 0) : normBound n b ≤ normBound n a := by
  simp only [normBound, if_pos ha, if_pos (show b < 0 by omega)]; omega

theorem normBound_mono_pos {n : Nat} {a b : Int} (h : b ≤ a) (hb : 0 ≤ b) : normBound n b ≤ normBound n a := by
  simp only [normBound, if_neg (show ¬ a < 0 by omega), if_neg (show ¬ b < 0 by omega)]; omega

theorem between_self_cnt (a : Int) (n : Nat) : ((PySlice.between a a).resolve n).cnt = 0 :=
  between_cnt_zero le_rfl

theorem flip_shape' [Zero α] (x : Tensor α) (d : Nat) : (x.flip d).shape = x.shape := rfl

section Copy
variable [Zero α]

theorem circularBefore_none {f : PySlice → List PySlice} {tail length : Int} (fuel : Nat) (y : Tensor α) :
    circularBefore f tail length fuel y 0 = .ok y := by
  cases fuel <;> rw [circularBefore, if_neg (by omega)]

theorem circularAfter_diverges {head curr : Int} :
    ∀ (fuel : Nat) (y : Tensor α), WinOK W y.shape → curr < y.shape.getD d 0 →
      circularAfter (fun s => modifyIdx s (idxOf W) d) d head 0 fuel y curr = .error .diverge := by
  intro fuel
  induction fuel with
  | zero => intro y _ h; rw [circularAfter, if_pos h]
  | succ fuel ih =>
    intro y hW h
    rw [circularAfter, if_pos h]
    have e : min (((y.shape.getD d 0 : Nat) : Int) - curr) 0 = 0 := by omega
    simp only [e, add_zero, bind, Except.bind]
    obtain ⟨z, hz, hs⟩ := put_ok (x := y) (d := d) (v := y.getSlice (modifyIdx (.between head head) (idxOf W) d)) hW
      (.between curr curr) (by rw [cut_shape hW, between_self_cnt, between_self_cnt])
    rw [hz]
    exact ih z (by rw [hs]; exact hW) (by rw [hs]; exact h)

end Copy

section Ring
variable [Ring α]

theorem mirrorBefore_none {f g : PySlice → List PySlice} {h : Tensor α → Tensor α} {c : Option (Tensor α)} {o tail l l' : Int} {fl : Bool}
    (fuel : Nat) (y : Tensor α) : mirrorBefore f g h d c o tail l l' fuel y 0 fl = .ok y := by
  cases fuel <;> rw [mirrorBefore, if_neg (by omega)]

theorem oddBefore_none {f : PySlice → List PySlice} {o l : Int} (fuel : Nat) (y : Tensor α) : oddBefore f d o l fuel y 0 = .ok y := by
  cases fuel <;> rw [oddBefore, if_neg (by omega)]

/-- the mirroring loop before, `e` being the surplus of the flipped chunk: 0 for `symmetric`, 2 for `reflect` -/
theorem mirrorBefore_diverges {g : PySlice → List PySlice} {h : Tensor α → Tensor α} (hh : ∀ t, (h t).shape = t.shape) {o tail e : Int}
    (_ : 0 ≤ o) (he : 0 ≤ e) (hoe : e ≤ o + 1) :
    ∀ (fuel : Nat) (y : Tensor α) (curr : Int) (flip : Bool), WinOK W y.shape → 0 < curr →
      mirrorBefore (fun s => modifyIdx s (idxOf W) d) g h d none o tail 0 (-e) fuel y curr flip = .error .diverge := by
  intro fuel
  induction fuel with
  | zero => intro y curr flip _ hc; rw [mirrorBefore, if_pos hc]
  | succ fuel ih =>
    intro y curr flip hW hc
    rw [mirrorBefore, if_pos hc]
    have hstep : ∀ (a b c : Int) (v : Tensor α) (fl : Bool), 0 < c → v.shape = (wlen W).set d 0 →
        ((PySlice.between a b).resolve (y.shape.getD d 0)).cnt = 0 →
        (do let x ← y.setSlice (modifyIdx (.between a b) (idxOf W) d) v
            mirrorBefore (fun s => modifyIdx s (idxOf W) d) g h d none o tail 0 (-e) fuel x c fl) = .error .diverge := by
      intro a b c v fl hc' hv hcnt
      obtain ⟨z, hz, hs⟩ := put_ok (x := y) (d := d) (v := v) hW (.between a b) (by rw [hv, hcnt])
      rw [hz]
      exact ih z c fl (by rw [hs]; exact hW) hc'
    cases flip with
    | true =>
      have e1 : min curr (-e) = -e := by omega
      simp only [if_true, e1, cachedOr]
      apply hstep _ _ _ _ _ (by omega)
      · rw [hh, flip_shape', cut_shape hW, between_cnt_zero (normBound_mono_pos (by omega) (by omega))]
      · exact between_cnt_zero (normBound_mono_pos (by omega) (by omega))
    | false =>
      have e1 : min curr 0 = 0 := by omega
      simp only [Bool.false_eq_true, if_false, e1, sub_zero]
      apply hstep _ _ _ _ _ hc
      · rw [cut_shape hW, between_self_cnt]
      · exact between_self_cnt _ _

/-- the mirroring loop after, once the position is negative (or the flipped chunk has no surplus) -/
theorem mirrorAfter_diverges {g : PySlice → List PySlice} {h : Tensor α → Tensor α} (hh : ∀ t, (h t).shape = t.shape) {o head e : Int}
    (ho : 0 ≤ o) (he : 0 ≤ e) (hoe : e ≤ o + 1) :
    ∀ (fuel : Nat) (y : Tensor α) (curr : Int) (flip : Bool), WinOK W y.shape → curr < y.shape.getD d 0 →
      (e = 0 ∨ 0 < o ∧ curr + e ≤ 0) →
      mirrorAfter (fun s => modifyIdx s (idxOf W) d) g h d none o head 0 (-e) fuel y curr flip = .error .diverge := by
  intro fuel
  induction fuel with
  | zero => intro y curr flip _ hc _; rw [mirrorAfter, if_pos hc]
  | succ fuel ih =>
    intro y curr flip hW hc hneg
    rw [mirrorAfter, if_pos hc]
    have hstep : ∀ (a b c : Int) (v : Tensor α) (fl : Bool), c ≤ curr → (e = 0 ∨ 0 < o ∧ c + e ≤ 0) → v.shape = (wlen W).set d 0 →
        ((PySlice.between a b).resolve (y.shape.getD d 0)).cnt = 0 →
        (do let x ← y.setSlice (modifyIdx (.between a b) (idxOf W) d) v
            mirrorAfter (fun s => modifyIdx s (idxOf W) d) g h d none o head 0 (-e) fuel x c fl) = .error .diverge := by
      intro a b c v fl hc' hn hv hcnt
      obtain ⟨z, hz, hs⟩ := put_ok (x := y) (d := d) (v := v) hW (.between a b) (by rw [hv, hcnt])
      rw [hz]
      exact ih z c fl (by rw [hs]; exact hW) (by rw [hs]; omega) hn
    cases flip with
    | true =>
      have e1 : min (((y.shape.getD d 0 : Nat) : Int) - curr) (-e) = -e := by omega
      simp only [if_true, e1, cachedOr]
      apply hstep _ _ _ _ _ (by omega) (by omega)
      · rw [hh, flip_shape', cut_shape hW]
        rcases hneg with rfl | hneg
        · simp only [neg_zero, sub_zero, between_self_cnt]
        · rw [between_cnt_zero]
          exact normBound_mono_neg (by omega) (by omega)
      · rcases hneg with rfl | hneg
        · simp only [neg_zero, add_zero, between_self_cnt]
        · apply between_cnt_zero
          by_cases h0 : curr < 0
          · exact normBound_mono_neg (by omega) h0
          · exact normBound_mono_pos (by omega) (by omega)
    | false =>
      have e1 : min (((y.shape.getD d 0 : Nat) : Int) - curr) 0 = 0 := by omega
      simp only [Bool.false_eq_true, if_false, e1, add_zero]
      apply hstep _ _ _ _ _ le_rfl hneg
      · rw [cut_shape hW, between_self_cnt]
      · exact between_self_cnt _ _

theorem bshape_set_zero {s : List Nat} {k : Nat} (hk : k ≤ 1) : bshape (s.set d k) (s.set d 0) = some (s.set d 0) := by
  rcases Nat.le_one_iff_eq_zero_or_eq_one.1 hk with rfl | rfl
  · exact bshape_self _
  · exact bshape_set_one _ _ _

theorem between_succ_cnt (a : Int) (n : Nat) (ha : 0 ≤ a) : ((PySlice.between a (a + 1)).resolve n).cnt ≤ 1 := by
  simp only [PySlice.resolve, PySlice.between, normBound, if_neg (show ¬ a < 0 by omega), if_neg (show ¬ a + 1 < 0 by omega),
    Nat.sub_self, Nat.add_zero, Nat.div_one]
  omega

/-- the loop before of `odd_symmetric_1d` (`o = 0`) and `odd_reflect_1d` (`o = 1`) -/
theorem oddBefore_diverges {o : Int} (ho : 0 ≤ o) :
    ∀ (fuel : Nat) (y : Tensor α) (curr : Int), WinOK W y.shape → 0 < curr →
      oddBefore (fun s => modifyIdx s (idxOf W) d) d o (-o) fuel y curr = .error .diverge := by
  intro fuel
  induction fuel with
  | zero => intro y curr _ hc; rw [oddBefore, if_pos hc]
  | succ fuel ih =>
    intro y curr hW hc
    rw [oddBefore, if_pos hc]
    have e1 : min curr (-o) = -o := by omega
    simp only [e1, bind, Except.bind]
    rw [bop_of_bshape (s := (wlen W).set d 0)]
    · obtain ⟨z, hz, hs⟩ := put_ok (x := y) (d := d) (v := ofFn ((wlen W).set d 0) fun ix => _) hW (.between (curr - -o) curr)
        (by rw [shape_ofFn, between_cnt_zero (normBound_mono_pos (by omega) (by omega))])
      simp only []
      rw [hz]
      exact ih z _ (by rw [hs]; exact hW) (by omega)
    · rw [flip_shape', cut_shape hW]
      show bshape (y.getSlice _).shape _ = _
      rw [cut_shape hW, between_cnt_zero (a := curr + o) (normBound_mono_pos (by omega) (by omega))]
      exact bshape_set_zero (between_succ_cnt _ _ (by omega))

/-- the loop after of `odd_symmetric_1d` -/
theorem oddAfter_diverges :
    ∀ (fuel : Nat) (y : Tensor α), WinOK W y.shape → 0 < y.shape.getD d 0 →
      oddAfter (fun s => modifyIdx s (idxOf W) d) d 0 0 fuel y 0 = .error .diverge := by
  intro fuel
  induction fuel with
  | zero => intro y _ hc; rw [oddAfter, if_pos (by omega)]
  | succ fuel ih =>
    intro y hW hc
    rw [oddAfter, if_pos (by omega)]
    have e1 : min ((y.shape.getD d 0 : Nat) : Int) 0 = 0 := by omega
    simp only [bind, Except.bind, sub_zero, e1, add_zero, zero_sub]
    rw [bop_of_bshape (s := (wlen W).set d 0)]
    · obtain ⟨z, hz, hs⟩ := put_ok (x := y) (d := d) (v := ofFn ((wlen W).set d 0) fun ix => _) hW (.between 0 0)
        (by rw [shape_ofFn, between_self_cnt])
      simp only []
      rw [hz]
      exact ih z (by rw [hs]; exact hW) (by rw [hs]; exact hc)
    · rw [flip_shape', cut_shape hW]
      show bshape (y.getSlice _).shape _ = _
      rw [cut_shape hW, between_self_cnt]
      apply bshape_set_zero
      rw [between_cnt_zero]
      · exact Nat.zero_le _
      · simp [normBound]

/-- the loop after of `reflect_1d`, entered at position 0 -/
theorem reflectAfter_diverges {g : PySlice → List PySlice} {head : Int} (fuel : Nat) {y : Tensor α} (hW : WinOK W y.shape) (hc : 0 < y.shape.getD d 0) :
    mirrorAfter (fun s => modifyIdx s (idxOf W) d) g id d none 1 head 0 (-2) fuel y 0 true = .error .diverge := by
  cases fuel with
  | zero => rw [mirrorAfter, if_pos (by omega)]
  | succ fuel =>
    rw [mirrorAfter, if_pos (by omega)]
    have e1 : min (((y.shape.getD d 0 : Nat) : Int) - 0) (-2) = -2 := by omega
    simp only [e1, if_true, cachedOr, id]
    obtain ⟨z, hz, hs⟩ := put_ok (x := y) (d := d)
      (v := (y.getSlice (modifyIdx (.between (0 - 1 - -2) (0 - 1)) (idxOf W) d)).flip d) hW (.between 0 (0 + -2)) (by
        rw [flip_shape', cut_shape hW]
        congr 1
        simp only [PySlice.resolve, PySlice.between, normBound]
        norm_num
        omega)
    simp only [bind, Except.bind]
    rw [hz]
    exact mirrorAfter_diverges (e := 2) (fun _ => rfl) (by omega) (by omega) (by omega) _ _ _ _ (by rw [hs]; exact hW) (by omega) (by omega)

end Ring
end TI
