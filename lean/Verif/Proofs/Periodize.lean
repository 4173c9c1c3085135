import Verif.Proofs.PadAxis
import Verif.Proofs.Pad1dC

/-!
# `periodize_1d` on a buffer without the reserved slot
-/

set_option linter.unusedSectionVars false

namespace TI

open Tensor Spec

section
variable {α : Type} [Field α] [LinearOrder α] {y0 : Tensor α} {W : List (Nat × Nat)} {d head tail : Nat}

theorem resolve_clip {a b n : Nat} (hab : a ≤ n) (hb : n ≤ b) : (PySlice.between a b).resolve n = toRng (a, n) := by
  have h1 : ¬ ((a : Int) < 0) := by omega
  have h2 : ¬ ((b : Int) < 0) := by omega
  simp only [PySlice.resolve, PySlice.between, normBound, h1, h2, if_false, toRng]
  congr 1
  · simp; omega
  · simp; omega

theorem bcastable_set {l : List Nat} {d a b : Nat} (hd : d < l.length) : bcastable (l.set d a) (l.set d b) = true ↔ a = b ∨ a = 1 := by
  simp only [bcastable, List.length_set, le_refl, decide_true, Nat.sub_self, List.drop_zero, Bool.true_and, List.all_eq_true]
  constructor
  · intro h
    have := h (a == b || a == 1) (List.mem_iff_getElem.2 ⟨d, by simpa using hd, by simp⟩)
    simpa using this
  · intro h v hv
    obtain ⟨k, hk, rfl⟩ := List.mem_iff_getElem.1 hv
    simp only [List.length_zipWith, List.length_set, min_self] at hk
    by_cases hkd : d = k
    · subst hkd
      simpa using h
    · simp [List.getElem_set, hkd]

/-- writing a chunk of the wrong size -/
theorem setSlice_chunk_error {y : Tensor α} (hW : WinOK W y.shape) (hd : d < W.length) {a b m : Nat} {s : PySlice} (hs : s.resolve (y.shape.getD d 0) = toRng (a, b))
    (hm : m ≠ b - a) (hm1 : m ≠ 1) {g : (Nat → α) → Nat → α} : y.setSlice (modifyIdx s (idxOf W) d) (chunk y0 W d g m) = .error .runtime := by
  have h := resolveAll_modify hW s hs
  have hb : bcastable (chunk y0 W d g m).shape (wlen (W.set d (a, b))) = false := by
    rw [Bool.eq_false_iff, shape_chunk, wlen_set, ne_eq, bcastable_set (by rw [length_wlen]; exact hd)]
    rintro (h | h)
    · exact hm h
    · exact hm1 h
  simp only [setSlice, h, map_cnt_toRng, hb, Bool.false_eq_true, if_false]

/-- one round of the loop, with a source that reaches one sample beyond the end -/
theorem circularBefore_short {e : (Nat → α) → Nat → α} (hW : WinOK W y0.shape) (hd : d < W.length) {n N fuel curr : Nat} (hN : y0.shape.getD d 0 = N) (hn : 2 ≤ n) (hc : 0 < curr)
    (hcn : curr + n ≤ N + 1) (he : min curr n = 2 → ∀ u, e u (N - 1) = e u (curr - 1) ∧ e u (N - 1) = e u (curr - 2)) :
    circularBefore (fun s => modifyIdx s (idxOf W) d) ((N + 1 : Nat) : Int) (n : Int) (fuel + 1) (fill y0 W d e curr N) (curr : Int) =
      if min curr n = 2 then circularBefore (fun s => modifyIdx s (idxOf W) d) ((N + 1 : Nat) : Int) (n : Int) fuel (fill y0 W d e (curr - 2) N) ((curr - 2 : Nat) : Int)
      else .error .runtime := by
  rw [circularBefore, if_pos (by omega)]
  have hcm : min (curr : Int) (n : Int) = ((min curr n : Nat) : Int) := by omega
  simp only [hcm]
  generalize hcc : min curr n = c at *
  have e1 : ((curr : Int) - (c : Int)) = ((curr - c : Nat) : Int) := by omega
  have e2 : (((N + 1 : Nat) : Int) - (c : Int)) = ((N + 1 - c : Nat) : Int) := by omega
  rw [e1, e2, getSlice_fill (a := N + 1 - c) (b := N) hW hd (by rw [hN]; exact resolve_clip (by omega) (by omega)) (by omega) (by omega) (by omega)]
  split_ifs with h2
  · subst h2
    rw [show N - (N + 1 - 2) = 1 by omega, setSlice_fill_one (a := curr - 2) (b := curr) hW hd (by rw [hN]; exact resolve_between (by omega) (by omega)) (by omega) (by omega) (by
      intro u t ht
      have h3 := he rfl u
      rw [show N + 1 - 2 + 0 = N - 1 by omega]
      by_cases ht0 : t = 0
      · rw [ht0, Nat.add_zero]
        exact h3.2
      · rw [show curr - 2 + t = curr - 1 by omega]
        exact h3.1)]
    simp only [bind, Except.bind]
    rw [show min curr (curr - 2) = curr - 2 by omega, show max N curr = N by omega]
  · have := setSlice_chunk_error (y0 := y0) (y := fill y0 W d e curr N) (W := W) (d := d) (a := curr - c) (b := curr) (m := N - (N + 1 - c))
      (s := PySlice.between ((curr - c : Nat) : Int) (curr : Int)) (g := fun u t => e u (N + 1 - c + t)) hW hd
      (by rw [shape_fill, hN]; exact resolve_between (by omega) (by omega)) (by omega) (by omega)
    rw [this]
    rfl

theorem circularBefore_zero {f : PySlice → List PySlice} {t n : Int} (fuel : Nat) (y : Tensor α) : circularBefore f t n fuel y 0 = .ok y := by
  cases fuel <;> rw [circularBefore, if_neg (by omega)]

theorem circularBefore_pairs {e : (Nat → α) → Nat → α} (hW : WinOK W y0.shape) (hd : d < W.length) {N : Nat} (hN : y0.shape.getD d 0 = N) :
    ∀ (fuel curr : Nat), curr ≤ fuel → curr + 1 ≤ N → (∀ u i, i < curr → e u (N - 1) = e u i) →
      circularBefore (fun s => modifyIdx s (idxOf W) d) ((N + 1 : Nat) : Int) ((2 : Nat) : Int) fuel (fill y0 W d e curr N) (curr : Int) =
        if curr % 2 = 0 then .ok (fill y0 W d e 0 N) else .error .runtime := by
  intro fuel
  induction fuel using Nat.strong_induction_on with
  | _ fuel ih =>
    intro curr hf hc he
    by_cases h0 : curr = 0
    · subst h0
      rw [if_pos rfl]
      exact circularBefore_zero _ _
    · obtain ⟨fuel, rfl⟩ : ∃ k, fuel = k + 1 := ⟨fuel - 1, by omega⟩
      rw [circularBefore_short hW hd hN le_rfl (by omega) (by omega) (fun _ u => ⟨he u _ (by omega), he u _ (by omega)⟩)]
      by_cases h1 : curr = 1
      · subst h1
        rw [if_neg (by decide), if_neg (by decide)]
      · rw [if_pos (by omega), ih fuel (by omega) (curr - 2) (by omega) (by omega) (fun u i hi => he u i (by omega))]
        have : (curr - 2) % 2 = curr % 2 := by omega
        rw [this]

/-- `periodize_1d` on a window of odd size that reaches the end of the buffer -/
theorem periodize1d_short (hW : WinOK W y0.shape) (hd : d < W.length) (hwin : W.getD d (0, 0) = (head, tail)) (hlt : head < tail) (hN : y0.shape.getD d 0 = tail)
    (hodd : (tail - head) % 2 = 1) (hh : 0 < head) {fuel : Nat} (hfuel : head ≤ fuel) :
    periodize1d fuel y0 (idxOf W) d =
      if head = 2 ∨ tail - head = 1 ∧ head % 2 = 0 then .ok (applyExt Spec.periodize head tail y0 W d 0 tail) else .error .runtime := by
  have hmod : ((tail : Int) - head).fmod 2 = (((tail - head) % 2 : Nat) : Int) := by
    rw [Int.fmod_eq_emod_of_nonneg _ (by omega)]; omega
  have hE : Spec.IsExt (Spec.periodize (α := α)) (tail - head) := Spec.periodize_isExt _
  have h0 := applyExt_init (y0 := y0) hE hd
  set e : (Nat → α) → Nat → α := fun u i => Spec.periodize (tail - head) (fun j => u (head + j)) ((i : Int) - head) with he
  have h0' : fill y0 W d e head tail = y0 := h0
  simp only [periodize1d, bounds_idxOf hd hwin, bind, Except.bind]
  rw [hmod, hodd, if_neg (by decide)]
  have e1 : ((tail : Int) - 1) = ((tail - 1 : Nat) : Int) := by omega
  have e2 : ((tail : Int) + 1) = ((tail + 1 : Nat) : Int) := by omega
  rw [e1, e2]
  have hget : y0.getSlice (modifyIdx (.between ((tail - 1 : Nat) : Int) tail) (idxOf W) d) = chunk y0 W d (fun u t => e u (tail - 1 + t)) 1 := by
    have := getSlice_fill (y0 := y0) (e := e) hW hd (lo := head) (hi := tail) (a := tail - 1) (b := tail) (by rw [hN]; exact resolve_between (by omega) (by omega)) (by omega) le_rfl
      (by omega)
    rw [h0', show tail - (tail - 1) = 1 by omega] at this
    exact this
  have hset := setSlice_fill_one (y0 := y0) (e := e) hW hd (lo := head) (hi := tail) (a := tail) (b := tail) (s := .between (tail : Int) ((tail + 1 : Nat) : Int))
    (by rw [hN]; exact resolve_clip le_rfl (by omega)) le_rfl (by omega) (g := fun u t => e u (tail - 1 + t)) (fun u t ht => by omega)
  rw [h0', show min head tail = head by omega, show max tail tail = tail by omega, h0'] at hset
  rw [hget, hset]
  simp only []
  have hidx : modifyIdx (.between (head : Int) ((tail + 1 : Nat) : Int)) (idxOf W) d = idxOf (W.set d (head, tail + 1)) := by
    simp [modifyIdx, idxOf, List.map_set]
  have hf : (fun s => modifyIdx s (idxOf (W.set d (head, tail + 1))) d) = fun s => modifyIdx s (idxOf W) d := by
    funext s
    simp [modifyIdx, idxOf, List.map_set]
  have hval : ∀ u (i : Nat), i < head → (head - i = 1 ∨ head - i = 2 ∨ tail - head = 1) → e u (tail - 1) = e u i := by
    intro u i hi hor
    have hp : ¬ (tail - head) % 2 = 0 := by omega
    simp only [he, Spec.periodize, hp, if_false, Spec.circular]
    have q1 : (((tail - 1 : Nat) : Int) - head) % ((tail - head + 1 : Nat) : Int) = ((tail - head - 1 : Nat) : Int) := by
      rw [Int.emod_eq_of_lt (by omega) (by omega)]
      omega
    rw [q1]
    simp only [Int.toNat_natCast]
    rw [if_pos (by omega)]
    rcases hor with h | h | h
    · have q2 : ((i : Int) - head) % ((tail - head + 1 : Nat) : Int) = ((tail - head : Nat) : Int) := by
        rw [← Int.add_emod_right, Int.emod_eq_of_lt (by omega) (by omega)]
        omega
      rw [q2]
      simp only [Int.toNat_natCast]
      rw [if_neg (by omega)]
    · have q2 : ((i : Int) - head) % ((tail - head + 1 : Nat) : Int) = ((tail - head - 1 : Nat) : Int) := by
        rw [← Int.add_emod_right, Int.emod_eq_of_lt (by omega) (by omega)]
        omega
      rw [q2]
      simp only [Int.toNat_natCast]
      rw [if_pos (by omega)]
    · rw [h]
      split_ifs with h3
      · congr 2
        omega
      · rfl
  have hcirc : circularBefore (fun s => modifyIdx s (idxOf W) d) ((tail + 1 : Nat) : Int) ((tail - head + 1 : Nat) : Int) fuel y0 (head : Int) =
      if head = 2 ∨ tail - head = 1 ∧ head % 2 = 0 then .ok (fill y0 W d e 0 tail) else .error .runtime := by
    by_cases hn1 : tail - head = 1
    · have := circularBefore_pairs (e := e) hW hd hN fuel head hfuel (by omega) (fun u i hi => hval u i hi (Or.inr (Or.inr hn1)))
      rw [h0'] at this
      rw [hn1, this]
      by_cases hh2 : head % 2 = 0
      · rw [if_pos hh2, if_pos (Or.inr ⟨rfl, hh2⟩)]
      · rw [if_neg hh2, if_neg (by omega)]
    · obtain ⟨fuel, rfl⟩ : ∃ k, fuel = k + 1 := ⟨fuel - 1, by omega⟩
      have := circularBefore_short (e := e) (fuel := fuel) (curr := head) (n := tail - head + 1) hW hd hN (by omega) hh (by omega)
        (fun hm u => ⟨hval u _ (by omega) (Or.inl (by omega)), hval u _ (by omega) (Or.inr (Or.inl (by omega)))⟩)
      rw [h0'] at this
      rw [this]
      by_cases hh2 : head = 2
      · subst hh2
        rw [if_pos (by omega), if_pos (Or.inl rfl)]
        exact circularBefore_zero _ _
      · rw [if_neg (by omega), if_neg (by omega)]
  rw [hidx]
  simp only [circular1d, bounds_idxOf (W := W.set d (head, tail + 1)) (by simpa using hd) (getD_set_self _ _ _ _ hd), bind, Except.bind, hf]
  have e3 : (((tail + 1 : Nat) : Int) - (head : Int)) = ((tail - head + 1 : Nat) : Int) := by omega
  rw [e3, if_neg (by omega), hcirc]
  split_ifs with h
  · simp only []
    have hend : ∀ (k : Nat) (y : Tensor α), y.shape.getD d 0 = tail → circularAfter (fun s => modifyIdx s (idxOf W) d) d (head : Int) ((tail - head + 1 : Nat) : Int) k y ((tail + 1 : Nat) : Int) = .ok y := by
      intro k y hy
      cases k <;> rw [circularAfter, if_neg (by rw [hy]; omega)]
    exact hend _ _ (by rw [shape_fill]; exact hN)
  · rfl

end

section
variable {α : Type} [Field α] [LinearOrder α] [IsStrictOrderedRing α] {p : Padder α} {x : Tensor α} {s : AxisPad α} {a : Nat} {i axis : Int}

/-- `pad_axis` with `periodize` on an axis of odd length -/
theorem padAxis_periodize (hr : Reads p i s) (ha : normAxis x.ndim axis = some a) (hmode : s.mode = .periodize) (hz : ¬ (s.before = 0 ∧ s.after = 0))
    (hodd : x.shape.getD a 0 % 2 = 1) (junk : List Nat → α) :
    p.padAxis junk x i axis = if 0 < s.after ∨ s.before = 2 ∨ x.shape.getD a 0 = 1 ∧ s.before % 2 = 0 then .ok (extendAxis Spec.periodize a s.before s.after x)
      else .error .runtime := by
  have hlt := normAxis_lt ha
  have hlt' : a < x.shape.length := hlt
  simp only [Padder.padAxis, normAxis_eq ha, hr.width, bind, Except.bind]
  have hax : Padder.axisNat x.ndim (a : Int) = .ok a := by
    rw [Padder.axisNat, if_pos (by omega)]; simp
  rw [if_neg (by omega), hax]
  simp only
  obtain ⟨n, hnn⟩ : ∃ n, x.shape.getD a 0 = n := ⟨_, rfl⟩
  rw [hnn] at hodd ⊢
  rw [if_neg (by omega)]
  have e1 : ((s.before : Int) + n + s.after).toNat = s.before + n + s.after := by omega
  have e2 : (s.before : Int) + n = ((s.before + n : Nat) : Int) := by omega
  rw [e1, e2]
  set L := s.before + n + s.after with hL
  set S := x.shape.set a L with hS
  have hSl : S.length = x.shape.length := by simp [hS]
  have hSa : S.getD a 0 = L := getD_set_self _ _ _ _ hlt'
  have hyS : (Tensor.empty junk S).shape = S := rfl
  have hsame := sameIdx_makeIdx (S := S) (d := a) (lo := s.before) (hi := s.before + n) (by omega) (by omega) (by rw [hSa]; omega)
  have hnd : x.ndim = S.length := by rw [hSl]; rfl
  set W := (S.map fun n => (0, n)).set a (s.before, s.before + n) with hWdef
  have hWlen : W.length = S.length := by simp [hWdef]
  have hW : WinOK W (Tensor.empty junk S).shape := by
    refine WinOK.set ?_ (by omega) (by rw [hyS, hSa]; omega)
    rw [WinOK, hyS, List.forall₂_map_left_iff]
    exact List.forall₂_same.2 (fun n _ => ⟨Nat.zero_le _, le_refl _⟩)
  have hwin : W.getD a (0, 0) = (s.before, s.before + n) := getD_set_self _ _ _ _ (by simp; omega)
  have hwl : wlen W = x.shape := wlen_axis hlt' hnn
  obtain ⟨y', hy1, hy2, hy3, _⟩ := restrict_setSlice hW hwl
  rw [hnd, show (Tensor.empty junk S).setSlice (makeIdx (.between (s.before : Int) ((s.before + n : Nat) : Int)) a S.length) x = _
    from setSlice_congr hsame.whole, hy1]
  simp only
  have hyW : WinOK W y'.shape := by rw [hy2]; exact hW
  have hya : y'.shape.getD a 0 = L := by rw [hy2, hyS, hSa]
  have hWa : a < W.length := by rw [hWlen]; omega
  have hrun : periodize1d L y' (idxOf W) a = if 0 < s.after ∨ s.before = 2 ∨ n = 1 ∧ s.before % 2 = 0 then
      .ok (applyExt Spec.periodize s.before (s.before + n) y' W a 0 L) else .error .runtime := by
    by_cases hafter : 0 < s.after
    · rw [if_pos (Or.inl hafter), periodize1d_spec hyW hWa hwin (by omega) (by rw [hya]; omega) (by rw [hya]; omega), hya]
    · rw [periodize1d_short hyW hWa hwin (by omega) (by rw [hya]; omega) (by omega) (by omega) (by omega), Nat.add_sub_cancel_left,
        show s.before + n = L by omega]
      by_cases hc : s.before = 2 ∨ n = 1 ∧ s.before % 2 = 0
      · rw [if_pos hc, if_pos (Or.inr hc)]
      · rw [if_neg hc, if_neg (by rintro (h | h); exact hafter h; exact hc h)]
  have hfv : (p.fillValue1d false y' i (a : Int) (some (idxOf W))).map Prod.fst = periodize1d L y' (idxOf W) a := by
    have hm := hr.mode
    rw [hmode] at hm
    have hax' : Padder.axisNat y'.ndim (a : Int) = .ok a := by
      rw [Padder.axisNat, if_pos]
      · simp
      · rw [Tensor.ndim, hy2, hyS]
        omega
    have hz' : ¬ (((s.before : Int), (s.after : Int)).1 = 0 ∧ ((s.before : Int), (s.after : Int)).2 = 0) := by
      simp only; omega
    simp only [Padder.fillValue1d, hr.width, bind, Except.bind, if_neg hz', hm, hax', Padder.runMode, hya, Padder.widen, bounds_idxOf hWa hwin]
    cases periodize1d L y' (idxOf W) a <;> rfl
  have hc := fillValue1d_congr (np := false) hsame (y := y') (p := p) (i := i) (s := s) (by rw [hy2, hyS]) hr (by intro f hf; rw [hmode] at hf; cases hf)
  rw [hfv, hrun] at hc
  cases hfw : p.fillValue1d false y' i (a : Int) (some (makeIdx (.between (s.before : Int) ((s.before + n : Nat) : Int)) a S.length)) with
  | error e =>
    rw [hfw] at hc
    split_ifs at hc ⊢ with h
    · cases hc
    · simp only [Except.map, Except.error.injEq] at hc
      simp only [hc]
  | ok r =>
    rw [hfw] at hc
    split_ifs at hc ⊢ with h
    · simp only [Except.map, Except.ok.injEq] at hc
      simp only [pure, Except.pure]
      rw [hc]
      congr 1
      have hra := restrict_applyExt (y := y') (W := W) (d := a) (E := Spec.periodize) (head := s.before) (tail := s.before + n) hyW hWa hwin (N := L) hya
        (by rw [Nat.add_sub_cancel_left]; exact periodize_local (by omega))
      have hfull : restrict (applyExt Spec.periodize s.before (s.before + n) y' W a 0 L) (W.set a (0, L)) = applyExt Spec.periodize s.before (s.before + n) y' W a 0 L := by
        have hsh : (applyExt Spec.periodize s.before (s.before + n) y' W a 0 L).shape = S := by
          rw [← hyS, ← hy2]; rfl
        apply restrict_full
        · intro k hk
          rw [hsh] at hk ⊢
          by_cases hka : k = a
          · subst hka
            rw [getD_set_self _ _ _ _ (by rw [hWlen]; exact hk), hSa]
          · rw [getD_set_ne _ _ _ _ _ hka, hWdef, getD_set_ne _ _ _ _ _ hka]
            simp [List.getD_eq_getElem?_getD, List.getElem?_map, List.getElem?_eq_getElem hk]
        · rw [hsh]; simp [hWlen]
      rw [hfull, hy3] at hra
      rw [hra]
      congr 1
      omega
    · cases hc

end

end TI
