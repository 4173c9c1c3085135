import Verif.Spec.PadNd
import Verif.Proofs.Pad1dC
import Verif.Proofs.Pad1dD

/-!
# n-d padding: the axes loop of `Padder.forward`
-/

namespace TI
open Tensor Spec

variable {α : Type}

/-- content of a window -/
def restrict [Zero α] (y : Tensor α) (W : List (Nat × Nat)) : Tensor α :=
  ofFn (wlen W) fun jx => y.get (shift W jx)

/-- a rule that only looks at the samples of the signal -/
def Spec.Local (E : Ext α) (n : Nat) : Prop :=
  ∀ u u' z, (∀ j, j < n → u j = u' j) → E n u z = E n u' z

section Local
variable {n : Nat}

theorem replicate_local (hn : 0 < n) : Local (Spec.replicate (α := α)) n := by
  intro u u' z h
  simp only [Spec.replicate]
  split_ifs with h1 h2
  · exact h _ hn
  · exact h _ (by omega)
  · exact h _ (by omega)

theorem circular_local (hn : 0 < n) : Local (Spec.circular (α := α)) n := by
  intro u u' z h
  have h1 := Int.emod_nonneg z (show (n : Int) ≠ 0 by omega)
  have h2 := Int.emod_lt_of_pos z (show (0 : Int) < n by omega)
  exact h _ (by omega)

theorem periodize_local (hn : 0 < n) : Local (Spec.periodize (α := α)) n := by
  intro u u' z h
  simp only [Spec.periodize]
  split_ifs with h1
  · exact circular_local hn _ _ _ h
  · apply circular_local (by omega)
    intro j hj
    split_ifs
    · exact h _ ‹_›
    · exact h _ (by omega)

theorem symmetric_local (hn : 0 < n) : Local (Spec.symmetric (α := α)) n := by
  intro u u' z h
  have h1 := Int.emod_nonneg z (show (2 * n : Int) ≠ 0 by omega)
  have h2 := Int.emod_lt_of_pos z (show (0 : Int) < 2 * n by omega)
  simp only [Spec.symmetric]
  split_ifs
  · exact h _ ‹_›
  · exact h _ (by omega)

theorem antisymmetric_local [Neg α] (hn : 0 < n) : Local (Spec.antisymmetric (α := α)) n := by
  intro u u' z h
  have h1 := Int.emod_nonneg z (show (2 * n : Int) ≠ 0 by omega)
  have h2 := Int.emod_lt_of_pos z (show (0 : Int) < 2 * n by omega)
  simp only [Spec.antisymmetric]
  split_ifs
  · exact h _ ‹_›
  · rw [h _ (by omega)]

theorem reflect_local (hn : 0 < n) : Local (Spec.reflect (α := α)) n := by
  intro u u' z h
  simp only [Spec.reflect]
  split_ifs
  · exact h _ hn
  · exact h _ ‹_›
  · exact h _ (by omega)

theorem oddSymmetric_local [Ring α] (hn : 0 < n) : Local (Spec.oddSymmetric (α := α)) n := by
  intro u u' z h
  have h1 := Int.emod_nonneg z (show (2 * n : Int) ≠ 0 by omega)
  have h2 := Int.emod_lt_of_pos z (show (0 : Int) < 2 * n by omega)
  simp only [Spec.oddSymmetric]
  rw [h 0 hn, h (n - 1) (by omega)]
  split_ifs
  · rw [h _ ‹_›]
  · rw [h (2 * n - 1 - (z % (2 * n)).toNat) (by omega)]

theorem oddReflect_local [Ring α] (hn : 0 < n) : Local (Spec.oddReflect (α := α)) n := by
  intro u u' z h
  simp only [Spec.oddReflect]
  rw [h 0 hn, h (n - 1) (by omega)]
  split_ifs
  · rfl
  · rw [h _ ‹_›]
  · rw [h (2 * (n - 1) - (z % (2 * (n - 1) : Nat)).toNat) (by omega)]

theorem smooth_local [Ring α] (hn : 0 < n) : Local (Spec.smooth (α := α)) n := by
  intro u u' z h
  simp only [Spec.smooth]
  split_ifs with h1
  · exact h 0 hn
  · rw [h 0 hn, h 1 (by omega)]
  · exact h _ (by omega)
  · rw [h (n - 1) (by omega), h (n - 2) (by omega)]

theorem constant_local (vb va : α) : Local (Spec.constant vb va) n := by
  intro u u' z h
  simp only [Spec.constant]
  split_ifs
  · rfl
  · exact h _ (by omega)
  · rfl

theorem linearRamp_local [Field α] (b a : Nat) (vb va : α) (hn : 0 < n) :
    Local (Spec.linearRamp b a vb va) n := by
  intro u u' z h
  simp only [Spec.linearRamp]
  split_ifs
  · rw [h 0 hn]
  · exact h _ (by omega)
  · rw [h (n - 1) (by omega)]

theorem window_le (w : Option Int) : Spec.window n w ≤ n := by
  cases w <;> simp [Spec.window]

theorem border_local (stat : List α → α) (wb wa : Option Int) (hn : 0 < n) :
    Local (Spec.border stat wb wa) n := by
  intro u u' z h
  have hb := window_le (n := n) wb
  have ha := window_le (n := n) wa
  simp only [Spec.border]
  split_ifs
  · congr 1
    apply List.map_congr_left
    intro j hj
    rw [List.mem_range] at hj
    exact h _ (by omega)
  · exact h _ (by omega)
  · congr 1
    apply List.map_congr_left
    intro j hj
    rw [List.mem_range] at hj
    exact h _ (by omega)

end Local

section Step
variable [Zero α] {y : Tensor α} {W : List (Nat × Nat)} {d head tail N : Nat}

/-- Filling the fibres of the window along `d` is extending the window content along `d`. -/
theorem restrict_applyExt {E : Ext α} (hW : WinOK W y.shape) (hd : d < W.length)
    (hwin : W.getD d (0, 0) = (head, tail)) (hN : y.shape.getD d 0 = N)
    (hloc : Local E (tail - head)) :
    restrict (applyExt E head tail y W d 0 N) (W.set d (0, N)) =
      extendAxis E d head (N - tail) (restrict y W) := by
  have hb := hW.get hd
  rw [hwin, hN] at hb
  simp only at hb
  have hwd : (wlen W).getD d 0 = tail - head := by rw [getD_wlen hd, hwin]
  simp only [restrict, extendAxis, shape_ofFn, hwd]
  have e : head + (tail - head) + (N - tail) = N := by omega
  rw [e, wlen_set, Nat.sub_zero]
  apply ofFn_congr
  intro jx hjx
  have hl : jx.length = W.length := by rw [hjx.length_eq, List.length_set, length_wlen]
  have hjd : jx.getD d 0 < N := by
    have := hjx.lt (k := d) (by simpa [length_wlen] using hd)
    rwa [getD_set_self _ _ _ _ (by simpa [length_wlen] using hd)] at this
  have hjx' : InB (wlen (W.set d (0, N))) jx := by rw [wlen_set, Nat.sub_zero]; exact hjx
  have hin := shift_inWin hjx'
  have hWset : WinOK (W.set d (0, N)) y.shape := hW.set (by omega) (by omega)
  rw [applyExt, fill, get_ofFn (inWin_inB hWset hin), if_pos hin, shift_set hl hd,
    getD_set_self _ _ _ _ (by rw [length_shift hl]; exact hd)]
  simp only [Nat.zero_add, List.set_set]
  apply hloc
  intro j hj
  have hin2 : InB (wlen W) (jx.set d j) := by
    have h2 := hjx.set (i := j) (m := tail - head) hj
    rw [← hwd, set_getD_self] at h2
    exact h2
  rw [get_ofFn hin2]
  congr 1
  apply list_ext_getD
  · rw [List.length_set, length_shift hl, length_shift (by simpa using hl)]
  intro k hk
  rw [List.length_set, length_shift hl] at hk
  rw [getD_set _ _ _ _ _ (by rw [length_shift hl]; exact hd), getD_shift hl hk,
    getD_shift (by simpa using hl) hk, getD_set _ _ _ _ _ (by rw [hl]; exact hd)]
  split_ifs with hkd
  · subst hkd; rw [hwin]
  · rfl

theorem restrict_full (h : ∀ k, k < y.shape.length → W.getD k (0, 0) = (0, y.shape.getD k 0))
    (hl : W.length = y.shape.length) : restrict y W = y := by
  have hs : wlen W = y.shape := by
    apply list_ext_getD (by rw [length_wlen, hl])
    intro k hk
    rw [length_wlen] at hk
    rw [getD_wlen hk, h k (by omega)]
    rfl
  refine ext_get hs ?_
  intro ix hix
  rw [restrict] at hix ⊢
  rw [shape_ofFn] at hix
  rw [get_ofFn hix]
  congr 1
  have hlx : ix.length = W.length := by rw [hix.length_eq, length_wlen]
  apply list_ext_getD (by rw [length_shift hlx, hlx])
  intro k hk
  rw [length_shift hlx] at hk
  rw [getD_shift hlx hk, h k (by omega)]
  simp

/-- writing `x` into a window of any buffer and reading the window back -/
theorem restrict_setSlice {x : Tensor α} (hW : WinOK W y.shape) (hs : wlen W = x.shape) :
    ∃ y', y.setSlice (idxOf W) x = .ok y' ∧ y'.shape = y.shape ∧ restrict y' W = x ∧
      ∀ ix, InB y.shape ix → ¬ InWin W ix → y'.get ix = y.get ix := by
  have hr := resolveAll_idxOf hW
  refine ⟨_, setSlice_win hr (by rw [hs]; exact bcastable_self _), rfl, ?_,
    fun ix hix hw => by rw [get_ofFn hix, if_neg hw]⟩
  refine ext_get (by rw [restrict, shape_ofFn, hs]) ?_
  intro ix hix
  rw [restrict] at hix ⊢
  rw [shape_ofFn] at hix
  have hin := shift_inWin hix
  rw [get_ofFn hix, get_ofFn (inWin_inB hW hin), if_pos hin,
    unshift_shift (by rw [hix.length_eq, length_wlen]), bidx_self (by rw [← hs]; exact hix)]

end Step

section Main
set_option linter.unusedSectionVars false
variable [Field α] [LinearOrder α] [IsStrictOrderedRing α]

omit [IsStrictOrderedRing α] in
theorem statVal_eq (s : Stat) (l : List α) (h : l ≠ []) : Spec.statVal s l = Stat.val s l := by
  cases l with
  | nil => exact absurd rfl h
  | cons a l => cases s <;> simp [Spec.statVal, Stat.val, Stat.eval]

/-- modes for which `Padder` writes values -/
def Mode.valued : Mode α → Bool
  | .zeros | .empty | .unknown | .custom _ => false
  | _ => true

theorem runMode_spec {p : Padder α} {np : Bool} {i : Int} {s : AxisPad α} (hr : Reads p i s) {y : Tensor α}
    {W : List (Nat × Nat)} {d head tail : Nat} (hv : s.mode.valued = true)
    (hW : WinOK W y.shape) (hd : d < W.length) (hwin : W.getD d (0, 0) = (head, tail))
    (hlt : head < tail) (hb : head = s.before)
    (hN : y.shape.getD d 0 = tail + s.after + (if s.mode.isPeriodize then (tail - head) % 2 else 0)) :
    ∃ E, s.rule? = some E ∧ Local E (tail - head) ∧
      p.runMode np i s.mode y (idxOf W) d = .ok (applyExt E head tail y W d 0 (y.shape.getD d 0)) := by
  have hn : 0 < tail - head := by omega
  have hfu : max head (y.shape.getD d 0 - tail) ≤ y.shape.getD d 0 := by
    have h := hW.get hd
    rw [hwin] at h
    simp only at h
    omega
  obtain ⟨b, a, m, cv, ev, sl⟩ := s
  have h3 := hr.cv
  have h4 := hr.ev
  have h5 := hr.sl
  simp only at h3 h4 h5 hv hb hN
  cases m <;> simp only [Mode.valued, Bool.false_eq_true] at hv <;> simp only [Padder.runMode, AxisPad.rule?]
  case replicate => exact ⟨_, rfl, replicate_local hn, replicate1d_spec hW hd hwin hlt⟩
  case smooth => exact ⟨_, rfl, smooth_local hn, smooth1d_spec hW hd hwin hlt⟩
  case circular => exact ⟨_, rfl, circular_local hn, circular1d_spec hW hd hwin hlt hfu⟩
  case periodize =>
    refine ⟨_, rfl, periodize_local hn, periodize1d_spec hW hd hwin hlt ?_ hfu⟩
    rw [hN]; simp [Mode.isPeriodize]
  case symmetric => exact ⟨_, rfl, symmetric_local hn, symmetric1d_spec hW hd hwin hlt hfu⟩
  case reflect => exact ⟨_, rfl, reflect_local hn, reflect1d_spec hW hd hwin hlt hfu⟩
  case antisymmetric =>
    exact ⟨_, rfl, antisymmetric_local hn, antisymmetric1d_spec hW hd hwin hlt hfu⟩
  case oddReflect => exact ⟨_, rfl, oddReflect_local hn, oddReflect1d_spec hW hd hwin hlt hfu⟩
  case oddSymmetric =>
    exact ⟨_, rfl, oddSymmetric_local hn, oddSymmetric1d_spec hW hd hwin hlt hfu⟩
  case stat st =>
    refine ⟨_, rfl, border_local _ _ _ hn, ?_⟩
    rw [h5]
    simp only [bind, Except.bind]
    rw [stat1d_spec st sl.1 sl.2 hW hd hwin hlt]
    congr 1
    have hw : ∀ w : Option Int, 0 < Spec.window (tail - head) w := by
      intro w; cases w <;> simp [Spec.window] <;> omega
    have : Spec.border (α := α) (statVal st) sl.1 sl.2 (tail - head) =
        Spec.border (Stat.val (α := α) st) sl.1 sl.2 (tail - head) := by
      funext u z
      simp only [Spec.border]
      rw [statVal_eq, statVal_eq]
      · have := hw sl.2; intro hc; simp at hc; omega
      · have := hw sl.1; intro hc; simp at hc; omega
    simp only [applyExt, this]
  case constant =>
    refine ⟨_, rfl, constant_local _ _, ?_⟩
    rw [h3]
    exact constant1d_spec _ _ hW hd hwin
  case linearRamp =>
    refine ⟨_, rfl, linearRamp_local _ _ _ _ hn, ?_⟩
    rw [h4]
    simp only [bind, Except.bind]
    rw [linearRamp1d_spec _ _ hW hd hwin hlt]
    have : y.shape.getD d 0 - tail = a := by rw [hN]; simp [Mode.isPeriodize]
    rw [this, hb]

theorem isExt_of_valued {s : AxisPad α} {E : Ext α} (h : s.rule? = some E) (n : Nat) : IsExt E n := by
  obtain ⟨b, a, m, cv, ev, sl⟩ := s
  cases m <;> simp only [AxisPad.rule?, Option.some.injEq, reduceCtorEq] at h <;> subst h
  · exact replicate_isExt n
  · exact smooth_isExt n
  · exact circular_isExt n
  · exact periodize_isExt n
  · exact symmetric_isExt n
  · exact reflect_isExt n
  · exact antisymmetric_isExt n
  · exact oddReflect_isExt n
  · exact oddSymmetric_isExt n
  · exact border_isExt _ _ _ n
  · exact constant_isExt _ _ n
  · exact constant_isExt _ _ n
  · exact linearRamp_isExt _ _ _ _ n

theorem fillValue1d_zero {p : Padder α} {np : Bool} {i : Int} {s : AxisPad α} (hr : Reads p i s)
    (hz : s.before = 0 ∧ s.after = 0) (y : Tensor α) (a : Int) (idx : Option (List PySlice)) :
    p.fillValue1d np y i a idx = .ok (y, idx) := by
  have h1 := hr.width
  rw [hz.1, hz.2] at h1
  simp [Padder.fillValue1d, h1, bind, Except.bind, pure, Except.pure]

theorem widen_spec {m : Mode α} {b a : Nat} {W : List (Nat × Nat)} {d head tail N : Nat}
    (hd : d < W.length) (hwin : W.getD d (0, 0) = (head, tail)) (hb : head = b) (hht : head ≤ tail)
    (hN : N = tail + a + (if m.isPeriodize then (tail - head) % 2 else 0)) :
    Padder.widen m ((b : Int), (a : Int)) (idxOf W) d = .ok (idxOf (W.set d (0, N))) := by
  simp only [Padder.widen, bounds_idxOf hd hwin, bind, Except.bind]
  congr 1
  have e1 : (head : Int) - b = ((0 : Nat) : Int) := by omega
  have e2 : (tail : Int) + a + (if m.isPeriodize then ((tail : Int) - head).fmod 2 else 0) = (N : Int) := by
    rw [hN]
    split_ifs
    · rw [Int.fmod_eq_emod_of_nonneg _ (by omega)]
      omega
    · omega
  rw [e1, e2, modifyIdx, idxOf, idxOf, List.map_set]

theorem fillValue1d_spec {p : Padder α} {np : Bool} {i : Int} {s : AxisPad α} (hr : Reads p i s) {y : Tensor α}
    {W : List (Nat × Nat)} {d head tail : Nat} (hv : s.mode.valued = true)
    (hnz : ¬ (s.before = 0 ∧ s.after = 0))
    (hW : WinOK W y.shape) (hd : d < W.length) (hwin : W.getD d (0, 0) = (head, tail))
    (hlt : head < tail) (hb : head = s.before)
    (hN : y.shape.getD d 0 = tail + s.after + (if s.mode.isPeriodize then (tail - head) % 2 else 0)) :
    ∃ E, s.rule? = some E ∧ Local E (tail - head) ∧
      p.fillValue1d np y i (d : Int) (some (idxOf W)) =
        .ok (applyExt E head tail y W d 0 (y.shape.getD d 0),
          some (idxOf (W.set d (0, y.shape.getD d 0)))) := by
  obtain ⟨E, h1, h2, h3⟩ := runMode_spec (np := np) hr hv hW hd hwin hlt hb hN
  refine ⟨E, h1, h2, ?_⟩
  have hw := widen_spec (m := s.mode) (b := s.before) (a := s.after) (N := y.shape.getD d 0) hd hwin hb
    (by omega) hN
  have hax : Padder.axisNat y.ndim (d : Int) = .ok d := by
    rw [Padder.axisNat, if_pos]
    · simp
    · have := hW.length_eq
      simp only [Tensor.ndim]
      omega
  have hz : ¬ (((s.before : Int), (s.after : Int)).1 = 0 ∧ ((s.before : Int), (s.after : Int)).2 = 0) := by
    simp only; omega
  have hm := hr.mode
  simp only [Padder.fillValue1d, hr.width, bind, Except.bind, if_neg hz, hm]
  generalize hmm : s.mode = m at *
  cases m <;> simp only [Mode.valued, Bool.false_eq_true] at hv <;>
    simp only [hax, h3, hw, pure, Except.pure]

/-- The loop of `forward` over the padded axes performs the sequential padding on the window. -/
theorem fillLoop_spec (p : Padder α) (axes : List Int) :
    ∀ (ops : List (Nat × AxisPad α)) (is : List Int) (y : Tensor α) (W : List (Nat × Nat)),
    List.Forall₂ (fun i (o : Nat × AxisPad α) => pyIndex axes i = .ok (o.1 : Int) ∧ Reads p i o.2) is ops →
    WinOK W y.shape → (ops.map Prod.fst).Nodup →
    (∀ o ∈ ops, o.1 < W.length ∧
      (¬ (o.2.before = 0 ∧ o.2.after = 0) → o.2.mode.valued = true ∧
        (W.getD o.1 (0, 0)).1 < (W.getD o.1 (0, 0)).2) ∧
      (W.getD o.1 (0, 0)).1 = o.2.before ∧
      y.shape.getD o.1 0 = (W.getD o.1 (0, 0)).2 +
        o.2.total ((W.getD o.1 (0, 0)).2 - (W.getD o.1 (0, 0)).1)) →
    (∀ k, k < W.length → k ∉ ops.map Prod.fst → W.getD k (0, 0) = (0, y.shape.getD k 0)) →
    p.fillLoop axes is y (some (idxOf W)) = .ok (padSeq (restrict y W) ops) := by
  intro ops
  induction ops with
  | nil =>
    intro is y W hf hW _ _ hfull
    cases hf
    rw [Padder.fillLoop, padSeq, List.foldl_nil,
      restrict_full (fun k hk => hfull k (by rw [hW.length_eq]; exact hk) (by simp)) hW.length_eq]
  | cons o ops ih =>
    intro is y W hf hW hnd hops hfull
    cases hf with
    | @cons i _ is _ h1 hf =>
    obtain ⟨hd, hval, hbef, htot⟩ := hops o (by simp)
    have hnotin : o.1 ∉ ops.map Prod.fst := by
      rw [List.map_cons, List.nodup_cons] at hnd; exact hnd.1
    have hnd' : (ops.map Prod.fst).Nodup := by
      rw [List.map_cons, List.nodup_cons] at hnd; exact hnd.2
    simp only [Padder.fillLoop, h1.1, bind, Except.bind]
    by_cases hz : o.2.before = 0 ∧ o.2.after = 0
    · rw [fillValue1d_zero h1.2 hz]
      simp only
      rw [padSeq, List.foldl_cons, ← padSeq]
      rw [show padStep (restrict y W) o = restrict y W by rw [padStep, if_pos hz]]
      refine ih is y W hf hW hnd' (fun o' ho' => hops o' (by simp [ho'])) ?_
      intro k hk hkn
      by_cases hko : k = o.1
      · subst hko
        rw [AxisPad.total, if_pos hz] at htot
        rw [htot, Nat.add_zero]
        exact Prod.ext (by rw [hbef, hz.1]) rfl
      · exact hfull k hk (by simp only [List.map_cons, List.mem_cons, not_or]; exact ⟨hko, hkn⟩)
    · obtain ⟨hv, hlt⟩ := hval hz
      obtain ⟨head, tail, hwin⟩ : ∃ head tail, W.getD o.1 (0, 0) = (head, tail) := ⟨_, _, rfl⟩
      rw [hwin] at hlt hbef htot
      simp only at hlt hbef htot
      rw [AxisPad.total, if_neg hz] at htot
      obtain ⟨E, hE, hloc, hfill⟩ := fillValue1d_spec (np := true) h1.2 hv hz hW hd hwin hlt hbef (by rw [htot]; omega)
      rw [hfill]
      simp only
      have hWset : WinOK (W.set o.1 (0, y.shape.getD o.1 0)) y.shape := hW.set (by omega) (by omega)
      rw [ih is (applyExt E head tail y W o.1 0 (y.shape.getD o.1 0)) _ hf hWset hnd' ?_ ?_]
      · rw [restrict_applyExt hW hd hwin rfl hloc, padSeq, padSeq, List.foldl_cons]
        congr 2
        rw [padStep, if_neg hz, hE]
        simp only
        rw [hbef]
        congr 1
        have hwd : (restrict y W).shape.getD o.1 0 = tail - head := by
          rw [restrict, shape_ofFn, getD_wlen hd, hwin]
        rw [hwd, AxisPad.total, if_neg hz, htot]
        omega
      · intro o' ho'
        have hne : o'.1 ≠ o.1 := by
          intro hc
          exact hnotin (by rw [← hc]; exact List.mem_map_of_mem ho')
        have := hops o' (by simp [ho'])
        rw [List.length_set, getD_set_ne _ _ _ _ _ hne]
        exact this
      · intro k hk hkn
        rw [List.length_set] at hk
        rw [getD_set _ _ _ _ _ hd]
        split_ifs with hko
        · subst hko; rfl
        · exact hfull k hk (by simp only [List.map_cons, List.mem_cons, not_or]; exact ⟨hko, hkn⟩)

end Main

section Acc

/-- the widths accumulated per tensor axis -/
def accN (shape : List Nat) : List (Nat × AxisPad α) → List Nat × List Nat → List Nat × List Nat
  | [], v => v
  | o :: ops, v => accN shape ops
      (v.1.set o.1 (v.1.getD o.1 0 + o.2.before), v.2.set o.1 (v.2.getD o.1 0 + o.2.total (shape.getD o.1 0)))

def castV (v : List Nat) : List Int := v.map fun (n : Nat) => (n : Int)

theorem vecAdd_cast (v : List Nat) (a k : Nat) :
    Padder.vecAdd (castV v) a (k : Int) = castV (v.set a (v.getD a 0 + k)) := by
  rw [Padder.vecAdd, castV, castV, List.map_set]
  congr 1
  simp only [List.getD_eq_getElem?_getD, List.getElem?_map]
  cases v[a]? <;> simp

theorem accStep_spec {p : Padder α} {shape : List Nat} {axes : List Int} {i : Int}
    {o : Nat × AxisPad α} (h1 : pyIndex axes i = .ok (o.1 : Int)) (hr : Reads p i o.2)
    (hd : o.1 < shape.length) (v : List Nat × List Nat) :
    p.accStep shape axes i (castV v.1, castV v.2) =
      .ok (castV (v.1.set o.1 (v.1.getD o.1 0 + o.2.before)),
        castV (v.2.set o.1 (v.2.getD o.1 0 + o.2.total (shape.getD o.1 0)))) := by
  simp only [Padder.accStep, hr.width, bind, Except.bind]
  by_cases hz : o.2.before = 0 ∧ o.2.after = 0
  · rw [if_pos (by omega), AxisPad.total, if_pos hz, hz.1]
    simp only [Nat.add_zero, set_getD_self]
    rfl
  · rw [if_neg (by omega)]
    have hax : Padder.axisNat shape.length (o.1 : Int) = .ok o.1 := by
      rw [Padder.axisNat, if_pos (by omega)]; simp
    simp only [h1, hax, hr.mode, pure, Except.pure]
    rw [AxisPad.total, if_neg hz, vecAdd_cast, vecAdd_cast]
    congr 2
    split_ifs with hp
    · have e : ((shape.getD o.1 0 : Nat) : Int).fmod 2 = ((shape.getD o.1 0 % 2 : Nat) : Int) := by
        rw [Int.fmod_eq_emod_of_nonneg _ (by omega)]; omega
      rw [e, vecAdd_cast]
      congr 1
      by_cases hl : o.1 < v.2.length
      · rw [getD_set_self _ _ _ _ hl, List.set_set]
        congr 1; omega
      · simp only [List.set_eq_of_length_le (Nat.le_of_not_lt hl)]
    · simp

theorem accLoop_spec {p : Padder α} {shape : List Nat} {axes : List Int} :
    ∀ (ops : List (Nat × AxisPad α)) (is : List Int) (v : List Nat × List Nat),
    List.Forall₂ (fun i (o : Nat × AxisPad α) => pyIndex axes i = .ok (o.1 : Int) ∧ Reads p i o.2) is ops →
    (∀ o ∈ ops, o.1 < shape.length) →
    p.accLoop shape axes is (castV v.1, castV v.2) =
      .ok (castV (accN shape ops v).1, castV (accN shape ops v).2) := by
  intro ops
  induction ops with
  | nil => intro is v hf _; cases hf; rfl
  | cons o ops ih =>
    intro is v hf hd
    cases hf with
    | @cons i _ is _ h1 hf =>
    simp only [Padder.accLoop, accStep_spec h1.1 h1.2 (hd o (by simp)), bind, Except.bind]
    rw [ih is (_, _) hf (fun o' ho' => hd o' (by simp [ho']))]
    rfl

theorem accN_length (shape : List Nat) : ∀ (ops : List (Nat × AxisPad α)) (v : List Nat × List Nat),
    (accN shape ops v).1.length = v.1.length ∧ (accN shape ops v).2.length = v.2.length := by
  intro ops
  induction ops with
  | nil => intro v; exact ⟨rfl, rfl⟩
  | cons o ops ih =>
    intro v
    have := ih (v.1.set o.1 (v.1.getD o.1 0 + o.2.before),
      v.2.set o.1 (v.2.getD o.1 0 + o.2.total (shape.getD o.1 0)))
    simpa [accN] using this

theorem accN_notin (shape : List Nat) : ∀ (ops : List (Nat × AxisPad α)) (v : List Nat × List Nat) (k : Nat),
    k ∉ ops.map Prod.fst → (accN shape ops v).1.getD k 0 = v.1.getD k 0 ∧
      (accN shape ops v).2.getD k 0 = v.2.getD k 0 := by
  intro ops
  induction ops with
  | nil => intro v k _; exact ⟨rfl, rfl⟩
  | cons o ops ih =>
    intro v k hk
    simp only [List.map_cons, List.mem_cons, not_or] at hk
    have := ih (v.1.set o.1 (v.1.getD o.1 0 + o.2.before),
      v.2.set o.1 (v.2.getD o.1 0 + o.2.total (shape.getD o.1 0))) k hk.2
    rw [accN, this.1, this.2]
    exact ⟨getD_set_ne _ _ _ _ _ hk.1, getD_set_ne _ _ _ _ _ hk.1⟩

theorem accN_mem (shape : List Nat) : ∀ (ops : List (Nat × AxisPad α)) (v : List Nat × List Nat),
    (ops.map Prod.fst).Nodup → (∀ o ∈ ops, o.1 < v.1.length ∧ o.1 < v.2.length) → ∀ o ∈ ops,
    (accN shape ops v).1.getD o.1 0 = v.1.getD o.1 0 + o.2.before ∧
      (accN shape ops v).2.getD o.1 0 = v.2.getD o.1 0 + o.2.total (shape.getD o.1 0) := by
  intro ops
  induction ops with
  | nil => intro v _ _ o ho; cases ho
  | cons q ops ih =>
    intro v hnd hlt o ho
    rw [List.map_cons, List.nodup_cons] at hnd
    rw [accN]
    rcases List.mem_cons.1 ho with rfl | ho
    · have := accN_notin shape ops (v.1.set o.1 (v.1.getD o.1 0 + o.2.before),
        v.2.set o.1 (v.2.getD o.1 0 + o.2.total (shape.getD o.1 0))) o.1 hnd.1
      have h2 := hlt o (by simp)
      rw [this.1, this.2]
      exact ⟨getD_set_self _ _ _ _ h2.1, getD_set_self _ _ _ _ h2.2⟩
    · have hne : o.1 ≠ q.1 := by
        intro hc; exact hnd.1 (by rw [← hc]; exact List.mem_map_of_mem ho)
      have := ih (v.1.set q.1 (v.1.getD q.1 0 + q.2.before),
        v.2.set q.1 (v.2.getD q.1 0 + q.2.total (shape.getD q.1 0))) hnd.2
        (fun o' ho' => by simpa using hlt o' (by simp [ho'])) o ho
      rw [this.1, this.2]
      exact ⟨by rw [getD_set_ne _ _ _ _ _ hne], by rw [getD_set_ne _ _ _ _ _ hne]⟩

end Acc

section Forward
set_option linter.unusedSectionVars false
variable [Field α] [LinearOrder α] [IsStrictOrderedRing α]

theorem padSeq_zero (x : Tensor α) (ops : List (Nat × AxisPad α))
    (h : ∀ o ∈ ops, o.2.before = 0 ∧ o.2.after = 0) : padSeq x ops = x := by
  induction ops with
  | nil => rfl
  | cons o ops ih =>
    rw [padSeq, List.foldl_cons, padStep, if_pos (h o (by simp)), ← padSeq]
    exact ih (fun o' ho' => h o' (by simp [ho']))

/-- initial windows -/
def win0 (B shape : List Nat) : List (Nat × Nat) := List.zipWith (fun b n => (b, b + n)) B shape

theorem length_win0 {B shape : List Nat} (h : B.length = shape.length) :
    (win0 B shape).length = shape.length := by simp [win0, h]

theorem getD_win0 {B shape : List Nat} (h : B.length = shape.length) {k : Nat} (hk : k < shape.length) :
    (win0 B shape).getD k (0, 0) = (B.getD k 0, B.getD k 0 + shape.getD k 0) := by
  have h2 : k < B.length := by omega
  simp [win0, List.getD_eq_getElem?_getD, List.getElem?_zipWith, List.getElem?_eq_getElem hk,
    List.getElem?_eq_getElem h2]

theorem wlen_win0 {B shape : List Nat} (h : B.length = shape.length) : wlen (win0 B shape) = shape := by
  apply list_ext_getD (by rw [length_wlen, length_win0 h])
  intro k hk
  rw [length_wlen] at hk
  rw [length_win0 h] at hk
  rw [getD_wlen (by rw [length_win0 h]; exact hk), getD_win0 h hk]
  simp

/-- final shape -/
def newShape (B shape A : List Nat) : List Nat := List.zipWith (fun w a => w + a) (List.zipWith (· + ·) B shape) A

theorem length_newShape {B shape A : List Nat} (h : B.length = shape.length) (h' : A.length = shape.length) :
    (newShape B shape A).length = shape.length := by simp [newShape, h, h']

theorem getD_newShape {B shape A : List Nat} (h : B.length = shape.length) (h' : A.length = shape.length)
    {k : Nat} (hk : k < shape.length) :
    (newShape B shape A).getD k 0 = B.getD k 0 + shape.getD k 0 + A.getD k 0 := by
  have h2 : k < B.length := by omega
  have h3 : k < A.length := by omega
  simp [newShape, List.getD_eq_getElem?_getD, List.getElem?_zipWith, List.getElem?_eq_getElem hk,
    List.getElem?_eq_getElem h2, List.getElem?_eq_getElem h3]

theorem tailV_eq (B shape : List Nat) :
    List.zipWith (fun (h : Int) (n : Nat) => h + (n : Int)) (castV B) shape =
      castV (List.zipWith (· + ·) B shape) := by
  induction B generalizing shape with
  | nil => rfl
  | cons b B ih => cases shape with
    | nil => rfl
    | cons n shape => simp only [castV, List.map_cons, List.zipWith_cons_cons] at ih ⊢; rw [ih]; simp

theorem zipAdd_cast (T A : List Nat) :
    List.zipWith (fun (t a : Int) => t + a) (castV T) (castV A) = castV (List.zipWith (fun w a => w + a) T A) := by
  induction T generalizing A with
  | nil => rfl
  | cons b B ih => cases A with
    | nil => rfl
    | cons n shape => simp only [castV, List.map_cons, List.zipWith_cons_cons] at ih ⊢; rw [ih]; simp

theorem idx_eq (B shape : List Nat) :
    List.zipWith PySlice.between (castV B) (castV (List.zipWith (· + ·) B shape)) = idxOf (win0 B shape) := by
  induction B generalizing shape with
  | nil => rfl
  | cons b B ih => cases shape with
    | nil => rfl
    | cons n shape =>
      simp only [castV, win0, idxOf, List.map_cons, List.zipWith_cons_cons] at ih ⊢
      rw [ih]

theorem castV_inj {v w : List Nat} (h : castV v = castV w) : v = w := by
  induction v generalizing w with
  | nil => cases w with
    | nil => rfl
    | cons => simp [castV] at h
  | cons a v ih => cases w with
    | nil => simp [castV] at h
    | cons b w =>
      simp only [castV, List.map_cons, List.cons.injEq] at h ih
      rw [ih h.2, show a = b by omega]

theorem castV_any_neg (v : List Nat) : (castV v).any (· < 0) = false := by
  simp [castV]

theorem castV_toNat (v : List Nat) : (castV v).map Int.toNat = v := by
  rw [castV, List.map_map]
  exact (List.map_congr_left (fun a _ => by simp)).trans (List.map_id v)

theorem castV_zero (shape : List Nat) : (shape.map fun _ => (0 : Int)) = castV (shape.map fun _ => 0) := by
  simp [castV]

/-- `forward` up to the point where padded values are written: either nothing is to be padded, or `x` has
been copied into a buffer that is otherwise `junk`. -/
theorem forward_prefix (p : Padder α) (junk : List Nat → α) (x : Tensor α) (ax : Axes) (axes : List Int)
    (ops : List (Nat × AxisPad α)) (hx : x.ndim ≠ 0) (hax : checkAxes x.ndim ax = .ok axes)
    (hne : axes ≠ [])
    (hf : List.Forall₂ (fun i (o : Nat × AxisPad α) => pyIndex axes i = .ok (o.1 : Int) ∧ Reads p i o.2)
      (Padder.negRange (p.nPadded axes)) ops)
    (hnd : (ops.map Prod.fst).Nodup) (hlt : ∀ o ∈ ops, o.1 < x.ndim) :
    (p.forward junk x ax = .ok x ∧ ∀ o ∈ ops, o.2.before = 0 ∧ o.2.after = 0) ∨
    ∃ y' W, p.forward junk x ax = p.fillLoop axes (Padder.negRange (p.nPadded axes)) y' (some (idxOf W)) ∧
      WinOK W y'.shape ∧ restrict y' W = x ∧
      (∀ o ∈ ops, W.getD o.1 (0, 0) = (o.2.before, o.2.before + x.shape.getD o.1 0) ∧
        y'.shape.getD o.1 0 = o.2.before + x.shape.getD o.1 0 + o.2.total (x.shape.getD o.1 0)) ∧
      (∀ k, k < x.shape.length → k ∉ ops.map Prod.fst →
        W.getD k (0, 0) = (0, x.shape.getD k 0) ∧ y'.shape.getD k 0 = x.shape.getD k 0) ∧
      (∀ ix, InB y'.shape ix → ¬ InWin W ix → y'.get ix = junk ix) := by
  obtain ⟨B, A, hBA⟩ : ∃ B A, accN x.shape ops (x.shape.map fun _ => 0, x.shape.map fun _ => 0) = (B, A) :=
    ⟨_, _, rfl⟩
  have hacc := accLoop_spec (p := p) (shape := x.shape) (axes := axes) ops _
    (x.shape.map fun _ => 0, x.shape.map fun _ => 0) hf hlt
  have hlen := accN_length x.shape ops (x.shape.map fun _ => 0, x.shape.map fun _ => 0)
  have hmem := accN_mem x.shape ops (x.shape.map fun _ => 0, x.shape.map fun _ => 0) hnd
    (fun o ho => by have := hlt o ho; simp only [Tensor.ndim] at this; simpa using this)
  have hnot := accN_notin x.shape ops (x.shape.map fun _ => 0, x.shape.map fun _ => 0)
  have hz : ∀ k, (x.shape.map fun _ => 0).getD k 0 = 0 := by
    intro k
    simp only [List.getD_eq_getElem?_getD, List.getElem?_map]
    cases x.shape[k]? <;> rfl
  rw [hBA] at hacc hlen hmem hnot
  simp only [hz, Nat.zero_add, List.length_map] at hacc hlen hmem hnot
  simp only [Padder.forward, if_neg hx, hax, if_neg hne, bind, Except.bind, pure, Except.pure, castV_zero,
    hacc, tailV_eq, zipAdd_cast, idx_eq]
  rw [← newShape]
  split_ifs with h1 h2
  · -- nothing to pad
    left
    have h1 := castV_inj (w := x.shape) h1
    refine ⟨rfl, ?_⟩
    intro o ho
    have hk := hlt o ho
    simp only [Tensor.ndim] at hk
    have h3 := getD_newShape hlen.1 hlen.2 hk
    rw [h1, (hmem o ho).1, (hmem o ho).2] at h3
    by_contra hc
    rw [AxisPad.total, if_neg hc] at h3
    omega
  · rw [castV_any_neg] at h2; exact absurd h2 (by simp)
  · rw [castV_toNat]
    have hWlen := length_win0 (B := B) (shape := x.shape) hlen.1
    have hW : WinOK (win0 B x.shape) (Tensor.empty junk (newShape B x.shape A)).shape := by
      rw [WinOK, List.forall₂_iff_get]
      refine ⟨by rw [hWlen]; exact (length_newShape hlen.1 hlen.2).symm, ?_⟩
      intro k hk1 hk2
      have hk : k < x.shape.length := by rw [← hWlen]; exact hk1
      have e1 : (win0 B x.shape).get ⟨k, hk1⟩ = (win0 B x.shape).getD k (0, 0) := by
        simp [List.getD_eq_getElem?_getD, List.getElem?_eq_getElem hk1]
      have e2 : (Tensor.empty junk (newShape B x.shape A)).shape.get ⟨k, hk2⟩ =
          (newShape B x.shape A).getD k 0 := by
        have hk2' : k < (newShape B x.shape A).length := hk2
        simp [Tensor.empty, List.getD_eq_getElem?_getD, List.getElem?_eq_getElem hk2']
      rw [e1, e2, getD_win0 hlen.1 hk, getD_newShape hlen.1 hlen.2 hk]
      simp only
      omega
    right
    have hE : (Tensor.empty junk (newShape B x.shape A)).shape = newShape B x.shape A := rfl
    obtain ⟨y', hy1, hy2, hy3, hy4⟩ := restrict_setSlice hW (wlen_win0 hlen.1)
    rw [hy1]
    refine ⟨y', win0 B x.shape, rfl, by rw [hy2]; exact hW, hy3, ?_, ?_, ?_⟩
    · intro o ho
      have hk := hlt o ho
      simp only [Tensor.ndim] at hk
      rw [getD_win0 hlen.1 hk, hy2, hE, getD_newShape hlen.1 hlen.2 hk, (hmem o ho).1, (hmem o ho).2]
      exact ⟨rfl, rfl⟩
    · intro k hk hkn
      have hn := hnot k hkn
      rw [hy2, hE, getD_win0 hlen.1 hk, getD_newShape hlen.1 hlen.2 hk, hn.1, hn.2]
      simp
    · intro ix hix hw
      rw [hy2] at hix
      have hix : InB (newShape B x.shape A) ix := hix
      rw [hy4 ix hix hw, Tensor.empty, get_ofFn hix]

/-- `forward` on a list of operations describing what the padder prescribes for the padded axes. -/
theorem forward_ops (p : Padder α) (junk : List Nat → α) (x : Tensor α) (ax : Axes) (axes : List Int)
    (ops : List (Nat × AxisPad α)) (hx : x.ndim ≠ 0) (hax : checkAxes x.ndim ax = .ok axes)
    (hne : axes ≠ [])
    (hf : List.Forall₂ (fun i (o : Nat × AxisPad α) => pyIndex axes i = .ok (o.1 : Int) ∧ Reads p i o.2)
      (Padder.negRange (p.nPadded axes)) ops)
    (hnd : (ops.map Prod.fst).Nodup) (hlt : ∀ o ∈ ops, o.1 < x.ndim)
    (hval : ∀ o ∈ ops, ¬ (o.2.before = 0 ∧ o.2.after = 0) →
      o.2.mode.valued = true ∧ 0 < x.shape.getD o.1 0) :
    p.forward junk x ax = .ok (padSeq x ops) := by
  rcases forward_prefix p junk x ax axes ops hx hax hne hf hnd hlt with ⟨h1, h2⟩ | ⟨y', W, h1, hW, h3, h4, h5, _⟩
  · rw [h1, padSeq_zero x ops h2]
  · have hWl : W.length = x.shape.length := by
      have := congrArg (fun t : Tensor α => t.shape.length) h3
      simpa [restrict, length_wlen] using this
    rw [h1, fillLoop_spec p axes ops _ y' W hf hW hnd ?_ ?_, h3]
    · intro o ho
      have hk := hlt o ho
      simp only [Tensor.ndim] at hk
      obtain ⟨e1, e2⟩ := h4 o ho
      rw [e1, e2, hWl]
      refine ⟨hk, ?_, rfl, ?_⟩
      · intro hnz
        have := hval o ho hnz
        exact ⟨this.1, by simp only; omega⟩
      · simp only [Nat.add_sub_cancel_left]
    · intro k hk hkn
      rw [hWl] at hk
      obtain ⟨e1, e2⟩ := h5 k hk hkn
      rw [e1, e2]

end Forward

end TI
