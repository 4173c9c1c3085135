import Verif.Proofs.PadCall
import Verif.Spec.PadRepeat

/-!
# `Padder.forward` along axes that may be repeated
-/

namespace TI
open Tensor Spec

variable {α : Type}

section Step
variable [Zero α] {y : Tensor α} {W : List (Nat × Nat)} {d head tail N : Nat}

/-- After filling the whole fibres along `d`, any wider window holds the content extended to that width. -/
theorem restrict_applyExt_wide {E : Ext α} {b t : Nat} (hW : WinOK W y.shape) (hd : d < W.length)
    (hwin : W.getD d (0, 0) = (head, tail)) (hN : y.shape.getD d 0 = N) (hb : b ≤ head) (ht : tail ≤ t)
    (htN : t ≤ N) (hloc : Local E (tail - head)) :
    restrict (applyExt E head tail y W d 0 N) (W.set d (b, t)) =
      extendAxis E d (head - b) (t - tail) (restrict y W) := by
  have hb' := hW.get hd
  rw [hwin, hN] at hb'
  simp only at hb'
  have hwd : (wlen W).getD d 0 = tail - head := by rw [getD_wlen hd, hwin]
  simp only [restrict, extendAxis, shape_ofFn, hwd]
  have e : head - b + (tail - head) + (t - tail) = t - b := by omega
  rw [e, wlen_set]
  apply ofFn_congr
  intro jx hjx
  have hl : jx.length = W.length := by rw [hjx.length_eq, List.length_set, length_wlen]
  have hjd : jx.getD d 0 < t - b := by
    have := hjx.lt (k := d) (by simpa [length_wlen] using hd)
    rwa [getD_set_self _ _ _ _ (by simpa [length_wlen] using hd)] at this
  have hjx' : InB (wlen (W.set d (b, t))) jx := by rw [wlen_set]; exact hjx
  have hin := shift_inWin hjx'
  have hWset : WinOK (W.set d (b, t)) y.shape := hW.set (by omega) (by omega)
  have hin2 : InWin (W.set d (0, N)) (shift (W.set d (b, t)) jx) := by
    rw [inWin_iff] at hin ⊢
    refine ⟨by simpa using hin.1, ?_⟩
    intro k hk
    have h1 := hin.2 k (by simpa using hk)
    rw [getD_set _ _ _ _ _ hd] at h1 ⊢
    split_ifs at h1 ⊢ with hkd
    · simp only at h1 ⊢
      omega
    · exact h1
  rw [applyExt, fill, get_ofFn (inWin_inB hWset hin), if_pos hin2, shift_set hl hd,
    getD_set_self _ _ _ _ (by rw [length_shift hl]; exact hd)]
  simp only [List.set_set]
  have ez : ((b + jx.getD d 0 : Nat) : Int) - head = (jx.getD d 0 : Int) - ((head - b : Nat) : Int) := by omega
  rw [ez]
  apply hloc
  intro j hj
  have hin2 : InB (wlen W) (jx.set d j) := by
    have h2 := hjx.set (i := j) (m := tail - head) hj
    rw [← hwd, set_getD_self] at h2
    exact h2
  rw [get_ofFn hin2]
  congr 1
  apply list_ext_getD
  · rw [List.length_set, length_shift hl, length_shift (by simpa using hl)]
  intro k hk
  rw [List.length_set, length_shift hl] at hk
  rw [getD_set _ _ _ _ _ (by rw [length_shift hl]; exact hd), getD_shift hl hk,
    getD_shift (by simpa using hl) hk, getD_set _ _ _ _ _ (by rw [hl]; exact hd)]
  split_ifs with hkd
  · subst hkd; rw [hwin]
  · rfl

end Step

section Main
set_option linter.unusedSectionVars false
variable [Field α] [LinearOrder α] [IsStrictOrderedRing α]


/-- `runMode_spec` for a buffer that may be wider than this operation needs -/
theorem runMode_wide {p : Padder α} {np : Bool} {i : Int} {s : AxisPad α} (hr : Reads p i s) {y : Tensor α}
    {W : List (Nat × Nat)} {d head tail : Nat} (hv : s.mode.valued = true) (hg : s.mode.whole = false)
    (hW : WinOK W y.shape) (hd : d < W.length) (hwin : W.getD d (0, 0) = (head, tail))
    (hlt : head < tail) :
    ∃ E, s.rule? = some E ∧ Local E (tail - head) ∧
      p.runMode np i s.mode y (idxOf W) d = .ok (applyExt E head tail y W d 0 (y.shape.getD d 0)) := by
  have hn : 0 < tail - head := by omega
  have hfu : max head (y.shape.getD d 0 - tail) ≤ y.shape.getD d 0 := by
    have h := hW.get hd
    rw [hwin] at h
    simp only at h
    omega
  obtain ⟨b, a, m, cv, ev, sl⟩ := s
  have h3 := hr.cv
  have h5 := hr.sl
  simp only at h3 h5 hv hg
  cases m <;> simp only [Mode.valued, Mode.whole, Bool.false_eq_true, reduceCtorEq] at hv hg <;>
    simp only [Padder.runMode, AxisPad.rule?]
  case replicate => exact ⟨_, rfl, replicate_local hn, replicate1d_spec hW hd hwin hlt⟩
  case smooth => exact ⟨_, rfl, smooth_local hn, smooth1d_spec hW hd hwin hlt⟩
  case circular => exact ⟨_, rfl, circular_local hn, circular1d_spec hW hd hwin hlt hfu⟩
  case symmetric => exact ⟨_, rfl, symmetric_local hn, symmetric1d_spec hW hd hwin hlt hfu⟩
  case reflect => exact ⟨_, rfl, reflect_local hn, reflect1d_spec hW hd hwin hlt hfu⟩
  case antisymmetric =>
    exact ⟨_, rfl, antisymmetric_local hn, antisymmetric1d_spec hW hd hwin hlt hfu⟩
  case oddReflect => exact ⟨_, rfl, oddReflect_local hn, oddReflect1d_spec hW hd hwin hlt hfu⟩
  case oddSymmetric =>
    exact ⟨_, rfl, oddSymmetric_local hn, oddSymmetric1d_spec hW hd hwin hlt hfu⟩
  case stat st =>
    refine ⟨_, rfl, border_local _ _ _ hn, ?_⟩
    rw [h5]
    simp only [bind, Except.bind]
    rw [stat1d_spec st sl.1 sl.2 hW hd hwin hlt]
    congr 1
    have hw : ∀ w : Option Int, 0 < Spec.window (tail - head) w := by
      intro w; cases w <;> simp [Spec.window] <;> omega
    have : Spec.border (α := α) (statVal st) sl.1 sl.2 (tail - head) =
        Spec.border (Stat.val (α := α) st) sl.1 sl.2 (tail - head) := by
      funext u z
      simp only [Spec.border]
      rw [statVal_eq, statVal_eq]
      · have := hw sl.2; intro hc; simp at hc; omega
      · have := hw sl.1; intro hc; simp at hc; omega
    simp only [applyExt, this]
  case constant =>
    refine ⟨_, rfl, constant_local _ _, ?_⟩
    rw [h3]
    exact constant1d_spec _ _ hW hd hwin

theorem widen_wide {m : Mode α} {b a : Nat} {W : List (Nat × Nat)} {d head tail : Nat}
    (hd : d < W.length) (hwin : W.getD d (0, 0) = (head, tail)) (hb : b ≤ head) (hht : head ≤ tail) :
    Padder.widen m ((b : Int), (a : Int)) (idxOf W) d =
      .ok (idxOf (W.set d (head - b, tail + a + (if m.isPeriodize then (tail - head) % 2 else 0)))) := by
  simp only [Padder.widen, bounds_idxOf hd hwin, bind, Except.bind]
  congr 1
  have e1 : (head : Int) - b = ((head - b : Nat) : Int) := by omega
  have e2 : (tail : Int) + a + (if m.isPeriodize then ((tail : Int) - head).fmod 2 else 0) =
      ((tail + a + (if m.isPeriodize then (tail - head) % 2 else 0) : Nat) : Int) := by
    split_ifs
    · rw [Int.fmod_eq_emod_of_nonneg _ (by omega)]
      omega
    · omega
  rw [e1, e2, modifyIdx, idxOf, idxOf, List.map_set]

/-- one pass over an axis on a buffer that has room for `rb` and `ra` further samples -/
theorem fillValue1d_wide {p : Padder α} {np : Bool} {i : Int} {s : AxisPad α} (hr : Reads p i s) {y : Tensor α}
    {W : List (Nat × Nat)} {d head tail rb ra : Nat} (hv : s.mode.valued = true)
    (hnz : ¬ (s.before = 0 ∧ s.after = 0))
    (hW : WinOK W y.shape) (hd : d < W.length) (hwin : W.getD d (0, 0) = (head, tail))
    (hlt : head < tail) (hb : head = s.before + rb)
    (hN : y.shape.getD d 0 = tail + s.total (tail - head) + ra)
    (hw : s.mode.whole = true → rb = 0 ∧ ra = 0) :
    ∃ E y', s.rule? = some E ∧
      p.fillValue1d np y i (d : Int) (some (idxOf W)) =
        .ok (y', some (idxOf (W.set d (rb, tail + s.total (tail - head))))) ∧ y'.shape = y.shape ∧
      restrict y' (W.set d (rb, tail + s.total (tail - head))) =
        extendAxis E d s.before (s.total (tail - head)) (restrict y W) := by
  have htot : tail + s.total (tail - head) =
      tail + s.after + (if s.mode.isPeriodize then (tail - head) % 2 else 0) := by
    rw [AxisPad.total, if_neg hnz]; omega
  obtain ⟨E, h1, h2, h3⟩ : ∃ E, s.rule? = some E ∧ Local E (tail - head) ∧
      p.runMode np i s.mode y (idxOf W) d = .ok (applyExt E head tail y W d 0 (y.shape.getD d 0)) := by
    cases hm : s.mode.whole with
    | false => exact runMode_wide hr hv hm hW hd hwin hlt
    | true =>
      have := hw hm
      exact runMode_spec (np := np) hr hv hW hd hwin hlt (by omega) (by rw [hN, htot]; omega)
  refine ⟨E, applyExt E head tail y W d 0 (y.shape.getD d 0), h1, ?_, rfl, ?_⟩
  · have hw := widen_wide (m := s.mode) (b := s.before) (a := s.after) hd hwin (by omega) (by omega)
    rw [← htot, show head - s.before = rb by omega] at hw
    have hax : Padder.axisNat y.ndim (d : Int) = .ok d := by
      rw [Padder.axisNat, if_pos]
      · simp
      · have := hW.length_eq
        simp only [Tensor.ndim]
        omega
    have hz : ¬ (((s.before : Int), (s.after : Int)).1 = 0 ∧ ((s.before : Int), (s.after : Int)).2 = 0) := by
      simp only; omega
    have hm := hr.mode
    simp only [Padder.fillValue1d, hr.width, bind, Except.bind, if_neg hz, hm]
    generalize s.total (tail - head) = T at *
    generalize hmm : s.mode = m at *
    cases m <;> simp only [Mode.valued, Bool.false_eq_true] at hv <;>
      simp only [hax, h3, hw, pure, Except.pure]
  · rw [restrict_applyExt_wide hW hd hwin rfl (by omega) (by omega) (by omega) h2,
      show head - rb = s.before by omega, Nat.add_sub_cancel_left]

/-- samples to be added before along axis `k` -/
def befSum : List (Nat × AxisPad α) → Nat → Nat
  | [], _ => 0
  | o :: ops, k => (if o.1 = k then o.2.before else 0) + befSum ops k

/-- samples to be added after along axis `k` -/
def aftSum (S : List Nat) : List (Nat × AxisPad α) → Nat → Nat
  | [], _ => 0
  | o :: ops, k => (if o.1 = k then o.2.total (S.getD o.1 0) else 0) + aftSum S ops k

theorem sum_notin (S : List Nat) {k : Nat} : ∀ {ops : List (Nat × AxisPad α)}, k ∉ ops.map Prod.fst →
    befSum ops k = 0 ∧ aftSum S ops k = 0 := by
  intro ops
  induction ops with
  | nil => intro _; exact ⟨rfl, rfl⟩
  | cons o ops ih =>
    intro h
    simp only [List.map_cons, List.mem_cons, not_or] at h
    have := ih h.2
    have hne : ¬ o.1 = k := fun e => h.1 e.symm
    simp only [befSum, aftSum, if_neg hne, this, Nat.add_zero, and_self]

/-- The loop of `forward` over axes that may be repeated. -/
theorem fillLoop_rep (p : Padder α) (axes : List Int) (S : List Nat) :
    ∀ (ops : List (Nat × AxisPad α)) (is : List Int) (y : Tensor α) (W : List (Nat × Nat)),
    List.Forall₂ (fun i (o : Nat × AxisPad α) => pyIndex axes i = .ok (o.1 : Int) ∧ Reads p i o.2) is ops →
    WinOK W y.shape →
    (∀ o ∈ ops, o.1 < W.length ∧
      (¬ (o.2.before = 0 ∧ o.2.after = 0) → o.2.mode.valued = true ∧
        (W.getD o.1 (0, 0)).1 < (W.getD o.1 (0, 0)).2) ∧
      (o.2.mode.whole = true → (ops.map Prod.fst).count o.1 = 1 ∧
        (W.getD o.1 (0, 0)).2 - (W.getD o.1 (0, 0)).1 = S.getD o.1 0)) →
    (∀ k, k < W.length → (W.getD k (0, 0)).1 = befSum ops k ∧
      y.shape.getD k 0 = (W.getD k (0, 0)).2 + aftSum S ops k) →
    p.fillLoop axes is y (some (idxOf W)) = .ok (padSeq (restrict y W) ops) := by
  intro ops
  induction ops with
  | nil =>
    intro is y W hf hW _ hfull
    cases hf
    rw [Padder.fillLoop, padSeq, List.foldl_nil,
      restrict_full (fun k hk => ?_) hW.length_eq]
    have := hfull k (by rw [hW.length_eq]; exact hk)
    exact Prod.ext this.1 (by rw [this.2]; rfl)
  | cons o ops ih =>
    intro is y W hf hW hops hfull
    cases hf with
    | @cons i _ is _ h1 hf =>
    obtain ⟨hd, hval, hwh⟩ := hops o (by simp)
    have hcount : ∀ o' ∈ ops, o'.2.mode.whole = true → o'.1 ≠ o.1 ∧ (ops.map Prod.fst).count o'.1 = 1 := by
      intro o' ho' hm
      have h := ((hops o' (by simp [ho'])).2.2 hm).1
      rw [List.map_cons, List.count_cons] at h
      have h3 : 0 < (ops.map Prod.fst).count o'.1 := List.count_pos_iff.2 (List.mem_map_of_mem ho')
      by_cases hc : o.1 = o'.1
      · simp [hc] at h; omega
      · simp [hc] at h; exact ⟨fun e => hc e.symm, h⟩
    have hself := hfull o.1 hd
    simp only [befSum, aftSum, if_true] at hself
    simp only [Padder.fillLoop, h1.1, bind, Except.bind]
    by_cases hz : o.2.before = 0 ∧ o.2.after = 0
    · rw [fillValue1d_zero h1.2 hz]
      simp only
      rw [padSeq, List.foldl_cons, ← padSeq]
      rw [show padStep (restrict y W) o = restrict y W by rw [padStep, if_pos hz]]
      refine ih is y W hf hW ?_ ?_
      · intro o' ho'
        have h := hops o' (by simp [ho'])
        exact ⟨h.1, h.2.1, fun hm => ⟨(hcount o' ho' hm).2, (h.2.2 hm).2⟩⟩
      · intro k hk
        have h := hfull k hk
        have e : o.2.total (S.getD o.1 0) = 0 := by rw [AxisPad.total, if_pos hz]
        simp only [befSum, aftSum, hz.1, e, ite_self, Nat.zero_add] at h
        exact h
    · obtain ⟨hv, hlt⟩ := hval hz
      obtain ⟨head, tail, hwin⟩ : ∃ head tail, W.getD o.1 (0, 0) = (head, tail) := ⟨_, _, rfl⟩
      rw [hwin] at hlt hself hwh
      simp only at hlt hself hwh
      have htot : o.2.total (tail - head) = o.2.total (S.getD o.1 0) := by
        cases hm : o.2.mode.whole with
        | true => rw [(hwh hm).2]
        | false =>
          have : o.2.mode.isPeriodize = false := by
            cases hmm : o.2.mode <;> rw [hmm] at hm <;> first | rfl | cases hm
          simp [AxisPad.total, this]
      obtain ⟨E, y', hE, hfill, hsh, hres⟩ := fillValue1d_wide (np := true) (rb := befSum ops o.1)
        (ra := aftSum S ops o.1) h1.2 hv hz hW hd hwin hlt hself.1 (by rw [htot, hself.2]; omega) (by
          intro hm
          have h := (hwh hm).1
          rw [List.map_cons, List.count_cons] at h
          simp at h
          have : o.1 ∉ ops.map Prod.fst := List.count_eq_zero.1 h
          exact sum_notin S this)
      rw [hfill]
      simp only
      have hWset : WinOK (W.set o.1 (befSum ops o.1, tail + o.2.total (tail - head))) y'.shape := by
        rw [hsh]
        exact hW.set (by omega) (by rw [hself.2, htot]; omega)
      rw [ih is y' _ hf hWset ?_ ?_]
      · rw [hres, padSeq, padSeq, List.foldl_cons]
        congr 2
        rw [padStep, if_neg hz, hE]
        simp only
        congr 1
        have hwd : (restrict y W).shape.getD o.1 0 = tail - head := by
          rw [restrict, shape_ofFn, getD_wlen hd, hwin]
        rw [hwd]
      · intro o' ho'
        have h := hops o' (by simp [ho'])
        rw [List.length_set, getD_set _ _ _ _ _ hd]
        refine ⟨h.1, ?_, ?_⟩
        · intro hnz
          split_ifs with he
          · exact ⟨(h.2.1 hnz).1, by simp only; omega⟩
          · exact h.2.1 hnz
        · intro hm
          have hc := hcount o' ho' hm
          rw [if_neg hc.1]
          exact ⟨hc.2, (h.2.2 hm).2⟩
      · intro k hk
        rw [List.length_set] at hk
        rw [getD_set _ _ _ _ _ hd, hsh]
        split_ifs with hko
        · subst hko
          refine ⟨rfl, ?_⟩
          rw [hself.2, htot]
          simp only
          omega
        · have h := hfull k hk
          simp only [befSum, aftSum, if_neg (fun e => hko (Eq.symm e) : ¬ o.1 = k), Nat.zero_add] at h
          exact h

theorem accN_sum (shape : List Nat) : ∀ (ops : List (Nat × AxisPad α)) (v : List Nat × List Nat),
    (∀ o ∈ ops, o.1 < v.1.length ∧ o.1 < v.2.length) → ∀ k,
    (accN shape ops v).1.getD k 0 = v.1.getD k 0 + befSum ops k ∧
      (accN shape ops v).2.getD k 0 = v.2.getD k 0 + aftSum shape ops k := by
  intro ops
  induction ops with
  | nil => intro v _ k; exact ⟨rfl, rfl⟩
  | cons q ops ih =>
    intro v hlt k
    have h2 := hlt q (by simp)
    have := ih (v.1.set q.1 (v.1.getD q.1 0 + q.2.before),
      v.2.set q.1 (v.2.getD q.1 0 + q.2.total (shape.getD q.1 0)))
      (fun o' ho' => by simpa using hlt o' (by simp [ho'])) k
    rw [accN, this.1, this.2, getD_set _ _ _ _ _ h2.1, getD_set _ _ _ _ _ h2.2]
    simp only [befSum, aftSum]
    by_cases hk : k = q.1
    · subst hk; simp only [if_true]; omega
    · simp only [if_neg hk, if_neg (fun e => hk (Eq.symm e) : ¬ q.1 = k)]; omega

theorem befSum_mem (S : List Nat) {o : Nat × AxisPad α} : ∀ {ops : List (Nat × AxisPad α)}, o ∈ ops →
    o.2.before ≤ befSum ops o.1 ∧ o.2.total (S.getD o.1 0) ≤ aftSum S ops o.1 := by
  intro ops
  induction ops with
  | nil => intro h; cases h
  | cons q ops ih =>
    intro h
    rcases List.mem_cons.1 h with rfl | h
    · simp only [befSum, aftSum, if_true]; omega
    · have := ih h
      simp only [befSum, aftSum]
      omega

/-- `forward` up to the point where padded values are written, for axes that may be repeated -/
theorem forward_prefix_rep (p : Padder α) (junk : List Nat → α) (x : Tensor α) (ax : Axes) (axes : List Int)
    (ops : List (Nat × AxisPad α)) (hx : x.ndim ≠ 0) (hax : checkAxes x.ndim ax = .ok axes)
    (hne : axes ≠ [])
    (hf : List.Forall₂ (fun i (o : Nat × AxisPad α) => pyIndex axes i = .ok (o.1 : Int) ∧ Reads p i o.2)
      (Padder.negRange (p.nPadded axes)) ops)
    (hlt : ∀ o ∈ ops, o.1 < x.ndim) :
    (p.forward junk x ax = .ok x ∧ ∀ o ∈ ops, o.2.before = 0 ∧ o.2.after = 0) ∨
    ∃ y' W, p.forward junk x ax = p.fillLoop axes (Padder.negRange (p.nPadded axes)) y' (some (idxOf W)) ∧
      WinOK W y'.shape ∧ restrict y' W = x ∧
      (∀ k, k < x.shape.length → W.getD k (0, 0) = (befSum ops k, befSum ops k + x.shape.getD k 0) ∧
        y'.shape.getD k 0 = befSum ops k + x.shape.getD k 0 + aftSum x.shape ops k) := by
  obtain ⟨B, A, hBA⟩ : ∃ B A, accN x.shape ops (x.shape.map fun _ => 0, x.shape.map fun _ => 0) = (B, A) :=
    ⟨_, _, rfl⟩
  have hacc := accLoop_spec (p := p) (shape := x.shape) (axes := axes) ops _
    (x.shape.map fun _ => 0, x.shape.map fun _ => 0) hf hlt
  have hlen := accN_length x.shape ops (x.shape.map fun _ => 0, x.shape.map fun _ => 0)
  have hsum := accN_sum x.shape ops (x.shape.map fun _ => 0, x.shape.map fun _ => 0)
    (fun o ho => by have := hlt o ho; simp only [Tensor.ndim] at this; simpa using this)
  have hz : ∀ k, (x.shape.map fun _ => 0).getD k 0 = 0 := by
    intro k
    simp only [List.getD_eq_getElem?_getD, List.getElem?_map]
    cases x.shape[k]? <;> rfl
  rw [hBA] at hacc hlen hsum
  simp only [hz, Nat.zero_add, List.length_map] at hacc hlen hsum
  simp only [Padder.forward, if_neg hx, hax, if_neg hne, bind, Except.bind, pure, Except.pure, castV_zero,
    hacc, tailV_eq, zipAdd_cast, idx_eq]
  rw [← newShape]
  split_ifs with h1 h2
  · -- nothing to pad
    left
    have h1 := castV_inj (w := x.shape) h1
    refine ⟨rfl, ?_⟩
    intro o ho
    have hk := hlt o ho
    simp only [Tensor.ndim] at hk
    have h3 := getD_newShape hlen.1 hlen.2 hk
    have h4 := befSum_mem x.shape ho
    rw [h1, (hsum o.1).1, (hsum o.1).2] at h3
    by_contra hc
    rw [AxisPad.total, if_neg hc] at h4
    omega
  · rw [castV_any_neg] at h2; exact absurd h2 (by simp)
  · rw [castV_toNat]
    have hWlen := length_win0 (B := B) (shape := x.shape) hlen.1
    have hW : WinOK (win0 B x.shape) (Tensor.empty junk (newShape B x.shape A)).shape := by
      rw [WinOK, List.forall₂_iff_get]
      refine ⟨by rw [hWlen]; exact (length_newShape hlen.1 hlen.2).symm, ?_⟩
      intro k hk1 hk2
      have hk : k < x.shape.length := by rw [← hWlen]; exact hk1
      have e1 : (win0 B x.shape).get ⟨k, hk1⟩ = (win0 B x.shape).getD k (0, 0) := by
        simp [List.getD_eq_getElem?_getD, List.getElem?_eq_getElem hk1]
      have e2 : (Tensor.empty junk (newShape B x.shape A)).shape.get ⟨k, hk2⟩ =
          (newShape B x.shape A).getD k 0 := by
        have hk2' : k < (newShape B x.shape A).length := hk2
        simp [Tensor.empty, List.getD_eq_getElem?_getD, List.getElem?_eq_getElem hk2']
      rw [e1, e2, getD_win0 hlen.1 hk, getD_newShape hlen.1 hlen.2 hk]
      simp only
      omega
    right
    have hE : (Tensor.empty junk (newShape B x.shape A)).shape = newShape B x.shape A := rfl
    obtain ⟨y', hy1, hy2, hy3, _⟩ := restrict_setSlice hW (wlen_win0 hlen.1)
    rw [hy1]
    refine ⟨y', win0 B x.shape, rfl, by rw [hy2]; exact hW, hy3, ?_⟩
    intro k hk
    rw [getD_win0 hlen.1 hk, hy2, hE, getD_newShape hlen.1 hlen.2 hk, (hsum k).1, (hsum k).2]
    exact ⟨rfl, rfl⟩

/-- `forward` along axes that may be repeated performs the operations one after the other. -/
theorem forward_ops_rep (p : Padder α) (junk : List Nat → α) (x : Tensor α) (ax : Axes) (axes : List Int)
    (ops : List (Nat × AxisPad α)) (hx : x.ndim ≠ 0) (hax : checkAxes x.ndim ax = .ok axes)
    (hne : axes ≠ [])
    (hf : List.Forall₂ (fun i (o : Nat × AxisPad α) => pyIndex axes i = .ok (o.1 : Int) ∧ Reads p i o.2)
      (Padder.negRange (p.nPadded axes)) ops)
    (hlt : ∀ o ∈ ops, o.1 < x.ndim)
    (honce : ∀ o ∈ ops, o.2.mode.whole = true → (ops.map Prod.fst).count o.1 = 1)
    (hval : ∀ o ∈ ops, ¬ (o.2.before = 0 ∧ o.2.after = 0) →
      o.2.mode.valued = true ∧ 0 < x.shape.getD o.1 0) :
    p.forward junk x ax = .ok (padSeq x ops) := by
  rcases forward_prefix_rep p junk x ax axes ops hx hax hne hf hlt with ⟨h1, h2⟩ | ⟨y', W, h1, hW, h3, h4⟩
  · rw [h1, padSeq_zero x ops h2]
  · have hWl : W.length = x.shape.length := by
      have := congrArg (fun t : Tensor α => t.shape.length) h3
      simpa [restrict, length_wlen] using this
    rw [h1, fillLoop_rep p axes x.shape ops _ y' W hf hW ?_ ?_, h3]
    · intro o ho
      have hk := hlt o ho
      simp only [Tensor.ndim] at hk
      obtain ⟨e1, e2⟩ := h4 o.1 hk
      rw [e1, hWl]
      refine ⟨hk, ?_, ?_⟩
      · intro hnz
        have := hval o ho hnz
        exact ⟨this.1, by simp only; omega⟩
      · intro hm
        exact ⟨honce o ho hm, by simp⟩
    · intro k hk
      rw [hWl] at hk
      obtain ⟨e1, e2⟩ := h4 k hk
      rw [e1, e2]
      exact ⟨rfl, rfl⟩

theorem Spec.PadCallRep.len_le {p : Padder α} {x : Tensor α} {ax : Axes} {axes : List Nat}
    {ss : List (AxisPad α)} (h : PadCallRep p x ax axes ss) : ss.length ≤ axes.length := by
  have := h.len
  split_ifs at this <;> omega

/-- `forward` performs the sequential padding, whatever the buffer contains -/
theorem forward_call_rep {p : Padder α} {x : Tensor α} {ax : Axes} {axes : List Nat}
    {ss : List (AxisPad α)} (h : PadCallRep p x ax axes ss) (junk : List Nat → α) :
    p.forward junk x ax = .ok (padSeq x (zipRight axes ss)) := by
  have hc := checkAxes_spec h.axes_eq
  have hle := h.len_le
  by_cases hne : axes = []
  · have h0 : ss = [] := by
      apply List.length_eq_zero_iff.1
      rw [hne] at hle; simpa using hle
    subst h0
    have : castV axes = [] := by rw [hne]; rfl
    simp [Padder.forward, h.ndim_ne, hc.1, this, bind, Except.bind, pure, Except.pure, zipRight, padSeq]
  · refine forward_ops_rep p junk x ax (castV axes) _ h.ndim_ne hc.1 (by simpa [castV] using hne) ?_
      (fun o ho => hc.2 _ (zipRight_mem ho).1) h.once ?_
    · have hk : p.nPadded (castV axes) = ss.length := by
        rw [h.len, Padder.nPadded]; simp [castV]
      rw [hk, List.forall₂_iff_get]
      refine ⟨by simp [Padder.negRange, zipRight]; omega, ?_⟩
      intro j h1 h2
      have hj : j < ss.length := by simpa [Padder.negRange] using h1
      have e : (Padder.negRange ss.length).get ⟨j, h1⟩ = (j : Int) - ss.length := by
        simp [Padder.negRange]
      rw [e]
      have e2 : (zipRight axes ss).get ⟨j, h2⟩ =
          (axes[axes.length - ss.length + j]'(by omega), ss[j]) := by
        simp [zipRight, List.getElem_drop]
      rw [e2]
      refine ⟨?_, h.reads j hj⟩
      rw [pyIndex_neg (by simpa [castV] using hle) hj]
      simp [castV]
    · intro o ho hnz
      have := h.valued o ho hnz
      exact ⟨valued_of_rule this.1 this.2.1, this.2.2⟩

end Main
end TI
