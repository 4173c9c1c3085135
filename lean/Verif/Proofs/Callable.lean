import Verif.Spec.Callable
import Verif.Proofs.PadCall
import Verif.Proofs.PadLaws
import Verif.Proofs.PadAxis

/-!
# Callable padding modes
-/

namespace TI
open Tensor Spec

variable {α : Type} [Field α] [LinearOrder α] [IsStrictOrderedRing α]

set_option linter.unusedSectionVars false

theorem winOK_of {W : List (Nat × Nat)} {S : List Nat} (hl : W.length = S.length)
    (h : ∀ k, k < W.length → (W.getD k (0, 0)).1 ≤ (W.getD k (0, 0)).2 ∧ (W.getD k (0, 0)).2 ≤ S.getD k 0) : WinOK W S := by
  rw [WinOK, List.forall₂_iff_get]
  refine ⟨hl, fun k h1 h2 => ?_⟩
  have := h k h1
  simpa [List.getD_eq_getElem?_getD, List.getElem?_eq_getElem h1, List.getElem?_eq_getElem h2] using this

/-- filling one axis, whether by a named mode or by a callable -/
theorem fillValue1d_by {p : Padder α} {i : Int} {s : AxisPad α} {E : Ext α} (hr : Reads p i s) {y : Tensor α}
    {W : List (Nat × Nat)} {d head tail : Nat} (hE : Amounts s E) (hnz : ¬ (s.before = 0 ∧ s.after = 0))
    (hW : WinOK W y.shape) (hd : d < W.length) (hwin : W.getD d (0, 0) = (head, tail))
    (hlt : head < tail) (hb : head = s.before)
    (hN : y.shape.getD d 0 = tail + s.after + (if s.mode.isPeriodize then (tail - head) % 2 else 0)) :
    ∃ y', p.fillValue1d true y i (d : Int) (some (idxOf W)) = .ok (y', some (idxOf (W.set d (0, y.shape.getD d 0)))) ∧
      y'.shape = y.shape ∧ restrict y' (W.set d (0, y.shape.getD d 0)) =
        extendAxis E d head (y.shape.getD d 0 - tail) (restrict y W) := by
  by_cases hm : ∃ f, s.mode = .custom f
  · obtain ⟨f, hf⟩ := hm
    rw [Amounts, hf] at hE
    obtain ⟨hc, hs⟩ := hE
    rw [hf] at hN
    simp only [Mode.isPeriodize, Bool.false_eq_true, if_false, Nat.add_zero] at hN
    obtain ⟨y', h1, h2, h3⟩ := hc y W d hW.length_eq (fun k hk => hW.get hk) hd (by rw [hwin]; exact hb)
      (by rw [hwin, ← hb]; exact hlt) (by rw [hwin]; exact hN)
    have h1 : f y (idxOf W) d = .ok y' := h1
    have hw := widen_spec (m := s.mode) (b := s.before) (a := s.after) (N := y.shape.getD d 0) hd hwin hb
      (by omega) (by rw [hf]; simpa [Mode.isPeriodize] using hN)
    have hax : Padder.axisNat y.ndim (d : Int) = .ok d := by
      rw [Padder.axisNat, if_pos]
      · simp
      · have := hW.length_eq
        simp only [Tensor.ndim]
        omega
    have hz : ¬ (((s.before : Int), (s.after : Int)).1 = 0 ∧ ((s.before : Int), (s.after : Int)).2 = 0) := by
      simp only; omega
    refine ⟨y', ?_, h2, ?_⟩
    · rw [hf] at hw
      simp only [Padder.fillValue1d, hr.width, bind, Except.bind, if_neg hz, hr.mode, hf, hax, Padder.runMode, h1,
        hw, pure, Except.pure]
    · have hb' := hW.get hd
      rw [hwin] at hb'
      simp only at hb'
      have hwd : (wlen W).getD d 0 = tail - head := by rw [getD_wlen hd, hwin]
      simp only [restrict, extendAxis, shape_ofFn, hwd]
      have e : head + (tail - head) + (y.shape.getD d 0 - tail) = y.shape.getD d 0 := by omega
      rw [e, wlen_set, Nat.sub_zero]
      apply ofFn_congr
      intro jx hjx
      have hl : jx.length = W.length := by rw [hjx.length_eq, List.length_set, length_wlen]
      have hjx' : InB (wlen (W.set d (0, y.shape.getD d 0))) jx := by rw [wlen_set, Nat.sub_zero]; exact hjx
      have hin := shift_inWin hjx'
      have hWset : WinOK (W.set d (0, y.shape.getD d 0)) y.shape := hW.set (by omega) (by omega)
      rw [h3 _ (inWin_inB hWset hin) ?_]
      · rw [hwin, ← hb, shift_set hl hd, getD_set_self _ _ _ _ (by rw [length_shift hl]; exact hd)]
        simp only [Nat.zero_add, List.set_set]
        apply hs _ _ _ _ (by omega)
        intro j hj
        have hin2 : InB (wlen W) (jx.set d j) := by
          have h2 := hjx.set (i := j) (m := tail - head) hj
          rw [← hwd, set_getD_self] at h2
          exact h2
        rw [get_ofFn hin2]
        congr 1
        apply list_ext_getD
        · rw [List.length_set, length_shift hl, length_shift (by simpa using hl)]
        intro k hk
        rw [List.length_set, length_shift hl] at hk
        rw [getD_set _ _ _ _ _ (by rw [length_shift hl]; exact hd), getD_shift hl hk,
          getD_shift (by simpa using hl) hk, getD_set _ _ _ _ _ (by rw [hl]; exact hd)]
        split_ifs with hkd
        · subst hkd; rw [hwin]
        · rfl
      · intro k hk hkd
        have := (inWin_iff.1 hin).2 k (by simpa using hk)
        rwa [getD_set_ne _ _ _ _ _ hkd] at this
  · have hv : s.mode.valued = true ∧ s.rule? = some E := by
      obtain ⟨b, a, m, cv, ev, sl⟩ := s
      cases m <;> simp_all [Amounts, AxisPad.rule?, Mode.valued]
    obtain ⟨E', h1, h2, h3⟩ := fillValue1d_spec (np := true) hr hv.1 hnz hW hd hwin hlt hb hN
    rw [hv.2] at h1
    cases h1
    exact ⟨_, h3, rfl, restrict_applyExt hW hd hwin rfl h2⟩

theorem fillLoop_by (p : Padder α) (axes : List Int) (R : AxisPad α → Ext α) :
    ∀ (ops : List (Nat × AxisPad α)) (is : List Int) (y : Tensor α) (W : List (Nat × Nat)),
    List.Forall₂ (fun i (o : Nat × AxisPad α) => pyIndex axes i = .ok (o.1 : Int) ∧ Reads p i o.2) is ops →
    WinOK W y.shape → (ops.map Prod.fst).Nodup →
    (∀ o ∈ ops, o.1 < W.length ∧
      (¬ (o.2.before = 0 ∧ o.2.after = 0) → Amounts o.2 (R o.2) ∧
        (W.getD o.1 (0, 0)).1 < (W.getD o.1 (0, 0)).2) ∧
      (W.getD o.1 (0, 0)).1 = o.2.before ∧
      y.shape.getD o.1 0 = (W.getD o.1 (0, 0)).2 +
        o.2.total ((W.getD o.1 (0, 0)).2 - (W.getD o.1 (0, 0)).1)) →
    (∀ k, k < W.length → k ∉ ops.map Prod.fst → W.getD k (0, 0) = (0, y.shape.getD k 0)) →
    p.fillLoop axes is y (some (idxOf W)) = .ok (padBy R (restrict y W) ops) := by
  intro ops
  induction ops with
  | nil =>
    intro is y W hf hW _ _ hfull
    cases hf
    rw [Padder.fillLoop, padBy, List.foldl_nil,
      restrict_full (fun k hk => hfull k (by rw [hW.length_eq]; exact hk) (by simp)) hW.length_eq]
  | cons o ops ih =>
    intro is y W hf hW hnd hops hfull
    cases hf with
    | @cons i _ is _ h1 hf =>
    obtain ⟨hd, hval, hbef, htot⟩ := hops o (by simp)
    have hnotin : o.1 ∉ ops.map Prod.fst := by
      rw [List.map_cons, List.nodup_cons] at hnd; exact hnd.1
    have hnd' : (ops.map Prod.fst).Nodup := by
      rw [List.map_cons, List.nodup_cons] at hnd; exact hnd.2
    simp only [Padder.fillLoop, h1.1, bind, Except.bind]
    by_cases hz : o.2.before = 0 ∧ o.2.after = 0
    · rw [fillValue1d_zero h1.2 hz]
      simp only
      rw [padBy, List.foldl_cons, if_pos hz, ← padBy]
      refine ih is y W hf hW hnd' (fun o' ho' => hops o' (by simp [ho'])) ?_
      intro k hk hkn
      by_cases hko : k = o.1
      · subst hko
        rw [AxisPad.total, if_pos hz] at htot
        rw [htot, Nat.add_zero]
        exact Prod.ext (by rw [hbef, hz.1]) rfl
      · exact hfull k hk (by simp only [List.map_cons, List.mem_cons, not_or]; exact ⟨hko, hkn⟩)
    · obtain ⟨hv, hlt⟩ := hval hz
      obtain ⟨head, tail, hwin⟩ : ∃ head tail, W.getD o.1 (0, 0) = (head, tail) := ⟨_, _, rfl⟩
      rw [hwin] at hlt hbef htot
      simp only at hlt hbef htot
      rw [AxisPad.total, if_neg hz] at htot
      obtain ⟨y', hfill, hsh, hres⟩ := fillValue1d_by h1.2 hv hz hW hd hwin hlt hbef (by rw [htot]; omega)
      rw [hfill]
      simp only
      have hWset : WinOK (W.set o.1 (0, y.shape.getD o.1 0)) y'.shape := by
        rw [hsh]; exact hW.set (by omega) (by omega)
      rw [ih is y' _ hf hWset hnd' ?_ ?_]
      · rw [hres, padBy, padBy, List.foldl_cons, if_neg hz]
        congr 2
        rw [hbef]
        congr 1
        have hwd : (restrict y W).shape.getD o.1 0 = tail - head := by
          rw [restrict, shape_ofFn, getD_wlen hd, hwin]
        rw [hwd, AxisPad.total, if_neg hz, htot]
        omega
      · intro o' ho'
        have hne : o'.1 ≠ o.1 := by
          intro hc
          exact hnotin (by rw [← hc]; exact List.mem_map_of_mem ho')
        have := hops o' (by simp [ho'])
        rw [List.length_set, getD_set_ne _ _ _ _ _ hne, hsh]
        exact this
      · intro k hk hkn
        rw [List.length_set] at hk
        rw [getD_set _ _ _ _ _ hd, hsh]
        split_ifs with hko
        · subst hko; rfl
        · exact hfull k hk (by simp only [List.map_cons, List.mem_cons, not_or]; exact ⟨hko, hkn⟩)

theorem padBy_zero (R : AxisPad α → Ext α) (x : Tensor α) (ops : List (Nat × AxisPad α))
    (h : ∀ o ∈ ops, o.2.before = 0 ∧ o.2.after = 0) : padBy R x ops = x := by
  induction ops with
  | nil => rfl
  | cons o ops ih =>
    rw [padBy, List.foldl_cons, if_pos (h o (by simp)), ← padBy]
    exact ih (fun o' ho' => h o' (by simp [ho']))

theorem forward_by (p : Padder α) (junk : List Nat → α) (x : Tensor α) (ax : Axes) (axes : List Int)
    (R : AxisPad α → Ext α)
    (ops : List (Nat × AxisPad α)) (hx : x.ndim ≠ 0) (hax : checkAxes x.ndim ax = .ok axes)
    (hne : axes ≠ [])
    (hf : List.Forall₂ (fun i (o : Nat × AxisPad α) => pyIndex axes i = .ok (o.1 : Int) ∧ Reads p i o.2)
      (Padder.negRange (p.nPadded axes)) ops)
    (hnd : (ops.map Prod.fst).Nodup) (hlt : ∀ o ∈ ops, o.1 < x.ndim)
    (hval : ∀ o ∈ ops, ¬ (o.2.before = 0 ∧ o.2.after = 0) → Amounts o.2 (R o.2) ∧ 0 < x.shape.getD o.1 0) :
    p.forward junk x ax = .ok (padBy R x ops) := by
  rcases forward_prefix p junk x ax axes ops hx hax hne hf hnd hlt with ⟨h1, h2⟩ | ⟨y', W, h1, hW, h3, h4, h5, _⟩
  · rw [h1, padBy_zero R x ops h2]
  · have hWl : W.length = x.shape.length := by
      have := congrArg (fun t : Tensor α => t.shape.length) h3
      simpa [restrict, length_wlen] using this
    rw [h1, fillLoop_by p axes R ops _ y' W hf hW hnd ?_ ?_, h3]
    · intro o ho
      have hk := hlt o ho
      simp only [Tensor.ndim] at hk
      obtain ⟨e1, e2⟩ := h4 o ho
      rw [e1, e2, hWl]
      refine ⟨hk, ?_, rfl, ?_⟩
      · intro hnz
        have := hval o ho hnz
        exact ⟨this.1, by simp only; omega⟩
      · simp only [Nat.add_sub_cancel_left]
    · intro k hk hkn
      rw [hWl] at hk
      obtain ⟨e1, e2⟩ := h5 k hk hkn
      rw [e1, e2]

theorem padBy_cons (R : AxisPad α → Ext α) (x : Tensor α) (o : Nat × AxisPad α) (ops) :
    padBy R x (o :: ops) = padBy R (padBy R x [o]) ops := rfl

theorem padBy_one_shape (R : AxisPad α → Ext α) (x : Tensor α) (o : Nat × AxisPad α) :
    (padBy R x [o]).shape = x.shape.set o.1 (o.2.before + x.shape.getD o.1 0 + o.2.total (x.shape.getD o.1 0)) := by
  rw [padBy, List.foldl_cons, List.foldl_nil]
  split_ifs with hz
  · rw [hz.1, AxisPad.total, if_pos hz, Nat.zero_add, Nat.add_zero, set_getD_self]
  · rfl

theorem padBy_ndim (R : AxisPad α → Ext α) (ops : List (Nat × AxisPad α)) (x : Tensor α) :
    (padBy R x ops).ndim = x.ndim := by
  induction ops generalizing x with
  | nil => rfl
  | cons o ops ih => rw [padBy_cons, ih]; simp [Tensor.ndim, padBy_one_shape]

theorem padBy_shape (R : AxisPad α → Ext α) {ops : List (Nat × AxisPad α)} (hnd : (ops.map Prod.fst).Nodup)
    (x : Tensor α) (hlt : ∀ o ∈ ops, o.1 < x.ndim) (k : Nat) :
    (padBy R x ops).shape.getD k 0 = match settingAt ops k with
      | some s => s.before + x.shape.getD k 0 + s.total (x.shape.getD k 0)
      | none => x.shape.getD k 0 := by
  induction ops generalizing x with
  | nil => rfl
  | cons o ops ih =>
    have hs := padBy_one_shape R x o
    rw [List.map_cons, List.nodup_cons] at hnd
    rw [padBy_cons, ih hnd.2 _
      (fun o' ho' => by have := hlt o' (by simp [ho']); simpa [Tensor.ndim, hs] using this), hs, settingAt]
    split_ifs with hk
    · subst hk
      rw [settingAt_none hnd.1]
      exact getD_set_self _ _ _ _ (hlt o (by simp))
    · rw [getD_set_ne _ _ _ _ _ (Ne.symm hk)]

theorem padBy_embed_inB (R : AxisPad α → Ext α) {ops : List (Nat × AxisPad α)} (hnd : (ops.map Prod.fst).Nodup)
    {x : Tensor α} (hlt : ∀ o ∈ ops, o.1 < x.ndim) {ix : List Nat} (hix : InB x.shape ix) :
    InB (padBy R x ops).shape (embed ops ix) := by
  rw [inB_iff]
  have hn := padBy_ndim R ops x
  simp only [Tensor.ndim] at hn
  refine ⟨by simp [embed, hix.length_eq, hn], ?_⟩
  intro k hk
  rw [hn] at hk
  have hl := hix.lt hk
  rw [embed, getD_map_range (by rw [hix.length_eq]; exact hk), padBy_shape R hnd x hlt]
  simp only [beforeAt]
  cases settingAt ops k with
  | none => simpa using hl
  | some s => simp only; omega

theorem padBy_crop (R : AxisPad α → Ext α) {ops : List (Nat × AxisPad α)}
    (h : ∀ o ∈ ops, ∀ n, IsExt (R o.2) n) (hnd : (ops.map Prod.fst).Nodup)
    (x : Tensor α) (hlt : ∀ o ∈ ops, o.1 < x.ndim) {ix : List Nat} (hix : InB x.shape ix) :
    (padBy R x ops).get (embed ops ix) = x.get ix := by
  induction ops generalizing x ix with
  | nil =>
    rw [padBy, List.foldl_nil]
    congr 1
    apply list_ext_getD (by simp [embed])
    intro k hk
    rw [embed, getD_map_range (by simpa [embed] using hk)]
    simp [beforeAt, settingAt]
  | cons o ops ih =>
    have hs := padBy_one_shape R x o
    have hd : o.1 < x.shape.length := hlt o (by simp)
    have hdi : o.1 < ix.length := by rw [hix.length_eq]; exact hd
    rw [List.map_cons, List.nodup_cons] at hnd
    have hixd := hix.lt hd
    have hin : InB (padBy R x [o]).shape (ix.set o.1 (ix.getD o.1 0 + o.2.before)) := by
      rw [hs]; exact hix.set' (by omega)
    have e : embed (o :: ops) ix = embed ops (ix.set o.1 (ix.getD o.1 0 + o.2.before)) := by
      apply list_ext_getD (by simp [embed])
      intro k hk
      have hk' : k < ix.length := by simpa [embed] using hk
      rw [embed, getD_map_range hk', embed, getD_map_range (by simpa using hk'),
        getD_set _ _ _ _ _ hdi]
      simp only [beforeAt, settingAt]
      by_cases hko : k = o.1
      · subst hko
        rw [if_pos rfl, if_pos rfl, settingAt_none hnd.1]
        simp
      · rw [if_neg (Ne.symm hko), if_neg hko]
    rw [padBy_cons, e, ih (fun o' ho' => h o' (by simp [ho'])) hnd.2 _
      (fun o' ho' => by have := hlt o' (by simp [ho']); simpa [Tensor.ndim, hs] using this) hin]
    rw [padBy, List.foldl_cons, List.foldl_nil]
    split_ifs with hz
    · rw [hz.1, Nat.add_zero, set_getD_self]
    · simp only [extendAxis]
      rw [get_ofFn (hix.set' (by omega)), getD_set_self _ _ _ _ hdi,
        h o (by simp) _ _ _ (by omega) (by omega)]
      have e2 : (((ix.getD o.1 0 + o.2.before : Nat) : Int) - o.2.before).toNat = ix.getD o.1 0 := by omega
      rw [e2, List.set_set, set_getD_self]

/-- a 1-d function that fills the lines of a region with a rule computes the rule -/
theorem computes_of_applyExt {f : PadFn α} {b a : Nat} {E : Ext α}
    (h : ∀ (y : Tensor α) (W : List (Nat × Nat)) (d tail : Nat), WinOK W y.shape → d < W.length →
      W.getD d (0, 0) = (b, tail) → b < tail → y.shape.getD d 0 = tail + a →
      f y (idxOf W) d = .ok (applyExt E b tail y W d 0 (y.shape.getD d 0))) : Computes f b a E := by
  intro y W d hl hW hd hb hlt hN
  obtain ⟨head, tail, hwin⟩ : ∃ head tail, W.getD d (0, 0) = (head, tail) := ⟨_, _, rfl⟩
  rw [hwin] at hb hlt hN
  simp only at hb hlt hN
  subst hb
  refine ⟨_, h y W d tail (winOK_of hl hW) hd hwin hlt hN, rfl, ?_⟩
  intro ix hix hbox
  have hin : InWin (W.set d (0, y.shape.getD d 0)) ix := by
    rw [inWin_iff]
    refine ⟨by rw [hix.length_eq, List.length_set, hl], ?_⟩
    intro k hk
    rw [List.length_set] at hk
    rw [getD_set _ _ _ _ _ hd]
    split_ifs with hkd
    · subst hkd
      exact ⟨by simp, hix.lt (by omega)⟩
    · exact hbox k hk hkd
  rw [applyExt, fill, get_ofFn hix, if_pos hin, hwin]

end TI
