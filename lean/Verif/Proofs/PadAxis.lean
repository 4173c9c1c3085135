import Verif.Proofs.IdxCongr
import Verif.Proofs.PadLaws

/-!
# `pad_axis`, empty axes, and mode `zeros`
-/

namespace TI
open Tensor Spec

set_option linter.unusedSectionVars false

variable {α : Type}

section Axis
variable [Field α] [LinearOrder α] [IsStrictOrderedRing α]
variable {p : Padder α} {x : Tensor α} {s : AxisPad α} {a : Nat} {i axis : Int}

theorem fillValue1d_congr {np : Bool} {S : List Nat} {d : Nat} {idx idx' : List PySlice} (h : SameIdx S d idx idx')
    {y : Tensor α} (hy : y.shape = S) (hr : Reads p i s) (hm : ∀ f, s.mode ≠ .custom f) :
    (p.fillValue1d np y i (d : Int) (some idx)).map Prod.fst =
      (p.fillValue1d np y i (d : Int) (some idx')).map Prod.fst := by
  have hrun := runMode_congr p np i hm h hy
  simp only [Padder.fillValue1d, hr.width, bind, Except.bind, hr.mode]
  split_ifs
  · rfl
  · generalize hmm : s.mode = m at *
    cases m <;> try rfl
    all_goals
      first
      | exact absurd rfl (hm _)
      | (cases hax : Padder.axisNat y.ndim (d : Int) with
          | error e => rfl
          | ok k =>
            have hk : k = d := by
              simp only [Padder.axisNat] at hax
              split_ifs at hax
              injection hax with hax
              omega
            subst hk
            simp only [hrun, Padder.widen, h.bnd]
            cases p.runMode np i _ y idx' k with
            | error e => rfl
            | ok z =>
              simp only [bind, Except.bind]
              cases bounds idx' k with
              | error e => rfl
              | ok b => rfl)

theorem wlen_axis {S : List Nat} {a b n L : Nat} (ha : a < S.length) (hn : S.getD a 0 = n) :
    wlen (((S.set a L).map fun n => (0, n)).set a (b, b + n)) = S := by
  apply list_ext_getD (by simp [length_wlen])
  intro k hk
  rw [length_wlen] at hk
  rw [getD_wlen hk]
  have hk' : k < S.length := by simpa using hk
  by_cases hka : k = a
  · subst hka
    rw [getD_set_self _ _ _ _ (by simpa using hk'), hn]
    simp
  · rw [getD_set_ne _ _ _ _ _ hka]
    have : (S.set a L).getD k 0 = S.getD k 0 := getD_set_ne _ _ _ _ _ hka
    simp only [List.getD_eq_getElem?_getD, List.getElem?_map] at this ⊢
    rw [List.getElem?_eq_getElem (show k < (S.set a L).length by simpa using hk')] at this ⊢
    rw [List.getElem?_eq_getElem hk'] at this ⊢
    simp only [Option.getD_some, Option.map_some] at this ⊢
    omega

/-- `pad_axis` extends one axis, except for `periodize` on an axis of odd length -/
theorem padAxis_spec (hr : Reads p i s) (ha : normAxis x.ndim axis = some a)
    (hv : ¬ (s.before = 0 ∧ s.after = 0) → s.rule? ≠ none ∧ s.mode ≠ .zeros ∧ 0 < x.shape.getD a 0)
    (hp : s.mode.isPeriodize = true → x.shape.getD a 0 % 2 = 0) (junk : List Nat → α) :
    p.padAxis junk x i axis = .ok (padStep x (a, s)) := by
  have hlt := normAxis_lt ha
  have hlt' : a < x.shape.length := hlt
  simp only [Padder.padAxis, normAxis_eq ha, hr.width, bind, Except.bind]
  by_cases hz : s.before = 0 ∧ s.after = 0
  · rw [if_pos (by omega), padStep, if_pos hz]; rfl
  · obtain ⟨hv1, hv2, hn⟩ := hv hz
    have hax : Padder.axisNat x.ndim (a : Int) = .ok a := by
      rw [Padder.axisNat, if_pos (by omega)]; simp
    rw [if_neg (by omega), hax]
    simp only
    obtain ⟨n, hnn⟩ : ∃ n, x.shape.getD a 0 = n := ⟨_, rfl⟩
    rw [hnn] at hn hp ⊢
    rw [if_neg (by omega)]
    have e1 : ((s.before : Int) + n + s.after).toNat = s.before + n + s.after := by omega
    have e2 : (s.before : Int) + n = ((s.before + n : Nat) : Int) := by omega
    rw [e1, e2]
    set L := s.before + n + s.after with hL
    set S := x.shape.set a L with hS
    have hSl : S.length = x.shape.length := by simp [hS]
    have hSa : S.getD a 0 = L := getD_set_self _ _ _ _ hlt'
    have hyS : (Tensor.empty junk S).shape = S := rfl
    have hsame := sameIdx_makeIdx (S := S) (d := a) (lo := s.before) (hi := s.before + n) (by omega) (by omega)
      (by rw [hSa]; omega)
    have hnd : x.ndim = S.length := by rw [hSl]; rfl
    set W := (S.map fun n => (0, n)).set a (s.before, s.before + n) with hWdef
    have hWlen : W.length = S.length := by simp [hWdef]
    have hW : WinOK W (Tensor.empty junk S).shape := by
      refine WinOK.set ?_ (by omega) (by rw [hyS, hSa]; omega)
      rw [WinOK, hyS, List.forall₂_map_left_iff]
      exact List.forall₂_same.2 (fun n _ => ⟨Nat.zero_le _, le_refl _⟩)
    have hwin : W.getD a (0, 0) = (s.before, s.before + n) := getD_set_self _ _ _ _ (by simp; omega)
    have hwl : wlen W = x.shape := wlen_axis hlt' hnn
    obtain ⟨y', hy1, hy2, hy3, _⟩ := restrict_setSlice hW hwl
    rw [hnd, show (Tensor.empty junk S).setSlice (makeIdx (.between (s.before : Int) ((s.before + n : Nat) : Int)) a S.length) x = _
      from setSlice_congr hsame.whole, hy1]
    simp only
    have hN : y'.shape.getD a 0 =
        s.before + n + s.after + (if s.mode.isPeriodize then (s.before + n - s.before) % 2 else 0) := by
      rw [hy2, hyS, hSa, hL]
      split_ifs with h
      · have := hp h
        rw [Nat.add_sub_cancel_left]; omega
      · rfl
    have hval := valued_of_rule hv1 hv2
    obtain ⟨E, hE1, hE2, hE3⟩ := fillValue1d_spec (np := false) (W := W) (d := a) hr hval hz (by rw [hy2]; exact hW)
      (by rw [hWlen]; omega) hwin (by omega) rfl hN
    have hc := fillValue1d_congr (np := false) hsame (y := y') (p := p) (i := i) (s := s) (by rw [hy2, hyS]) hr
      (by intro f hf; simp [AxisPad.rule?, hf] at hv1)
    rw [hE3] at hc
    cases hfv : p.fillValue1d false y' i (a : Int) (some (makeIdx (.between (s.before : Int) ((s.before + n : Nat) : Int)) a S.length)) with
    | error e => rw [hfv] at hc; cases hc
    | ok r =>
      rw [hfv] at hc
      simp only [Except.map, Except.ok.injEq] at hc
      simp only [pure, Except.pure]
      rw [hc, padStep, if_neg hz]
      simp only [hE1]
      congr 1
      have hra := restrict_applyExt (y := y') (W := W) (d := a) (E := E) (head := s.before) (tail := s.before + n)
        (by rw [hy2]; exact hW) (by rw [hWlen]; omega) hwin (N := y'.shape.getD a 0) rfl hE2
      have hfull : restrict (applyExt E s.before (s.before + n) y' W a 0 (y'.shape.getD a 0))
          (W.set a (0, y'.shape.getD a 0)) = applyExt E s.before (s.before + n) y' W a 0 (y'.shape.getD a 0) := by
        have hsh : (applyExt E s.before (s.before + n) y' W a 0 (y'.shape.getD a 0)).shape = S := by
          rw [← hyS, ← hy2]; rfl
        apply restrict_full
        · intro k hk
          rw [hsh] at hk ⊢
          by_cases hka : k = a
          · subst hka
            rw [getD_set_self _ _ _ _ (by rw [hWlen]; exact hk), hy2, hyS]
          · rw [getD_set_ne _ _ _ _ _ hka, hWdef, getD_set_ne _ _ _ _ _ hka]
            simp [List.getD_eq_getElem?_getD, List.getElem?_map, List.getElem?_eq_getElem hk]
        · rw [hsh]; simp [hWlen]
      rw [hfull, hy3] at hra
      rw [hra]
      congr 1
      rw [hN, AxisPad.total, if_neg hz, hnn]
      simp only [Nat.add_sub_cancel_left]
      omega

end Axis

/-! ### empty axes -/

section EmptyAxis

theorem circularBefore_diverges [Zero α] {W : List (Nat × Nat)} {d tail curr : Nat} :
    ∀ (fuel : Nat) (y : Tensor α), WinOK W y.shape → curr ≤ y.shape.getD d 0 → tail ≤ y.shape.getD d 0 →
      0 < curr → circularBefore (fun s => modifyIdx s (idxOf W) d) (tail : Int) 0 fuel y (curr : Int) =
        .error .diverge := by
  intro fuel
  induction fuel with
  | zero => intro y _ _ _ h; rw [circularBefore, if_pos (by omega)]
  | succ fuel ih =>
    intro y hW h1 h2 h0
    rw [circularBefore, if_pos (by omega)]
    have e : min (curr : Int) 0 = 0 := by omega
    simp only [e, sub_zero, bind, Except.bind]
    have hr1 := resolveAll_modify hW (d := d) (a := curr) (b := curr) (.between (curr : Int) curr)
      (resolve_between (le_refl _) h1)
    have hr2 := resolveAll_modify hW (d := d) (a := tail) (b := tail) (.between (tail : Int) tail)
      (resolve_between (le_refl _) h2)
    have hsh : wlen (W.set d (tail, tail)) = wlen (W.set d (curr, curr)) := by
      simp [wlen, List.map_set]
    rw [getSlice_win hr2, setSlice_win hr1 (by rw [shape_ofFn, hsh]; exact bcastable_self _)]
    exact ih _ hW h1 h2 h0

end EmptyAxis

/-! ### mode `zeros` -/

section Zeros
variable [Field α] [LinearOrder α] [IsStrictOrderedRing α]
variable {p : Padder α} {x : Tensor α} {ax : Axes} {axes : List Nat} {ss : List (AxisPad α)}

theorem fillLoop_zeros (axs : List Int) :
    ∀ (ops : List (Nat × AxisPad α)) (is : List Int) (y : Tensor α) (idx : Option (List PySlice)),
    List.Forall₂ (fun i (o : Nat × AxisPad α) => pyIndex axs i = .ok (o.1 : Int) ∧ Reads p i o.2) is ops →
    (∀ o ∈ ops, ¬ (o.2.before = 0 ∧ o.2.after = 0) → o.2.mode = .zeros) →
    p.fillLoop axs is y idx = .ok y := by
  intro ops
  induction ops with
  | nil => intro is y idx h _; cases h; rfl
  | cons o ops ih =>
    intro is y idx h hm
    cases h with
    | cons h1 h2 =>
      rename_i i is
      rw [Padder.fillLoop, h1.1]
      simp only [bind, Except.bind]
      by_cases hz : o.2.before = 0 ∧ o.2.after = 0
      · rw [fillValue1d_zero h1.2 hz]
        exact ih is y idx h2 (fun o' ho' => hm o' (by simp [ho']))
      · have hmz := hm o (by simp) hz
        have : p.fillValue1d true y i (o.1 : Int) idx = .ok (y, none) := by
          have hm' := h1.2.mode
          rw [hmz] at hm'
          simp only [Padder.fillValue1d, h1.2.width, bind, Except.bind, hm']
          rw [if_neg (by omega)]
          rfl
        rw [this]
        exact ih is y none h2 (fun o' ho' => hm o' (by simp [ho']))

theorem Spec.PadReq.len_le (h : PadReq p x ax axes ss) : ss.length ≤ axes.length := by
  have := h.len
  split_ifs at this <;> omega

/-- the operations of a request, as `forward` sees them -/
theorem Spec.PadReq.forall₂ (h : PadReq p x ax axes ss) :
    List.Forall₂ (fun i (o : Nat × AxisPad α) => pyIndex (castV axes) i = .ok (o.1 : Int) ∧ Reads p i o.2)
      (Padder.negRange (p.nPadded (castV axes))) (zipRight axes ss) := by
  have hle := h.len_le
  have hk : p.nPadded (castV axes) = ss.length := by
    rw [h.len, Padder.nPadded]; simp [castV]
  rw [hk, List.forall₂_iff_get]
  refine ⟨by simp [Padder.negRange, zipRight]; omega, ?_⟩
  intro j h1 h2
  have hj : j < ss.length := by simpa [Padder.negRange] using h1
  have e : (Padder.negRange ss.length).get ⟨j, h1⟩ = (j : Int) - ss.length := by
    simp [Padder.negRange]
  rw [e]
  have e2 : (zipRight axes ss).get ⟨j, h2⟩ =
      (axes[axes.length - ss.length + j]'(by omega), ss[j]) := by
    simp [zipRight, List.getElem_drop]
  rw [e2]
  refine ⟨?_, h.reads j hj⟩
  rw [pyIndex_neg (by simpa [castV] using hle) hj]
  simp [castV]

/-- Requests whose widened axes all have mode `zeros`: the padded samples are what the allocator left there -/
theorem forward_zeros (h : PadReq p x ax axes ss)
    (hm : ∀ s ∈ ss, ¬ (s.before = 0 ∧ s.after = 0) → s.mode = .zeros) (junk : List Nat → α) :
    ∃ y, p.forward junk x ax = .ok y ∧
      (∀ k, k < x.shape.length → y.shape.getD k 0 = match settingAt (zipRight axes ss) k with
        | some s => s.before + x.shape.getD k 0 + s.total (x.shape.getD k 0)
        | none => x.shape.getD k 0) ∧
      (∀ ix, InB x.shape ix → y.get (embed (zipRight axes ss) ix) = x.get ix) ∧
      ∀ ix, InB y.shape ix → ¬ Inside x.shape (zipRight axes ss) ix → y.get ix = junk ix := by
  have hc := checkAxes_spec h.axes_eq
  have hle := h.len_le
  have hnd := zipRight_nodup (α := α) h.nodup hle
  have hms : ∀ o ∈ zipRight axes ss, ¬ (o.2.before = 0 ∧ o.2.after = 0) → o.2.mode = .zeros :=
    fun o ho => hm o.2 (zipRight_mem ho).2
  have hlt : ∀ o ∈ zipRight axes ss, o.1 < x.ndim := fun o ho => hc.2 _ (zipRight_mem ho).1
  have htriv : p.forward junk x ax = .ok x → (∀ o ∈ zipRight axes ss, o.2.before = 0 ∧ o.2.after = 0) →
      ∃ y, p.forward junk x ax = .ok y ∧
      (∀ k, k < x.shape.length → y.shape.getD k 0 = match settingAt (zipRight axes ss) k with
        | some s => s.before + x.shape.getD k 0 + s.total (x.shape.getD k 0)
        | none => x.shape.getD k 0) ∧
      (∀ ix, InB x.shape ix → y.get (embed (zipRight axes ss) ix) = x.get ix) ∧
      ∀ ix, InB y.shape ix → ¬ Inside x.shape (zipRight axes ss) ix → y.get ix = junk ix := by
    intro h1 h2
    refine ⟨x, h1, ?_, ?_, ?_⟩
    · intro k hk
      cases hs : settingAt (zipRight axes ss) k with
      | none => rfl
      | some s =>
        have := h2 _ (settingAt_mem hs)
        simp only at this
        have ht : s.total (x.shape.getD k 0) = 0 := by rw [AxisPad.total, if_pos this]
        simp only [ht, this.1]
        omega
    · intro ix hix
      congr 1
      apply list_ext_getD (by simp [embed])
      intro k hk
      have hk : k < ix.length := by simpa [embed] using hk
      rw [embed, getD_map_range hk, beforeAt]
      cases hs : settingAt (zipRight axes ss) k with
      | none => rfl
      | some s =>
        have : s.before = 0 := (h2 _ (settingAt_mem hs)).1
        simp only [this, Nat.add_zero]
    · intro ix hix hout
      exfalso
      apply hout
      intro q hq
      rw [(h2 q hq).1]
      exact ⟨Nat.zero_le _, by rw [Nat.zero_add]; exact (inB_iff.1 hix).2 _ (hlt q hq)⟩
  by_cases hne : axes = []
  · have h0 : ss = [] := by
      apply List.length_eq_zero_iff.1
      rw [hne] at hle; simpa using hle
    subst h0
    have : castV axes = [] := by rw [hne]; rfl
    apply htriv
    · simp [Padder.forward, h.ndim_ne, hc.1, this, bind, Except.bind, pure, Except.pure]
    · intro o ho; simp [zipRight] at ho
  · rcases forward_prefix p junk x ax (castV axes) (zipRight axes ss) h.ndim_ne hc.1 (by simpa [castV] using hne)
      h.forall₂ hnd hlt with ⟨h1, h2⟩ | ⟨y', W, h1, hW, h3, h4, h5, h6⟩
    · exact htriv h1 h2
    · have hWl : W.length = x.shape.length := by
        have := congrArg (fun t : Tensor α => t.shape.length) h3
        simpa [restrict, length_wlen] using this
      have hWk : ∀ k, k < x.shape.length → W.getD k (0, 0) =
          (beforeAt (zipRight axes ss) k, beforeAt (zipRight axes ss) k + x.shape.getD k 0) := by
        intro k hk
        rw [beforeAt]
        cases hs : settingAt (zipRight axes ss) k with
        | none =>
          have hkn : k ∉ (zipRight axes ss).map Prod.fst := by
            intro hk'
            obtain ⟨o, ho, rfl⟩ := List.mem_map.1 hk'
            rw [settingAt_some hnd ho] at hs
            cases hs
          rw [(h5 k hk hkn).1]; simp
        | some s => exact (h4 _ (settingAt_mem hs)).1
      refine ⟨y', ?_, ?_, ?_, ?_⟩
      · rw [h1, fillLoop_zeros _ _ _ _ _ h.forall₂ hms]
      · intro k hk
        cases hs : settingAt (zipRight axes ss) k with
        | none =>
          have hkn : k ∉ (zipRight axes ss).map Prod.fst := by
            intro hk'
            obtain ⟨o, ho, rfl⟩ := List.mem_map.1 hk'
            rw [settingAt_some hnd ho] at hs
            cases hs
          exact (h5 k hk hkn).2
        | some s => exact (h4 _ (settingAt_mem hs)).2
      · intro ix hix
        rw [← h3] at hix ⊢
        rw [restrict, shape_ofFn] at hix
        rw [restrict, get_ofFn hix]
        congr 1
        have hl : ix.length = W.length := by rw [hix.length_eq, length_wlen]
        apply list_ext_getD (by rw [length_shift hl]; simp [embed, hl])
        intro k hk
        have hk : k < ix.length := by simpa [embed] using hk
        rw [embed, getD_map_range hk, getD_shift hl (by omega), hWk k (by omega)]
        simp only
        omega
      · intro ix hix hout
        apply h6 ix hix
        intro hin
        apply hout
        intro q hq
        have hq1 : q.1 < W.length := by rw [hWl]; exact hlt q hq
        have := (inWin_iff.1 hin).2 q.1 hq1
        rw [(h4 q hq).1] at this
        exact this

end Zeros

end TI
