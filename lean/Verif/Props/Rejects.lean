import Verif.Props.PadMisc
import Verif.Props.PoolMore
import Verif.Props.EdgeLoss
import Verif.Props.NdSpec
import Verif.Props.Shapes
import Verif.Props.PadQuiet

/-!
# C126: arguments that are refused, and the exceptions raised
-/

set_option linter.unusedSectionVars false

namespace TI
open Spec

/-! ## lists with a bad item -/

theorem recApplyList_bad {α β : Type} {func : Py α → Except Err (Py β)} {e : Err} : ∀ {l : List (Py α)},
    (∃ b ∈ l, func b = .error e) → (∀ b ∈ l, ∀ e', func b = .error e' → e' = e) → recApplyList func 0 l = .error e
  | [], h, _ => by simp at h
  | b :: l, h, hall => by
    rw [recApplyList, recApply]
    cases hb : func b with
    | error e' => simp only; rw [hall b (by simp) e' hb]
    | ok c =>
      simp only
      rw [recApplyList_bad (l := l)]
      · obtain ⟨d, hd, hd'⟩ := h
        rcases List.mem_cons.1 hd with rfl | hd
        · rw [hb] at hd'; cases hd'
        · exact ⟨d, hd, hd'⟩
      · exact fun d hd => hall d (by simp [hd])

section
variable {α : Type}

theorem readStride_bad (ks : NdSpec (Option Int)) {st : Given Int} (hbad : ∃ s ∈ st.values, s < 1) :
    SepPool.readStride ks (st.toPy fun s => .leaf (some s)) = .error .value := by
  cases st with
  | one s =>
    obtain ⟨t, ht, hlt⟩ := hbad
    simp only [Given.values, List.mem_singleton] at ht
    subst ht
    simp only [SepPool.readStride, Given.toPy, ofItem_leaf0, bind, Except.bind, NdSpec.map, NdSpec.itemShape, List.drop_zero,
      List.length_nil, Nat.sub_self, recApply, checkStride, if_pos hlt]
  | many l =>
    have hne : l ≠ [] := by rintro rfl; simp [Given.values] at hbad
    have h1 : NdSpec.ofItem [] (.seq (l.map fun s => Py.leaf (some s))) =
        .ok ⟨.seq (l.map fun s => .leaf (some s)), [(l.length : Int)], 1⟩ := by
      have := ofItem_leaves (l := l.map some) (by simpa using hne)
      rw [List.map_map, List.length_map] at this
      exact this
    have h2 : recApplyList checkStride 0 (l.map fun s => Py.leaf (some s)) = .error .value := by
      apply recApplyList_bad
      · obtain ⟨s, hs, hlt⟩ := hbad
        exact ⟨.leaf (some s), List.mem_map.2 ⟨s, hs, rfl⟩, by rw [checkStride, if_pos hlt]⟩
      · intro b hb e' he'
        obtain ⟨s, _, rfl⟩ := List.mem_map.1 hb
        rw [checkStride] at he'
        split_ifs at he'
        cases he'
        rfl
    simp only [SepPool.readStride, Given.toPy, h1, bind, Except.bind, NdSpec.map, NdSpec.itemShape, List.drop_one, List.tail_cons,
      List.length_singleton, List.length_nil, Nat.sub_zero, recApply, h2]

/-- **C126** (strides). A pool built with a stride below one, for all axes or for one of them, is refused with ValueError. -/
theorem C126_stride {kernel : Given (List α)} {m : Nat} (hm : 0 < m) (hk : kernel.Fits m) {st : Given Int}
    (hbad : ∃ s ∈ st.values, s < 1) :
    SepPool.init (kernel.toPy PoolArgs.pyKernel) (st.toPy fun s => .leaf (some s)) = .error .value := by
  obtain ⟨k, e1, h1⟩ := ofItem_kernel hm hk
  obtain ⟨ks, e2, _⟩ := h1.map (func := SepPool.itemLen) (f' := PoolArgs.pyStride) (F := fun k => some k.length)
    (by intro b _; simp [SepPool.itemLen, PoolArgs.pyKernel, PoolArgs.pyStride])
  simp only [SepPool.init, e1, bind, Except.bind, SepPool.ofSpec, e2]
  rw [readStride_bad ks hbad]

/-- strides `(1, 0, 2)` -/
example : SepPool.init (.seq [.leaf (1 : ℚ), .leaf 2]) (.seq [.leaf (some 1), .leaf (some 0), .leaf (some 2)]) = .error .value :=
  C126_stride (kernel := .one [1, 2]) (m := 1) (by decide) trivial (st := .many [1, 0, 2]) ⟨0, by simp [Given.values], by decide⟩

/-- **C126** (strides). The same for average pooling, the size given for all axes or for each. -/
theorem C126_stride_average {α : Type} [Field α] [LinearOrder α] [IsStrictOrderedRing α] {size : Given Nat} {m : Nat} (hm : 0 < m) (hk : size.Fits m) {st : Given Int}
    (hbad : ∃ s ∈ st.values, s < 1) :
    (SepPool.avgInit (size.toPy fun k : Nat => Py.leaf (some (k : Int))) (st.toPy fun s => .leaf (some s)) : Except Err (SepPool α)) =
      .error .value := by
  have hne : size.isMany = true → size.values ≠ [] := by
    intro hmany h0
    cases size with
    | one k => cases hmany
    | many l =>
      simp only [Given.values] at h0
      have : l.length = m := hk
      rw [h0] at this
      simp at this
      omega
  obtain ⟨s, e0, h0⟩ : ∃ s, NdSpec.ofItem [] (size.toPy fun k : Nat => Py.leaf (some (k : Int))) = .ok s ∧
      IsSpec s (fun k : Nat => Py.leaf (some (k : Int))) size := by
    cases size with
    | one k => exact ⟨_, ofItem_leaf0 _, rfl, rfl⟩
    | many l =>
      have := ofItem_leaves (l := l.map fun k : Nat => some (k : Int)) (by simpa [Given.values] using hne rfl)
      rw [List.map_map, List.length_map] at this
      exact ⟨_, this, rfl, rfl, [], rfl⟩
  obtain ⟨k, e1, h1⟩ := h0.map (func := SepPool.avgItem (α := α)) (f' := PoolArgs.pyKernel)
    (F := fun k => List.replicate k (1 / (k : α))) (by
      intro b _
      simp only [SepPool.avgItem, PoolArgs.pyKernel]
      rw [if_neg (by omega)]
      simp)
  obtain ⟨ks, e2, _⟩ := h1.map (func := SepPool.itemLen) (f' := PoolArgs.pyStride) (F := fun k => some k.length)
    (by intro b _; simp [SepPool.itemLen, PoolArgs.pyKernel, PoolArgs.pyStride])
  simp only [SepPool.avgInit, e0, e1, bind, Except.bind, SepPool.ofSpec, e2]
  rw [readStride_bad ks hbad]

end

/-! ## padding -/

section
variable {α : Type} [Field α] [LinearOrder α] [IsStrictOrderedRing α]

/-- **C126** (no axes to pad). A tensor without axes is refused by `Padder.forward` (AssertionError), whatever the padder. -/
theorem C126_pad_scalar (p : Padder α) (junk : List Nat → α) {x : Tensor α} (hx : x.ndim = 0) (ax : Axes) :
    p.forward junk x ax = .error .assertion := by
  simp only [Padder.forward, if_pos hx, bind, Except.bind]

example (p : Padder ℚ) : p.forward (fun _ => 0) (Tensor.scalar 3) .none = .error .assertion := C126_pad_scalar p _ rfl _

theorem negRange_one {p : Padder α} {a : Int} : Padder.negRange (p.nPadded [a]) = [-1] := by
  have : p.nPadded [a] = 1 := by
    rw [Padder.nPadded]
    split_ifs with h
    · simp; omega
    · rfl
  rw [this]; decide

/-- **C126** (missing axis, padding). Padding along an axis the tensor does not have raises IndexError if the width is not zero;
with width zero the tensor is returned although the axis does not exist. -/
theorem C126_pad_axis {p : Padder α} {x : Tensor α} (hx : x.ndim ≠ 0) {a : Int} (ha : x.ndim ≤ a)
    {w : Int × Int} (hw : Padder.pairAt p.padWidth (-1) = .ok w) (junk : List Nat → α) :
    p.forward junk x (.int a) = if w.1 = 0 ∧ w.2 = 0 then .ok x else .error .index := by
  have ha0 : a ≥ 0 := by omega
  simp only [Padder.forward, if_neg hx, bind, Except.bind, checkAxes, if_pos ha0, List.cons_ne_nil, if_false, pure, Except.pure,
    negRange_one, Padder.accLoop, Padder.accStep, hw]
  by_cases hz : w.1 = 0 ∧ w.2 = 0
  · simp only [if_pos hz]
    rw [if_pos]
    apply List.ext_getElem (by simp)
    intro i h1 h2
    simp
  · simp only [if_neg hz]
    have : pyIndex [a] (-1) = .ok a := by simp [pyIndex]
    simp only [this, Padder.axisNat]
    rw [if_neg (by rw [show x.shape.length = x.ndim from rfl]; omega)]

/-- width one along axis 2 of a matrix -/
example : ((Example.modeArgs .constant).padder 1).forward (fun _ => (0 : ℚ)) Example.x (.int 2) =
      (match Padder.pairAt ((Example.modeArgs .constant).padder 1).padWidth (-1) with
        | .ok w => if w.1 = 0 ∧ w.2 = 0 then .ok Example.x else .error .index
        | .error e => .error e) := by
  obtain ⟨w, hw⟩ : ∃ w, Padder.pairAt ((Example.modeArgs .constant).padder 1).padWidth (-1) = .ok w := ⟨_, rfl⟩
  rw [C126_pad_axis (by decide) (by decide) hw, hw]

theorem fillValue1d_unknown {p : Padder α} {np : Bool} {i : Int} {s : AxisPad α} (hr : Reads p i s) (hw : s.widened) (hm : s.mode = .unknown)
    (y : Tensor α) (d : Int) (idx : Option (List PySlice)) : p.fillValue1d np y i d idx = .error .value := by
  simp only [Padder.fillValue1d, hr.width, bind, Except.bind, hr.mode, hm, pure, Except.pure]
  rw [if_neg (by intro h; exact hw (by omega))]

/-- **C126** (unknown mode, one axis). A mode name that is not known raises ValueError as soon as something has to be padded. -/
theorem C126_unknown_mode_axis {p : Padder α} {i axis : Int} {s : AxisPad α} (hr : Reads p i s) {x : Tensor α} {a : Nat}
    (ha : normAxis x.ndim axis = some a) (hnz : s.widened) (hm : s.mode = .unknown) (junk : List Nat → α) :
    p.padAxis junk x i axis = .error .value := by
  have hlt := normAxis_lt ha
  have hlt' : a < x.shape.length := hlt
  have hz : ¬ (s.before = 0 ∧ s.after = 0) := hnz
  simp only [Padder.padAxis, normAxis_eq ha, hr.width, bind, Except.bind]
  rw [if_neg (by omega)]
  have hax : Padder.axisNat x.ndim (a : Int) = .ok a := by
    rw [Padder.axisNat, if_pos (by omega)]; simp
  rw [hax]
  simp only
  obtain ⟨n, hnn⟩ : ∃ n, x.shape.getD a 0 = n := ⟨_, rfl⟩
  rw [hnn]
  rw [if_neg (by omega)]
  have e1 : ((s.before : Int) + n + s.after).toNat = s.before + n + s.after := by omega
  have e2 : (s.before : Int) + n = ((s.before + n : Nat) : Int) := by omega
  rw [e1, e2]
  set L := s.before + n + s.after with hL
  set S := x.shape.set a L with hS
  have hSl : S.length = x.shape.length := by simp [hS]
  have hSa : S.getD a 0 = L := getD_set_self _ _ _ _ hlt'
  have hyS : (Tensor.empty junk S).shape = S := rfl
  have hsame := sameIdx_makeIdx (S := S) (d := a) (lo := s.before) (hi := s.before + n) (by omega) (by omega)
    (by rw [hSa]; omega)
  have hnd : x.ndim = S.length := by rw [hSl]; rfl
  set W := (S.map fun n => (0, n)).set a (s.before, s.before + n) with hWdef
  have hW : WinOK W (Tensor.empty junk S).shape := by
    refine WinOK.set ?_ (by omega) (by rw [hyS, hSa]; omega)
    rw [WinOK, hyS, List.forall₂_map_left_iff]
    exact List.forall₂_same.2 (fun n _ => ⟨Nat.zero_le _, le_refl _⟩)
  have hwl : wlen W = x.shape := wlen_axis hlt' hnn
  obtain ⟨y', hy1, -, -, -⟩ := restrict_setSlice hW hwl
  rw [hnd, show (Tensor.empty junk S).setSlice (makeIdx (.between (s.before : Int) ((s.before + n : Nat) : Int)) a S.length) x = _
    from setSlice_congr hsame.whole, hy1]
  simp only
  rw [fillValue1d_unknown hr hnz hm]

/-- a lost region does not hide an unknown mode -/
theorem fillLoop_lost_unknown {p : Padder α} {axs : List Int} : ∀ (pre : List (Nat × AxisPad α)) (o : Nat × AxisPad α)
    (post : List (Nat × AxisPad α)) (is : List Int) (y : Tensor α),
    List.Forall₂ (fun i (o : Nat × AxisPad α) => pyIndex axs i = .ok (o.1 : Int) ∧ Reads p i o.2) is (pre ++ o :: post) →
    (∀ o ∈ pre, o.2.widened → o.2.quiet = true) → o.2.widened → o.2.mode = .unknown → p.fillLoop axs is y none = .error .value
  | [], o, post, _, y, hf, _, hw, hm => by
    cases hf with
    | @cons i _ is _ h1 hf =>
      rw [Padder.fillLoop, h1.1]
      simp only [bind, Except.bind]
      rw [fillValue1d_unknown h1.2 hw hm]
  | q :: pre, o, post, _, y, hf, hq, hw, hm => by
    cases hf with
    | @cons i _ is _ h1 hf =>
      rw [Padder.fillLoop, h1.1]
      simp only [bind, Except.bind]
      have ih := fillLoop_lost_unknown pre o post is y hf (fun o' ho' => hq o' (by simp [ho'])) hw hm
      by_cases hz : q.2.before = 0 ∧ q.2.after = 0
      · rw [fillValue1d_zero h1.2 hz]; exact ih
      · rcases quiet_cases (hq q (by simp) hz) with h | h
        · rw [fillValue1d_empty h1.2 hz h]; exact ih
        · rw [fillValue1d_zeros h1.2 hz h]; exact ih

/-- the first unknown mode, after axes on which the loop succeeds -/
theorem fillLoop_unknown (p : Padder α) (axs : List Int) (o : Nat × AxisPad α) (post : List (Nat × AxisPad α)) (hw : o.2.widened)
    (hm : o.2.mode = .unknown) :
    ∀ (pre : List (Nat × AxisPad α)) (is : List Int) (y : Tensor α) (W : List (Nat × Nat)),
    List.Forall₂ (fun i (o : Nat × AxisPad α) => pyIndex axs i = .ok (o.1 : Int) ∧ Reads p i o.2) is (pre ++ o :: post) →
    WinOK W y.shape → (pre.map Prod.fst).Nodup →
    (∀ o ∈ pre, o.1 < W.length ∧
      (o.2.widened → o.2.quiet = true ∨ o.2.mode.valued = true ∧ (W.getD o.1 (0, 0)).1 < (W.getD o.1 (0, 0)).2) ∧
      (W.getD o.1 (0, 0)).1 = o.2.before ∧
      y.shape.getD o.1 0 = (W.getD o.1 (0, 0)).2 + o.2.total ((W.getD o.1 (0, 0)).2 - (W.getD o.1 (0, 0)).1)) →
    ZerosLast pre → p.fillLoop axs is y (some (idxOf W)) = .error .value := by
  intro pre
  induction pre with
  | nil =>
    intro is y W hf _ _ _ _
    cases hf with
    | @cons i _ is _ h1 hf =>
      simp only [Padder.fillLoop, h1.1, bind, Except.bind]
      rw [fillValue1d_unknown h1.2 hw hm]
  | cons q pre ih =>
    intro is y W hf hW hnd hops hzl
    cases hf with
    | @cons i _ is _ h1 hf =>
    obtain ⟨hd, hval, hbef, htot⟩ := hops q (by simp)
    have hnotin : q.1 ∉ pre.map Prod.fst := by
      rw [List.map_cons, List.nodup_cons] at hnd; exact hnd.1
    have hnd' : (pre.map Prod.fst).Nodup := by
      rw [List.map_cons, List.nodup_cons] at hnd; exact hnd.2
    obtain ⟨hz1, hz2⟩ := List.pairwise_cons.1 hzl
    simp only [Padder.fillLoop, h1.1, bind, Except.bind]
    by_cases hz : q.2.before = 0 ∧ q.2.after = 0
    · rw [fillValue1d_zero h1.2 hz]
      exact ih is y W hf hW hnd' (fun o' ho' => hops o' (by simp [ho'])) hz2
    · cases hq : q.2.quiet with
      | true =>
        rcases quiet_cases hq with h | h
        · rw [fillValue1d_empty h1.2 hz h]
          exact ih is y W hf hW hnd' (fun o' ho' => hops o' (by simp [ho'])) hz2
        · rw [fillValue1d_zeros h1.2 hz h]
          exact fillLoop_lost_unknown pre o post is y hf (fun o' ho' => hz1 o' ho' h hz) hw hm
      | false =>
        obtain ⟨hv, hlt⟩ : q.2.mode.valued = true ∧ (W.getD q.1 (0, 0)).1 < (W.getD q.1 (0, 0)).2 := by
          rcases hval hz with h | h
          · rw [hq] at h; cases h
          · exact h
        obtain ⟨head, tail, hwin⟩ : ∃ head tail, W.getD q.1 (0, 0) = (head, tail) := ⟨_, _, rfl⟩
        rw [hwin] at hlt hbef htot
        simp only at hlt hbef htot
        rw [AxisPad.total, if_neg hz] at htot
        obtain ⟨E, hE, hloc, hfill⟩ := fillValue1d_spec (np := true) h1.2 hv hz hW hd hwin hlt hbef (by rw [htot]; omega)
        rw [hfill]
        have hWset : WinOK (W.set q.1 (0, y.shape.getD q.1 0)) y.shape := hW.set (by omega) (by omega)
        refine ih is (applyExt E head tail y W q.1 0 (y.shape.getD q.1 0)) _ hf hWset hnd' ?_ hz2
        intro o' ho'
        have hne : o'.1 ≠ q.1 := by
          intro hc
          exact hnotin (by rw [← hc]; exact List.mem_map_of_mem ho')
        have := hops o' (by simp [ho'])
        rw [List.length_set, getD_set_ne _ _ _ _ _ hne]
        exact this

/-- **C126** (unknown mode). `Padder.forward` raises ValueError at the first widened axis whose mode name is not known, provided the axes
handled before it can be padded (otherwise what they raise comes first); the axes behind it do not matter. -/
theorem C126_unknown_mode {p : Padder α} {x : Tensor α} {ax : Axes} {axes : List Nat} {ss : List (AxisPad α)} (h : PadReq p x ax axes ss)
    {pre post : List (Nat × AxisPad α)} {o : Nat × AxisPad α} (hsplit : zipRight axes ss = pre ++ o :: post)
    (hw : o.2.widened) (hm : o.2.mode = .unknown)
    (hpre : ∀ q ∈ pre, q.2.widened → q.2.quiet = true ∨ q.2.rule? ≠ none ∧ 0 < x.shape.getD q.1 0) (hzl : ZerosLast pre)
    (junk : List Nat → α) : p.forward junk x ax = .error .value := by
  have hc := checkAxes_spec h.axes_eq
  have hle := h.len_le
  have hnd := zipRight_nodup (α := α) h.nodup hle
  have hlt : ∀ o ∈ zipRight axes ss, o.1 < x.ndim := fun o ho => hc.2 _ (zipRight_mem ho).1
  have hne : axes ≠ [] := by
    rintro rfl
    simp [zipRight] at hsplit
  rcases forward_prefix p junk x ax (castV axes) (zipRight axes ss) h.ndim_ne hc.1 (by simpa [castV] using hne)
      h.forall₂ hnd hlt with ⟨h1, h2⟩ | ⟨y', W, h1, hW, h3, h4, h5, h6⟩
  · exact absurd (h2 o (by rw [hsplit]; simp)) hw
  · have hWl : W.length = x.shape.length := by
      have := congrArg (fun t : Tensor α => t.shape.length) h3
      simpa [restrict, length_wlen] using this
    rw [h1]
    have hf := h.forall₂
    rw [hsplit] at hf hnd
    refine fillLoop_unknown p (castV axes) o post hw hm pre _ y' W hf hW ?_ ?_ hzl
    · rw [List.map_append] at hnd
      exact (List.nodup_append.1 hnd).1
    · intro q hq
      have hq' : q ∈ zipRight axes ss := by rw [hsplit]; simp [hq]
      have hk := hlt q hq'
      simp only [Tensor.ndim] at hk
      obtain ⟨e1, e2⟩ := h4 q hq'
      rw [e1, e2, hWl]
      refine ⟨hk, ?_, rfl, by simp only [Nat.add_sub_cancel_left]⟩
      intro hwq
      cases hqq : q.2.quiet with
      | true => exact Or.inl rfl
      | false =>
        right
        rcases hpre q hq hwq with h' | h'
        · rw [hqq] at h'; cases h'
        · exact ⟨valued_of_writing hqq h'.1, by simp only; omega⟩

/-- `mode=["replicate", "replicat"]` -/
example (junk : List Nat → ℚ) : ((QuietExample.pad2 .replicate .unknown).padder 2).forward junk QuietExample.img .none = .error .value := by
  have e : zipRight [0, 1] ((QuietExample.pad2 .replicate .unknown).settings 2 2) =
      [(0, (QuietExample.pad2 .replicate .unknown).entry 0), (1, (QuietExample.pad2 .replicate .unknown).entry 1)] := rfl
  refine C126_unknown_mode (axes := [0, 1]) (ss := (QuietExample.pad2 .replicate .unknown).settings 2 2)
    (req_args (g := QuietExample.pad2 .replicate .unknown) (m := 2) (by decide) ⟨trivial, rfl, trivial, trivial, trivial⟩ (by decide) (by decide)
      (by decide)) (pre := [_]) (post := []) e (by rintro ⟨h, _⟩; cases h) rfl ?_ (List.pairwise_singleton _ _) junk
  intro q hq _
  rw [List.mem_singleton] at hq
  subst hq
  exact Or.inr ⟨by simp [AxisPad.rule?, QuietExample.pad2, PadArgs.entry, Given.entry], by decide⟩

end

/-! ## sliding windows -/

section
variable {α : Type} [Field α]

theorem viewInfer_cases (x : Tensor α) (pre post : List Nat) :
    x.viewInfer pre post = .error .runtime ∨
      numel (pre ++ post) ≠ 0 ∧ ∃ y q, x.viewInfer pre post = .ok y ∧ y.shape = pre ++ [q] ++ post := by
  rw [Tensor.viewInfer]
  split_ifs with h1 h2
  · exact Or.inl rfl
  · rw [Tensor.reshape]
    split_ifs with h3
    · exact Or.inr ⟨h1, _, _, rfl, rfl⟩
    · exact Or.inl rfl
  · exact Or.inl rfl

theorem anyConv1d_bad {x : Tensor α} {w : List α} {dim : Int} {d : Nat} {s dil : Int} (hdim : normAxis x.ndim dim = some d)
    (hbad : ¬ ((∀ n ∈ x.shape, 0 < n) ∧ w ≠ [] ∧ 0 < s ∧ 0 < dil ∧ dil * ((w.length : Int) - 1) < x.shape.getD d 0)) :
    anyConv1d x w dim s dil = .error .runtime := by
  have hd : d < x.shape.length ∧ dim < x.ndim ∧ (dim = (x.ndim : Int) - 1 ∨ dim = -1 ↔ d + 1 = x.shape.length) := by
    rw [normAxis] at hdim
    rw [show x.shape.length = x.ndim from rfl]
    split_ifs at hdim with h1 h2
    · injection hdim; omega
    · injection hdim; omega
  have hconv : convDim x.ndim dim = .ok d := by
    rw [normAxis] at hdim
    simp only [convDim]
    split_ifs at hdim with h1 h2
    · simp only [Option.some.injEq] at hdim
      rw [if_pos h2, if_pos (by omega), hdim]
    · simp only [Option.some.injEq] at hdim
      rw [if_neg h2, if_pos (by omega), hdim]
  -- the last step, when the windows fit
  have hlaststep : ∀ y : Tensor α, w ≠ [] → 0 < s → 0 < dil → dil * ((w.length : Int) - 1) < x.shape.getD d 0 →
      y.viewInfer (x.shape.take d) (x.shape.drop (d + 1)) = .error .runtime := by
    intro y h1 h2 h3 h4
    rcases viewInfer_cases y (x.shape.take d) (x.shape.drop (d + 1)) with h | ⟨h, _⟩
    · exact h
    · exfalso
      apply hbad
      refine ⟨?_, h1, h2, h3, h4⟩
      have hl := List.length_pos_iff.2 h1
      have hnn : 0 ≤ dil * ((w.length : Int) - 1) := mul_nonneg h3.le (by omega)
      have hx : x.shape = x.shape.take d ++ x.shape.getD d 0 :: x.shape.drop (d + 1) := by
        conv_lhs => rw [← List.take_append_drop d x.shape]
        rw [List.drop_eq_getElem_cons hd.1, List.getD_eq_getElem?_getD, List.getElem?_eq_getElem hd.1, Option.getD_some]
      intro n hn
      by_contra hc
      have hn0 : n = 0 := by omega
      subst hn0
      rw [hx, List.mem_append, List.mem_cons] at hn
      have hz : ∀ l : List Nat, 0 ∈ l → numel l = 0 := by
        intro l
        induction l with
        | nil => simp
        | cons a l ih =>
          intro h
          rcases List.mem_cons.1 h with h | h
          · simp [numel, ← h]
          · simp [numel, ih h]
      rcases hn with hn | hn | hn
      · exact h (hz _ (by simp [hn]))
      · omega
      · exact h (hz _ (by simp [hn]))
  simp only [anyConv1d, hconv, bind, Except.bind]
  by_cases hlast : d + 1 = x.shape.length
  · rw [if_pos (Or.comm.1 (hd.2.2.2 hlast))]
    have hl : x.shape.getLastD 0 = x.shape.getD d 0 := by
      rw [List.getLastD_eq_getLast?, List.getLast?_eq_getElem?, List.getD_eq_getElem?_getD]
      congr 2
      omega
    rcases viewInfer_cases x [] [1, x.shape.getLastD 0] with h | ⟨_, y, q, h, hy⟩
    · rw [h]
    · rw [h]
      simp only
      rw [conv1dRow, hy]
      simp only [List.nil_append, List.singleton_append, hl]
      split_ifs with hc
      · rfl
      · push Not at hc
        simp only
        exact hlaststep _ hc.2.2.1 hc.1 hc.2.1 (by omega)
  · rw [if_neg (fun h => hlast (hd.2.2.1 (Or.comm.1 h)))]
    rcases viewInfer_cases x [numel (x.shape.take d), 1, x.shape.getD d 0] [] with h | ⟨_, y, q, h, hy⟩
    · rw [h]
    · rw [h]
      simp only
      rw [conv2dColumn, hy]
      simp only [List.append_nil, List.cons_append, List.nil_append]
      split_ifs with hc
      · rfl
      · push Not at hc
        simp only
        exact hlaststep _ hc.2.2.1 hc.1 hc.2.1 (by omega)

end

section
variable {α : Type} [Field α] [LinearOrder α] [IsStrictOrderedRing α]

/-- **C126** (`any_conv_1d`). On an axis the tensor has, `any_conv_1d` computes the windows exactly if no axis is empty, there are weights,
stride and dilation are positive and the dilated weights fit; in all other cases RuntimeError.  Together with `C39_bad_axis` (IndexError)
this covers every call. -/
theorem C126_any_conv {x : Tensor α} {w : List α} {dim : Int} {d : Nat} (hdim : normAxis x.ndim dim = some d) (s dil : Int) :
    anyConv1d x w dim s dil =
      if (∀ n ∈ x.shape, 0 < n) ∧ w ≠ [] ∧ 0 < s ∧ 0 < dil ∧ dil * ((w.length : Int) - 1) < x.shape.getD d 0
        then .ok (slideDilated x d w s.toNat dil.toNat) else .error .runtime := by
  split_ifs with h
  · obtain ⟨h1, h2, h3, h4, h5⟩ := h
    lift s to Nat using h3.le
    lift dil to Nat using h4.le
    have hl := List.length_pos_iff.2 h2
    refine anyConv1d_eq hdim h1 h2 (by omega) (by omega) ?_
    have : ((dil * (w.length - 1) : Nat) : Int) < x.shape.getD d 0 := by
      rw [Nat.cast_mul, Nat.cast_sub hl]
      exact h5
    exact_mod_cast this
  · exact anyConv1d_bad hdim h

/-- dilation zero -/
example : anyConv1d Example.x [1, 1] (-1) 1 0 = .error .runtime := by
  rw [C126_any_conv (d := 1) (by decide), if_neg (by simp)]

/-- two weights, dilation two, on rows of three -/
example : anyConv1d Example.x [1, 1] (-1) 1 2 = .ok (slideDilated Example.x 1 [1, 1] 1 2) := by
  rw [C126_any_conv (d := 1) (by decide), if_pos (by decide)]
  rfl

/-! ## pooling -/

variable {pool : SepPool α} {g : PoolArgs α} {m : Nat} {x : Tensor α}

/-- **C126** (missing axis, pooling). An axis number above `x.ndim` or below `-2 * x.ndim` raises AssertionError, whatever the pool and
the padder. -/
theorem C126_pool_axis (pool : SepPool α) (p : Option (Padder α)) (x : Tensor α) {ax : Int} (hax : (x.ndim : Int) < ax ∨ ax < -2 * x.ndim)
    (junk : List Nat → α) : SepPool.forward pool p junk x (.int ax) = (p, .error .assertion) := by
  rw [SepPool.forward, checkAxes]
  simp only
  split_ifs with h1 h2
  · have : checkAxes x.ndim (.seq [ax]) = .error .assertion := C74_sequence_rejects_partial (a := ax) (by simp) (by omega)
    rw [SepPool.pad, this]
  · rfl
  · have : checkAxes x.ndim (.seq [(x.ndim : Int) + ax]) = .error .assertion :=
      C74_sequence_rejects_partial (a := (x.ndim : Int) + ax) (by simp) (by omega)
    rw [SepPool.pad, this]
  · rfl

/-- **C126** (missing axis, pooling). The axis number `x.ndim` itself passes the checks.  Without a padder an empty kernel then returns
the tensor and any other raises IndexError; with a padder it always is IndexError. -/
theorem C126_pool_ndim (hb : Built pool g m) (hm : g.isMany = true → m = 1) (junk : List Nat → α) :
    SepPool.forward pool none junk x (.int x.ndim) = (none, if g.kernel.entry [] 0 = [] then .ok x else .error .index) ∧
      ∀ p, SepPool.forward pool (some p) junk x (.int x.ndim) = (some p, .error .index) := by
  have h := hb.poolIs.1
  have hi : g.isMany = true → 0 < m := fun hh => by have := hm hh; omega
  have hc : checkAxes x.ndim (.int x.ndim) = .ok [(x.ndim : Int)] := by
    rw [checkAxes, if_pos (by omega)]
  have hc' : checkAxes x.ndim (.seq [(x.ndim : Int)]) = .ok [(x.ndim : Int)] := by
    simp [checkAxes]
  have hnd : pool.ndim = 0 ∨ pool.ndim = (([(x.ndim : Int)]).length : Int) := by
    rw [h.ndim]
    split_ifs with hh
    · right; simp [hm hh]
    · left; rfl
  have e1 := h.getSize hi
  have e2 := h.getStride hi []
  cases hk : pool.kernelSize.get ((0 : Nat) : Int) with
  | error e => rw [hk] at e1; simp [Except.bind] at e1
  | ok k =>
  rw [hk] at e1
  simp only [Except.bind] at e1
  cases hs : pool.stride.get ((0 : Nat) : Int) with
  | error e => rw [hs] at e2; simp [Except.bind] at e2
  | ok s =>
  rw [hs] at e2
  simp only [Except.bind] at e2
  constructor
  · simp only [SepPool.forward, hc, if_pos hnd, SepPool.pad, hc', SepPool.poolLoop, SepPool.poolStep, hk, e1, hs, e2, bind, Except.bind]
    have hcd : convDim x.ndim (x.ndim : Int) = .error .index := by
      rw [convDim, if_neg (by split_ifs <;> omega)]
    rw [hcd]
    by_cases h0 : g.kernel.entry [] 0 = []
    · rw [if_pos h0, if_pos (by simp [h0])]
      rfl
    · rw [if_neg h0, if_neg (by have := List.length_pos_iff.2 h0; omega)]
  · intro p
    have hpy : pyIndex x.shape (x.ndim : Int) = .error .index := by
      have h0 : ¬ (x.ndim : Int) < 0 := by omega
      simp only [pyIndex, show x.shape.length = x.ndim from rfl, if_neg h0]
      rw [List.getElem?_eq_none (by simp [Tensor.ndim])]
    simp only [SepPool.forward, hc, if_pos hnd, SepPool.pad, hc', List.map_cons, List.map_nil, hpy, NdSpec.sequence]

/-- **C126** (axes counted twice from the end). An axis number between `-2 * x.ndim` and `-x.ndim - 1` is not refused: it is counted from
the end a second time.  (With a padder: if the padded tensor has as many axes.) -/
theorem C126_pool_wraps (pool : SepPool α) (p : Option (Padder α)) {ax : Int} (h1 : -2 * x.ndim ≤ ax) (h2 : ax < -x.ndim)
    (junk : List Nat → α) (hp : ∀ y, (SepPool.pad pool p junk x (.int (ax + x.ndim))).2 = .ok y → y.ndim = x.ndim) :
    SepPool.forward pool p junk x (.int ax) = SepPool.forward pool p junk x (.int (ax + x.ndim)) := by
  have e1 : checkAxes x.ndim (.int ax) = .ok [(x.ndim : Int) + ax] := by rw [checkAxes, if_neg (by omega)]
  have e2 : checkAxes x.ndim (.int (ax + x.ndim)) = .ok [(x.ndim : Int) + (ax + x.ndim)] := by rw [checkAxes, if_neg (by omega)]
  have e3 : checkAxes x.ndim (.seq [(x.ndim : Int) + ax]) = .ok [(x.ndim : Int) + (ax + x.ndim)] := by
    have hneg : ¬ (x.ndim : Int) + ax ≥ 0 := by omega
    simp only [checkAxes, List.map_cons, List.map_nil, if_neg hneg]
    rw [if_pos (by simp; omega)]
    congr 2
    omega
  have e4 : checkAxes x.ndim (.seq [(x.ndim : Int) + (ax + x.ndim)]) = .ok [(x.ndim : Int) + (ax + x.ndim)] := by
    have hpos : (x.ndim : Int) + (ax + x.ndim) ≥ 0 := by omega
    simp only [checkAxes, List.map_cons, List.map_nil, if_pos hpos]
    rw [if_pos (by simp; omega)]
  have e5 : SepPool.pad pool p junk x (.seq [(x.ndim : Int) + ax]) = SepPool.pad pool p junk x (.int (ax + x.ndim)) := by
    rw [SepPool.pad, SepPool.pad, e2, e3]
  have e6 : SepPool.pad pool p junk x (.seq [(x.ndim : Int) + (ax + x.ndim)]) = SepPool.pad pool p junk x (.int (ax + x.ndim)) := by
    rw [SepPool.pad, SepPool.pad, e2, e4]
  simp only [SepPool.forward, e1, e2, e5, e6, List.length_singleton]
  split_ifs
  · cases hq : SepPool.pad pool p junk x (.int (ax + x.ndim)) with
    | mk p' r =>
      cases r with
      | error e => rfl
      | ok y =>
        have hy := hp y (by rw [hq])
        have hcd : convDim y.ndim ((x.ndim : Int) + ax) = convDim y.ndim ((x.ndim : Int) + (ax + x.ndim)) := by
          have hneg : (x.ndim : Int) + ax < 0 := by omega
          have hpos : ¬ (x.ndim : Int) + (ax + x.ndim) < 0 := by omega
          have heq : (x.ndim : Int) + ax + x.ndim = (x.ndim : Int) + (ax + x.ndim) := by omega
          simp only [hy, convDim, if_pos hneg, if_neg hpos, heq]
        simp only [SepPool.poolLoop, SepPool.poolStep, hcd]
  · rfl

/-- axes 3, 2 and -3 of a matrix -/
example (junk : List Nat → ℚ) : ∃ pool : SepPool ℚ, SepPool.avgInit (.leaf (some 2)) (.leaf none) = .ok pool ∧
    SepPool.forward pool none junk Example.x (.int 3) = (none, .error .assertion) ∧
    SepPool.forward pool none junk Example.x (.int 2) = (none, .error .index) ∧
    SepPool.forward pool none junk Example.x (.int (-3)) = SepPool.forward pool none junk Example.x (.int (-1)) := by
  obtain ⟨pool, h, hb, _⟩ := C34_average_kernels (α := ℚ) (size := .one 2) (st := .one none) (m := 1) (by decide) trivial trivial
    (by intro s hs; simp [Given.values] at hs; simp [hs])
  refine ⟨pool, h, C126_pool_axis pool none Example.x (by decide) junk, ?_, ?_⟩
  · have := (C126_pool_ndim (x := Example.x) hb (by intro h; cases h) junk).1
    rw [if_neg (by decide)] at this
    exact this
  · refine C126_pool_wraps pool none (by decide) (by decide) junk ?_
    intro y hy
    simp only [SepPool.pad, checkAxes] at hy
    cases hy
    rfl

/-- **C126** (repeated axes). `AvgPoolNd(count_include_pad=False)` refuses an axis given twice (AssertionError). -/
theorem C126_exclude_repeated (hb : Built pool g m) {ax : Axes} {axes : List Nat} (hax : axesOf x.ndim ax = some axes) (hm : g.isMany = true → axes.length ≤ m)
    (hnd : ¬ axes.Nodup) (p : Option (Padder α)) (junk : List Nat → α) :
    SepPool.avgForwardExclude pool p junk x ax = (p, .error .assertion) := by
  have h := hb.poolIs.1
  have hc := (checkAxes_spec hax).1
  have hl : (castV axes).length = axes.length := by simp [castV]
  have hks : SepPool.collect (fun i => (pool.kernelSize.get (i : Int)).bind SepPool.asSize) (List.range (castV axes).length) =
      .ok ((List.range axes.length).map fun i => ((g.kernel.entry [] i).length : Int)) := by
    rw [SepPool.collect, hl]
    apply sequence_map
    intro i hi
    exact h.getSize (fun hh => lt_of_lt_of_le (List.mem_range.1 hi) (hm hh))
  have hnd' : ¬ (castV axes).Nodup := by
    intro hh
    exact hnd (hh.of_map _)
  simp only [SepPool.avgForwardExclude, hc, hks]
  rw [if_neg hnd']

end

/-! ## sizes -/

/-- **C126** (division by zero). A stride of zero in `same_padding_width`, and a missing stride with a kernel size of zero, raise
ZeroDivisionError; so does a stride of zero in `conv_1d`. -/
theorem C126_zero_stride (k n d : Int) :
    samePaddingWidth k (some 0) (some n) = .error .zeroDivision ∧ samePaddingWidth 0 none (some n) = .error .zeroDivision ∧
      conv1d n k 0 d = .error .zeroDivision ∧ ∀ w, nOriginal1d n w k 0 = .error .zeroDivision := by
  refine ⟨rfl, rfl, rfl, fun w => ?_⟩
  simp only [nOriginal1d, conv1d, pyDiv, if_pos, bind, Except.bind]

/-- **C126** (padding widths in torch order). `_check_padding` raises AssertionError for a number, for an odd number of widths, for more pairs
than axes, for a negative width, and for an item that is not a number; everything else it accepts. -/
theorem C126_check_padding (ndim : Nat) (p : Py Int) :
    ((∃ l : List Int, p = torchWidths l ∧ l.length % 2 = 0 ∧ l.length / 2 ≤ ndim ∧ ∀ a ∈ l, 0 ≤ a) → checkPadding ndim p = .ok ()) ∧
      ((¬ ∃ l : List Int, p = torchWidths l ∧ l.length % 2 = 0 ∧ l.length / 2 ≤ ndim ∧ ∀ a ∈ l, 0 ≤ a) →
        checkPadding ndim p = .error .assertion) := by
  constructor
  · rintro ⟨l, rfl, h⟩
    exact C27_check.2 h
  · intro h
    cases p with
    | leaf a => rfl
    | seq l =>
      rw [checkPadding]
      split_ifs with h1 h2 h3
      · rfl
      · rfl
      · exfalso
        apply h
        rw [List.all_eq_true] at h3
        have key : ∀ l : List (Py Int), (∀ q ∈ l, (match q with
            | .leaf p => decide (0 ≤ p)
            | .seq _ => false) = true) → ∃ l' : List Int, l = l'.map Py.leaf ∧ ∀ a ∈ l', 0 ≤ a := by
          intro l
          induction l with
          | nil => intro _; exact ⟨[], rfl, by simp⟩
          | cons q l ih =>
            intro hl
            obtain ⟨l', e, h'⟩ := ih (fun q hq => hl q (by simp [hq]))
            have hq := hl q (by simp)
            cases q with
            | leaf a =>
              refine ⟨a :: l', by rw [e]; rfl, ?_⟩
              intro b hb
              rcases List.mem_cons.1 hb with rfl | hb
              · simpa using hq
              · exact h' b hb
            | seq r => simp at hq
        obtain ⟨l', rfl, h'⟩ := key l h3
        rw [List.length_map] at h1 h2
        exact ⟨l', rfl, by omega, by omega, h'⟩
      · rfl

/-- three widths -/
example : checkPadding 4 (torchWidths [1, 1, 2]) = .error .assertion := by
  apply (C126_check_padding _ _).2
  rintro ⟨l, h, h2, _⟩
  simp only [torchWidths, Py.seq.injEq] at h
  have := congrArg List.length h
  simp at this
  omega

/-! ## edge filters -/

section
variable {α : Type} [Field α] [LinearOrder α] [IsStrictOrderedRing α] [FloorRing α]

/-- **C126** (edge kernels). An edge filter with a list of edge kernels is refused (ValueError), whatever the smoothing kernels. -/
theorem C126_edge_kernels {l : List (List α)} (hne : l ≠ []) (smooth : Py α) (normalize : Bool) :
    EdgeFilter.init (.seq (l.map PoolArgs.pyKernel)) smooth normalize = .error .value := by
  obtain ⟨k, e, h⟩ := ofItem_kernel (m := l.length) (g := .many l) (List.length_pos_iff.2 hne) rfl
  have e : NdSpec.ofItem [-1] (.seq (l.map PoolArgs.pyKernel)) = .ok k := e
  obtain ⟨_, h2, r, h3⟩ := h
  have : k.indexShape ≠ [] := by simp [NdSpec.indexShape, h2, h3]
  simp only [EdgeFilter.init, e, bind, Except.bind, if_pos this]

/-- two edge kernels -/
example : EdgeFilter.init (.seq [.seq [.leaf (-1 : ℚ), .leaf 1], .seq [.leaf (-1), .leaf 0, .leaf 1]]) (.seq [.leaf 1]) false = .error .value :=
  C126_edge_kernels (l := [[-1, 1], [-1, 0, 1]]) (by simp) _ _

/-- **C126** (one edge axis). `component` wants exactly one axis for the edge kernel (ValueError otherwise). -/
theorem C126_component {f : EdgeFilter α} {ps : EdgePadders α} {x : Tensor α} {ea : Axes} {axes : List Nat}
    (hax : axesOf x.ndim ea = some axes) (hl : axes.length ≠ 1) (junk : List Nat → α) (sa : Axes) :
    f.component ps junk x ea sa = (ps, .error .value) := by
  have hc := (checkAxes_spec hax).1
  rw [EdgeFilter.component, hc]
  match axes, hl with
  | [], _ => rfl
  | [_], hl => simp at hl
  | _ :: _ :: _, _ => rfl

example (f : EdgeFilter ℚ) (ps : EdgePadders ℚ) (junk : List Nat → ℚ) :
    f.component ps junk Example.x (.seq [0, 1]) .none = (ps, .error .value) :=
  C126_component (axes := [0, 1]) (by decide) (by decide) junk .none

/-- **C126** (edge losses). The edge losses want four axes: with at most two they raise AssertionError, whatever the filter. -/
theorem C126_edge_loss {β : Type} (loss : Tensor α → Tensor α → Except Err β) (f : EdgeFilter α) (ps : EdgePadders α)
    (junk : List Nat → α) {x : Tensor α} (hx : x.ndim ≤ 2) (y : Tensor α) :
    EdgeLoss.withEdges loss f ps junk x y = (ps, .error .assertion) := by
  have : checkAxes x.ndim (.seq [2, 3]) = .error .assertion := C74_sequence_rejects_partial (a := 3) (by simp) (by omega)
  simp only [EdgeLoss.withEdges, EdgeLoss.edgeTensor, EdgeFilter.allComponents, this]

example (f : EdgeFilter ℚ) (ps : EdgePadders ℚ) (junk : List Nat → ℚ) :
    EdgeLoss.forward f ps junk Example.x Example.x = (ps, .error .assertion) := C126_edge_loss _ f ps junk (by decide) _

/-- **C126** (rows of widths). A number where a pair of widths belongs makes the conversion from numpy's format a TypeError, wherever it stands. -/
theorem C126_width_rows {β : Type} [Zero β] {l : List (Py β)} {a : β} (h : .leaf a ∈ l) (ndim : Option Nat) : padWidthFormat (.seq l) "numpy" "torch" ndim = .error .type := by
  have hs : NdSpec.sequence (l.map asRow) = .error .type := by
    induction l with
    | nil => simp at h
    | cons p l ih =>
      cases p with
      | leaf b => rfl
      | seq r =>
        have h' : .leaf a ∈ l := by simpa using h
        simp only [List.map_cons, asRow, NdSpec.sequence, ih h']
  simp only [padWidthFormat]
  rw [if_neg (by decide), if_pos (by decide), hs]
  rfl

example : padWidthFormat (.seq [.seq [.leaf 1, .leaf 2], .leaf (3 : Int)]) "numpy" "torch" none = .error .type := C126_width_rows (a := 3) (by simp) none

/-- **C126** (entries of `n_original_elements_nd`). A row of widths without entries is a ValueError; a list where a number belongs, among widths, sizes, kernel sizes or strides, is a TypeError. -/
theorem C126_count_rows (n a b k s c d : Int) :
    nOriginalNd (.leaf n) (.seq [.seq [], .seq [.leaf a, .leaf b]]) (.leaf k) (.leaf s) = .error .value ∧
    nOriginalNd (.leaf n) (.seq [.leaf a, .seq [.leaf c, .leaf d]]) (.leaf k) (.leaf s) = .error .type ∧
    nOriginalNd (.seq [.seq [.leaf c, .leaf d], .leaf n]) (.leaf a) (.leaf k) (.leaf s) = .error .type ∧
    nOriginalNd (.leaf n) (.leaf a) (.seq [.seq [.leaf c, .leaf d], .leaf k]) (.leaf s) = .error .type ∧
    nOriginalNd (.leaf n) (.leaf a) (.leaf k) (.seq [.seq [.leaf c, .leaf d], .leaf s]) = .error .type :=
  ⟨rfl, rfl, rfl, rfl, rfl⟩

example : nOriginalNd (.leaf 5) (.seq [.seq [], .seq [.leaf 1, .leaf 2]]) (.leaf 3) (.leaf 1) = .error .value := (C126_count_rows 5 1 2 3 1 0 0).1

end

end TI
