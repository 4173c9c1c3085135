import Verif.Spec.PadQuiet
import Verif.Proofs.PadAxis

/-!
# Padding with modes that write nothing
-/

namespace TI
open Tensor Spec

set_option linter.unusedSectionVars false

variable {α : Type} [Field α] [LinearOrder α] [IsStrictOrderedRing α]
variable {p : Padder α} {x : Tensor α} {ax : Axes} {axes : List Nat} {ss : List (AxisPad α)}

theorem fillValue1d_empty {np : Bool} {i : Int} {s : AxisPad α} (hr : Reads p i s) (hw : s.widened) (hm : s.mode = .empty) (y : Tensor α) (d : Int)
    (idx : Option (List PySlice)) : p.fillValue1d np y i d idx = .ok (y, idx) := by
  have hm' := hr.mode
  rw [hm] at hm'
  simp only [Padder.fillValue1d, hr.width, bind, Except.bind, hm']
  rw [if_neg (by simp only [AxisPad.widened] at hw; omega)]
  rfl

theorem fillValue1d_zeros {np : Bool} {i : Int} {s : AxisPad α} (hr : Reads p i s) (hw : s.widened) (hm : s.mode = .zeros) (y : Tensor α) (d : Int)
    (idx : Option (List PySlice)) : p.fillValue1d np y i d idx = .ok (y, none) := by
  have hm' := hr.mode
  rw [hm] at hm'
  simp only [Padder.fillValue1d, hr.width, bind, Except.bind, hm']
  rw [if_neg (by simp only [AxisPad.widened] at hw; omega)]
  rfl

theorem fillValue1d_lost {np : Bool} {i : Int} {s : AxisPad α} (hr : Reads p i s) (hw : s.widened) (hv : s.mode.valued = true) (y : Tensor α) (d : Int) :
    p.fillValue1d np y i d none = .error .type := by
  have hm' := hr.mode
  simp only [Padder.fillValue1d, hr.width, bind, Except.bind, hm']
  rw [if_neg (by simp only [AxisPad.widened] at hw; omega)]
  generalize s.mode = m at *
  cases m <;> simp only [Mode.valued, Bool.false_eq_true] at hv <;> rfl

theorem quiet_cases {s : AxisPad α} (h : s.quiet = true) : s.mode = .empty ∨ s.mode = .zeros := by
  simp only [AxisPad.quiet] at h
  split at h
  · left; assumption
  · right; assumption
  · cases h

theorem quiet_of_zeros {s : AxisPad α} (h : s.mode = .zeros) : s.quiet = true := by simp [AxisPad.quiet, h]

theorem valued_of_writing {s : AxisPad α} (hq : s.quiet = false) (hr : s.rule? ≠ none) : s.mode.valued = true :=
  valued_of_rule hr (fun h => by rw [quiet_of_zeros h] at hq; cases hq)

/-- a lost region and nothing to write any more -/
theorem fillLoop_lost {axs : List Int} : ∀ (ops : List (Nat × AxisPad α)) (is : List Int) (y : Tensor α),
    List.Forall₂ (fun i (o : Nat × AxisPad α) => pyIndex axs i = .ok (o.1 : Int) ∧ Reads p i o.2) is ops →
    (∀ o ∈ ops, o.2.widened → o.2.quiet = true) → p.fillLoop axs is y none = .ok y
  | [], _, y, hf, _ => by cases hf; rfl
  | o :: ops, _, y, hf, hq => by
    cases hf with
    | @cons i _ is _ h1 hf =>
      rw [Padder.fillLoop, h1.1]
      simp only [bind, Except.bind]
      have ih := fillLoop_lost ops is y hf (fun o' ho' => hq o' (by simp [ho']))
      by_cases hz : o.2.before = 0 ∧ o.2.after = 0
      · rw [fillValue1d_zero h1.2 hz]; exact ih
      · rcases quiet_cases (hq o (by simp) hz) with h | h
        · rw [fillValue1d_empty h1.2 hz h]; exact ih
        · rw [fillValue1d_zeros h1.2 hz h]; exact ih

/-- a lost region and something to write -/
theorem fillLoop_lost_raises {axs : List Int} : ∀ (ops : List (Nat × AxisPad α)) (is : List Int) (y : Tensor α),
    List.Forall₂ (fun i (o : Nat × AxisPad α) => pyIndex axs i = .ok (o.1 : Int) ∧ Reads p i o.2) is ops →
    (∀ o ∈ ops, o.2.widened → o.2.quiet = true ∨ o.2.mode.valued = true) →
    (∃ o ∈ ops, o.2.widened ∧ o.2.quiet = false) → p.fillLoop axs is y none = .error .type
  | [], _, y, _, _, ⟨_, ho, _⟩ => by cases ho
  | o :: ops, _, y, hf, hk, hw => by
    cases hf with
    | @cons i _ is _ h1 hf =>
      rw [Padder.fillLoop, h1.1]
      simp only [bind, Except.bind]
      by_cases hz : o.2.before = 0 ∧ o.2.after = 0
      · rw [fillValue1d_zero h1.2 hz]
        refine fillLoop_lost_raises ops is y hf (fun o' ho' => hk o' (by simp [ho'])) ?_
        obtain ⟨q, hq, h2, h3⟩ := hw
        rcases List.mem_cons.1 hq with rfl | hq
        · exact absurd hz h2
        · exact ⟨q, hq, h2, h3⟩
      · cases hq : o.2.quiet with
        | false =>
          have hv : o.2.mode.valued = true := by
            rcases hk o (by simp) hz with h | h
            · rw [hq] at h; cases h
            · exact h
          rw [fillValue1d_lost h1.2 hz hv]
        | true =>
          have ih := fillLoop_lost_raises ops is y hf (fun o' ho' => hk o' (by simp [ho'])) (by
            obtain ⟨q, hq', h2, h3⟩ := hw
            rcases List.mem_cons.1 hq' with rfl | hq'
            · rw [hq] at h3; cases h3
            · exact ⟨q, hq', h2, h3⟩)
          rcases quiet_cases hq with h | h
          · rw [fillValue1d_empty h1.2 hz h]; exact ih
          · rw [fillValue1d_zeros h1.2 hz h]; exact ih

theorem inWin_widen {W : List (Nat × Nat)} {d N : Nat} {ix S : List Nat} (hW : WinOK W S) (hd : d < W.length) (hN : S.getD d 0 = N)
    (h : InWin W ix) : InWin (W.set d (0, N)) ix := by
  obtain ⟨h1, h2⟩ := inWin_iff.1 h
  rw [inWin_iff]
  refine ⟨by simpa using h1, ?_⟩
  intro k hk
  rw [List.length_set] at hk
  rw [getD_set _ _ _ _ _ hd]
  have := h2 k hk
  have hb := hW.get hk
  split_ifs with hkd
  · subst hkd; simp only; omega
  · exact this

theorem writingOps_cons_quiet {o : Nat × AxisPad α} (ops : List (Nat × AxisPad α)) (h : o.2.quiet = true) :
    writingOps (o :: ops) = writingOps ops := by simp [writingOps, h]

theorem writingOps_cons {o : Nat × AxisPad α} (ops : List (Nat × AxisPad α)) (h : o.2.quiet = false) :
    writingOps (o :: ops) = o :: writingOps ops := by simp [writingOps, h]

theorem padSeq_cons_unwidened (x : Tensor α) (o : Nat × AxisPad α) (ops : List (Nat × AxisPad α)) (hz : o.2.before = 0 ∧ o.2.after = 0) :
    padSeq x (o :: ops) = padSeq x ops := by
  rw [padSeq, List.foldl_cons, padStep, if_pos hz, ← padSeq]

theorem padSeq_writing_unwidened (x : Tensor α) (o : Nat × AxisPad α) (ops : List (Nat × AxisPad α)) (hz : o.2.before = 0 ∧ o.2.after = 0) :
    padSeq x (writingOps (o :: ops)) = padSeq x (writingOps ops) := by
  cases hq : o.2.quiet with
  | true => rw [writingOps_cons_quiet _ hq]
  | false => rw [writingOps_cons _ hq, padSeq_cons_unwidened _ _ _ hz]

/-- What the loop over the axes does to the buffer `y` with region `W`. -/
theorem fillLoop_quiet (p : Padder α) (axs : List Int) :
    ∀ (ops : List (Nat × AxisPad α)) (is : List Int) (y : Tensor α) (W : List (Nat × Nat)),
    List.Forall₂ (fun i (o : Nat × AxisPad α) => pyIndex axs i = .ok (o.1 : Int) ∧ Reads p i o.2) is ops →
    WinOK W y.shape → (ops.map Prod.fst).Nodup →
    (∀ o ∈ ops, o.1 < W.length ∧
      (o.2.widened → o.2.quiet = true ∨ o.2.mode.valued = true ∧ (W.getD o.1 (0, 0)).1 < (W.getD o.1 (0, 0)).2) ∧
      (W.getD o.1 (0, 0)).1 = o.2.before ∧
      y.shape.getD o.1 0 = (W.getD o.1 (0, 0)).2 + o.2.total ((W.getD o.1 (0, 0)).2 - (W.getD o.1 (0, 0)).1)) →
    ZerosLast ops →
    ∃ r W', p.fillLoop axs is y (some (idxOf W)) = .ok r ∧ r.shape = y.shape ∧ WinOK W' y.shape ∧
      restrict r W' = padSeq (restrict y W) (writingOps ops) ∧
      (∀ ix, InB y.shape ix → ¬ InWin W' ix → r.get ix = y.get ix) ∧
      (∀ ix, InWin W ix → InWin W' ix) ∧
      (∀ o ∈ ops, o.2.widened → o.2.quiet = false → W'.getD o.1 (0, 0) = (0, y.shape.getD o.1 0)) ∧
      (∀ k, (∀ o ∈ ops, o.1 = k → o.2.widened → o.2.quiet = true) → W'.getD k (0, 0) = W.getD k (0, 0)) := by
  intro ops
  induction ops with
  | nil =>
    intro is y W hf hW _ _ _
    cases hf
    exact ⟨y, W, rfl, rfl, hW, rfl, fun _ _ _ => rfl, fun _ h => h, fun o ho => absurd ho List.not_mem_nil, fun _ _ => rfl⟩
  | cons o ops ih =>
    intro is y W hf hW hnd hops hzl
    cases hf with
    | @cons i _ is _ h1 hf =>
    obtain ⟨hd, hval, hbef, htot⟩ := hops o (by simp)
    have hnotin : o.1 ∉ ops.map Prod.fst := by
      rw [List.map_cons, List.nodup_cons] at hnd; exact hnd.1
    have hnd' : (ops.map Prod.fst).Nodup := by
      rw [List.map_cons, List.nodup_cons] at hnd; exact hnd.2
    obtain ⟨hz1, hz2⟩ := List.pairwise_cons.1 hzl
    simp only [Padder.fillLoop, h1.1, bind, Except.bind]
    by_cases hz : o.2.before = 0 ∧ o.2.after = 0
    · rw [fillValue1d_zero h1.2 hz]
      obtain ⟨r, W', g1, g2, g3, g4, g5, g6, g7, g8⟩ := ih is y W hf hW hnd' (fun o' ho' => hops o' (by simp [ho'])) hz2
      refine ⟨r, W', g1, g2, g3, by rw [g4, padSeq_writing_unwidened _ _ _ hz], g5, g6, ?_, ?_⟩
      · intro q hq hw hqq
        rcases List.mem_cons.1 hq with rfl | hq
        · exact absurd hz hw
        · exact g7 q hq hw hqq
      · intro k hk
        exact g8 k (fun q hq => hk q (by simp [hq]))
    · cases hq : o.2.quiet with
      | true =>
        rcases quiet_cases hq with h | h
        · rw [fillValue1d_empty h1.2 hz h]
          obtain ⟨r, W', g1, g2, g3, g4, g5, g6, g7, g8⟩ := ih is y W hf hW hnd' (fun o' ho' => hops o' (by simp [ho'])) hz2
          refine ⟨r, W', g1, g2, g3, by rw [g4, writingOps_cons_quiet _ hq], g5, g6, ?_, ?_⟩
          · intro q hq' hw hqq
            rcases List.mem_cons.1 hq' with rfl | hq'
            · rw [hq] at hqq; cases hqq
            · exact g7 q hq' hw hqq
          · intro k hk
            exact g8 k (fun q hq => hk q (by simp [hq]))
        · rw [fillValue1d_zeros h1.2 hz h]
          have hrest : ∀ q ∈ ops, q.2.widened → q.2.quiet = true := fun q hq' hw => hz1 q hq' h hz hw
          refine ⟨y, W, fillLoop_lost ops is y hf hrest, rfl, hW, ?_, fun _ _ _ => rfl, fun _ h => h, ?_, fun _ _ => rfl⟩
          · rw [writingOps_cons_quiet _ hq, padSeq_zero]
            intro q hq'
            simp only [writingOps, List.mem_filter, Bool.not_eq_true'] at hq'
            by_contra hc
            have := hrest q hq'.1 hc
            rw [hq'.2] at this
            cases this
          · intro q hq' hw hqq
            rcases List.mem_cons.1 hq' with rfl | hq'
            · rw [hq] at hqq; cases hqq
            · rw [hrest q hq' hw] at hqq; cases hqq
      | false =>
        obtain ⟨hv, hlt⟩ : o.2.mode.valued = true ∧ (W.getD o.1 (0, 0)).1 < (W.getD o.1 (0, 0)).2 := by
          rcases hval hz with h | h
          · rw [hq] at h; cases h
          · exact h
        obtain ⟨head, tail, hwin⟩ : ∃ head tail, W.getD o.1 (0, 0) = (head, tail) := ⟨_, _, rfl⟩
        rw [hwin] at hlt hbef htot
        simp only at hlt hbef htot
        rw [AxisPad.total, if_neg hz] at htot
        obtain ⟨E, hE, hloc, hfill⟩ := fillValue1d_spec (np := true) h1.2 hv hz hW hd hwin hlt hbef (by rw [htot]; omega)
        rw [hfill]
        have hWset : WinOK (W.set o.1 (0, y.shape.getD o.1 0)) y.shape := hW.set (by omega) (by omega)
        obtain ⟨r, W', g1, g2, g3, g4, g5, g6, g7, g8⟩ := ih is (applyExt E head tail y W o.1 0 (y.shape.getD o.1 0)) _ hf hWset hnd' (by
          intro o' ho'
          have hne : o'.1 ≠ o.1 := by
            intro hc
            exact hnotin (by rw [← hc]; exact List.mem_map_of_mem ho')
          have := hops o' (by simp [ho'])
          rw [List.length_set, getD_set_ne _ _ _ _ _ hne]
          exact this) hz2
        have hrest : ∀ q ∈ ops, q.1 ≠ o.1 := fun q hq' hc => hnotin (by rw [← hc]; exact List.mem_map_of_mem hq')
        refine ⟨r, W', g1, g2, g3, ?_, ?_, fun ix hix => g6 ix (inWin_widen hW hd rfl hix), ?_, ?_⟩
        · rw [g4, writingOps_cons _ hq, restrict_applyExt hW hd hwin rfl hloc, padSeq, padSeq, List.foldl_cons]
          congr 2
          rw [padStep, if_neg hz, hE]
          simp only
          rw [hbef]
          congr 1
          have hwd : (restrict y W).shape.getD o.1 0 = tail - head := by
            rw [restrict, shape_ofFn, getD_wlen hd, hwin]
          rw [hwd, AxisPad.total, if_neg hz, htot]
          omega
        · intro ix hix hout
          rw [g5 ix hix hout, applyExt, fill, get_ofFn hix, if_neg (fun h => hout (g6 ix h))]
        · intro q hq' hw hqq
          rcases List.mem_cons.1 hq' with rfl | hq'
          · rw [g8 _ (fun q' hq'' hc => absurd hc (hrest q' hq'')), getD_set_self _ _ _ _ hd]
          · exact g7 q hq' hw hqq
        · intro k hk
          have hko : k ≠ o.1 := by
            rintro rfl
            have := hk o (by simp) rfl hz
            rw [hq] at this; cases this
          rw [g8 k (fun q hq' => hk q (by simp [hq'])), getD_set_ne _ _ _ _ _ hko]

/-- a `"zeros"` axis before an axis on which something is to be written -/
theorem fillLoop_order_raises (p : Padder α) (axs : List Int) :
    ∀ (ops : List (Nat × AxisPad α)) (is : List Int) (y : Tensor α) (W : List (Nat × Nat)),
    List.Forall₂ (fun i (o : Nat × AxisPad α) => pyIndex axs i = .ok (o.1 : Int) ∧ Reads p i o.2) is ops →
    WinOK W y.shape → (ops.map Prod.fst).Nodup →
    (∀ o ∈ ops, o.1 < W.length ∧
      (o.2.widened → o.2.quiet = true ∨ o.2.mode.valued = true ∧ (W.getD o.1 (0, 0)).1 < (W.getD o.1 (0, 0)).2) ∧
      (W.getD o.1 (0, 0)).1 = o.2.before ∧
      y.shape.getD o.1 0 = (W.getD o.1 (0, 0)).2 + o.2.total ((W.getD o.1 (0, 0)).2 - (W.getD o.1 (0, 0)).1)) →
    ¬ ZerosLast ops → p.fillLoop axs is y (some (idxOf W)) = .error .type := by
  intro ops
  induction ops with
  | nil => intro is y W _ _ _ _ h; exact absurd List.Pairwise.nil h
  | cons o ops ih =>
    intro is y W hf hW hnd hops hzl
    cases hf with
    | @cons i _ is _ h1 hf =>
    obtain ⟨hd, hval, hbef, htot⟩ := hops o (by simp)
    have hnotin : o.1 ∉ ops.map Prod.fst := by
      rw [List.map_cons, List.nodup_cons] at hnd; exact hnd.1
    have hnd' : (ops.map Prod.fst).Nodup := by
      rw [List.map_cons, List.nodup_cons] at hnd; exact hnd.2
    have hzl' : (¬ ∀ o' ∈ ops, o.2.mode = .zeros → o.2.widened → o'.2.widened → o'.2.quiet = true) ∨ ¬ ZerosLast ops := by
      by_contra hc
      push Not at hc
      exact hzl (List.pairwise_cons.2 ⟨hc.1, hc.2⟩)
    have hrest : (∃ q ∈ ops, q.2.widened ∧ q.2.quiet = false) := by
      have hex : ∀ l : List (Nat × AxisPad α), ¬ ZerosLast l → ∃ q ∈ l, q.2.widened ∧ q.2.quiet = false := by
        intro l hl
        by_contra hc
        push Not at hc
        apply hl
        apply List.pairwise_of_forall_mem_list
        intro a _ b hb _ _ hw
        simpa using hc b hb hw
      rcases hzl' with h | h
      · push Not at h
        obtain ⟨q, hq, _, _, h2, h3⟩ := h
        exact ⟨q, hq, h2, by simpa using h3⟩
      · exact hex ops h
    simp only [Padder.fillLoop, h1.1, bind, Except.bind]
    by_cases hz : o.2.before = 0 ∧ o.2.after = 0
    · rw [fillValue1d_zero h1.2 hz]
      refine ih is y W hf hW hnd' (fun o' ho' => hops o' (by simp [ho'])) ?_
      rcases hzl' with h | h
      · push Not at h
        obtain ⟨_, _, _, h2, _⟩ := h
        exact absurd hz h2
      · exact h
    · cases hq : o.2.quiet with
      | true =>
        rcases quiet_cases hq with h | h
        · rw [fillValue1d_empty h1.2 hz h]
          refine ih is y W hf hW hnd' (fun o' ho' => hops o' (by simp [ho'])) ?_
          rcases hzl' with h' | h'
          · push Not at h'
            obtain ⟨_, _, h2, _⟩ := h'
            rw [h] at h2
            cases h2
          · exact h'
        · rw [fillValue1d_zeros h1.2 hz h]
          refine fillLoop_lost_raises ops is y hf (fun o' ho' hw => ?_) hrest
          exact (hops o' (by simp [ho'])).2.1 hw |>.imp id And.left
      | false =>
        obtain ⟨hv, hlt⟩ : o.2.mode.valued = true ∧ (W.getD o.1 (0, 0)).1 < (W.getD o.1 (0, 0)).2 := by
          rcases hval hz with h | h
          · rw [hq] at h; cases h
          · exact h
        obtain ⟨head, tail, hwin⟩ : ∃ head tail, W.getD o.1 (0, 0) = (head, tail) := ⟨_, _, rfl⟩
        rw [hwin] at hlt hbef htot
        simp only at hlt hbef htot
        rw [AxisPad.total, if_neg hz] at htot
        obtain ⟨E, hE, hloc, hfill⟩ := fillValue1d_spec (np := true) h1.2 hv hz hW hd hwin hlt hbef (by rw [htot]; omega)
        rw [hfill]
        have hWset : WinOK (W.set o.1 (0, y.shape.getD o.1 0)) y.shape := hW.set (by omega) (by omega)
        refine ih is (applyExt E head tail y W o.1 0 (y.shape.getD o.1 0)) _ hf hWset hnd' ?_ ?_
        · intro o' ho'
          have hne : o'.1 ≠ o.1 := by
            intro hc
            exact hnotin (by rw [← hc]; exact List.mem_map_of_mem ho')
          have := hops o' (by simp [ho'])
          rw [List.length_set, getD_set_ne _ _ _ _ _ hne]
          exact this
        · rcases hzl' with h | h
          · push Not at h
            obtain ⟨_, _, h2, _⟩ := h
            rw [quiet_of_zeros h2] at hq
            cases hq
          · exact h

theorem mem_quietOps {ops : List (Nat × AxisPad α)} {o : Nat × AxisPad α} : o ∈ quietOps ops ↔ o ∈ ops ∧ o.2.quiet = true := by
  simp [quietOps]

theorem mem_writingOps {ops : List (Nat × AxisPad α)} {o : Nat × AxisPad α} : o ∈ writingOps ops ↔ o ∈ ops ∧ o.2.quiet = false := by
  simp [writingOps]

theorem quietOps_nodup {ops : List (Nat × AxisPad α)} (h : (ops.map Prod.fst).Nodup) : ((quietOps ops).map Prod.fst).Nodup :=
  h.sublist (List.filter_sublist.map _)

theorem writingOps_nodup {ops : List (Nat × AxisPad α)} (h : (ops.map Prod.fst).Nodup) : ((writingOps ops).map Prod.fst).Nodup :=
  h.sublist (List.filter_sublist.map _)

theorem eq_of_fst {ops : List (Nat × AxisPad α)} (h : (ops.map Prod.fst).Nodup) {o o' : Nat × AxisPad α} (ho : o ∈ ops) (ho' : o' ∈ ops)
    (e : o.1 = o'.1) : o = o' := by
  have h1 := settingAt_some h ho
  have h2 := settingAt_some h ho'
  rw [e, h2] at h1
  exact Prod.ext e (Option.some.inj h1).symm

/-- `forward` for modes that write nothing mixed with modes that define values -/
theorem forward_quiet (h : KnownReq p x ax axes ss) (hzl : ZerosLast (zipRight axes ss)) (junk : List Nat → α) :
    ∃ y, p.forward junk x ax = .ok y ∧ y.shape.length = x.shape.length ∧
      (∀ k, k < x.shape.length → y.shape.getD k 0 = match settingAt (zipRight axes ss) k with
        | some s => s.before + x.shape.getD k 0 + s.total (x.shape.getD k 0)
        | none => x.shape.getD k 0) ∧
      ∀ ix, InB y.shape ix →
        (Inside x.shape (quietOps (zipRight axes ss)) ix →
          InB (padSeq x (writingOps (zipRight axes ss))).shape (back (quietOps (zipRight axes ss)) ix) ∧
          y.get ix = (padSeq x (writingOps (zipRight axes ss))).get (back (quietOps (zipRight axes ss)) ix)) ∧
        (¬ Inside x.shape (quietOps (zipRight axes ss)) ix → y.get ix = junk ix) := by
  have hr := h.toPadReq
  have hc := checkAxes_spec hr.axes_eq
  have hle := hr.len_le
  have hnd := zipRight_nodup (α := α) hr.nodup hle
  have hlt : ∀ o ∈ zipRight axes ss, o.1 < x.ndim := fun o ho => hc.2 _ (zipRight_mem ho).1
  set ops := zipRight axes ss with hops
  have htriv : p.forward junk x ax = .ok x → (∀ o ∈ ops, o.2.before = 0 ∧ o.2.after = 0) →
      ∃ y, p.forward junk x ax = .ok y ∧ y.shape.length = x.shape.length ∧
      (∀ k, k < x.shape.length → y.shape.getD k 0 = match settingAt ops k with
        | some s => s.before + x.shape.getD k 0 + s.total (x.shape.getD k 0)
        | none => x.shape.getD k 0) ∧
      ∀ ix, InB y.shape ix →
        (Inside x.shape (quietOps ops) ix →
          InB (padSeq x (writingOps ops)).shape (back (quietOps ops) ix) ∧
          y.get ix = (padSeq x (writingOps ops)).get (back (quietOps ops) ix)) ∧
        (¬ Inside x.shape (quietOps ops) ix → y.get ix = junk ix) := by
    intro h1 h2
    refine ⟨x, h1, rfl, ?_, ?_⟩
    · intro k hk
      cases hs : settingAt ops k with
      | none => rfl
      | some s =>
        have := h2 _ (settingAt_mem hs)
        simp only at this
        have ht : s.total (x.shape.getD k 0) = 0 := by rw [AxisPad.total, if_pos this]
        simp only [ht, this.1]
        omega
    · intro ix hix
      have hb : back (quietOps ops) ix = ix := by
        apply list_ext_getD (by simp [back])
        intro k hk
        have hk : k < ix.length := by simpa [back] using hk
        rw [back, getD_map_range hk, beforeAt]
        cases hs : settingAt (quietOps ops) k with
        | none => simp
        | some s =>
          have : s.before = 0 := (h2 _ (mem_quietOps.1 (settingAt_mem hs)).1).1
          simp [this]
      rw [hb, padSeq_zero x _ (fun o ho => h2 o (mem_writingOps.1 ho).1)]
      refine ⟨fun _ => ⟨hix, rfl⟩, fun hout => ?_⟩
      exfalso
      apply hout
      intro q hq
      have hq := (mem_quietOps.1 hq).1
      rw [(h2 q hq).1]
      exact ⟨Nat.zero_le _, by rw [Nat.zero_add]; exact (inB_iff.1 hix).2 _ (hlt q hq)⟩
  by_cases hne : axes = []
  · have h0 : ss = [] := by
      apply List.length_eq_zero_iff.1
      rw [hne] at hle; simpa using hle
    have : castV axes = [] := by rw [hne]; rfl
    apply htriv
    · simp [Padder.forward, hr.ndim_ne, hc.1, this, bind, Except.bind, pure, Except.pure]
    · intro o ho; rw [hops, h0] at ho; simp [zipRight] at ho
  · rcases forward_prefix p junk x ax (castV axes) ops hr.ndim_ne hc.1 (by simpa [castV] using hne)
      hr.forall₂ hnd hlt with ⟨h1, h2⟩ | ⟨y', W, h1, hW, h3, h4, h5, h6⟩
    · exact htriv h1 h2
    · have hWl : W.length = x.shape.length := by
        have := congrArg (fun t : Tensor α => t.shape.length) h3
        simpa [restrict, length_wlen] using this
      obtain ⟨r, W', g1, g2, g3, g4, g5, g6, g7, g8⟩ := fillLoop_quiet p (castV axes) ops _ y' W hr.forall₂ hW hnd (by
        intro o ho
        have hk := hlt o ho
        simp only [Tensor.ndim] at hk
        obtain ⟨e1, e2⟩ := h4 o ho
        rw [e1, e2, hWl]
        refine ⟨hk, ?_, rfl, by simp only [Nat.add_sub_cancel_left]⟩
        intro hw
        cases hq : o.2.quiet with
        | true => exact Or.inl rfl
        | false =>
          right
          rcases h.known o ho hw with h' | h'
          · rw [hq] at h'; cases h'
          · exact ⟨valued_of_writing hq h'.1, by simp only; omega⟩) hzl
      have hW'l : W'.length = x.shape.length := by rw [g3.length_eq, ← hW.length_eq, hWl]
      have hy'l : y'.shape.length = x.shape.length := by rw [← hW.length_eq, hWl]
      have hshape : ∀ k, k < x.shape.length → y'.shape.getD k 0 = match settingAt ops k with
        | some s => s.before + x.shape.getD k 0 + s.total (x.shape.getD k 0)
        | none => x.shape.getD k 0 := by
        intro k hk
        cases hs : settingAt ops k with
        | none =>
          have hkn : k ∉ ops.map Prod.fst := by
            intro hk'
            obtain ⟨o, ho, rfl⟩ := List.mem_map.1 hk'
            rw [settingAt_some hnd ho] at hs
            cases hs
          exact (h5 k hk hkn).2
        | some s => exact (h4 _ (settingAt_mem hs)).2
      -- the final region: the original samples on quiet axes, everything on the others
      have hW' : ∀ k, k < x.shape.length → W'.getD k (0, 0) = match settingAt (quietOps ops) k with
        | some s => (s.before, s.before + x.shape.getD k 0)
        | none => (0, y'.shape.getD k 0) := by
        intro k hk
        by_cases hko : k ∈ ops.map Prod.fst
        · obtain ⟨o, ho, rfl⟩ := List.mem_map.1 hko
          cases hq : o.2.quiet with
          | true =>
            rw [settingAt_some (quietOps_nodup hnd) (mem_quietOps.2 ⟨ho, hq⟩), g8 o.1 (fun o' ho' e _ => by
              rw [eq_of_fst hnd ho' ho e]; exact hq), (h4 o ho).1]
          | false =>
            rw [settingAt_none]
            · by_cases hw : o.2.widened
              · exact g7 o ho hw hq
              · rw [g8 o.1 (fun o' ho' e hw' => by rw [eq_of_fst hnd ho' ho e] at hw'; exact absurd hw' hw), (h4 o ho).1, (h4 o ho).2]
                have hz : o.2.before = 0 ∧ o.2.after = 0 := by simpa [AxisPad.widened] using hw
                simp [AxisPad.total, hz]
            · intro hc
              obtain ⟨o', ho', e⟩ := List.mem_map.1 hc
              obtain ⟨h1', h2'⟩ := mem_quietOps.1 ho'
              rw [eq_of_fst hnd h1' ho e, hq] at h2'
              cases h2'
        · rw [settingAt_none, g8 k (fun o ho e _ => absurd (List.mem_map_of_mem (f := Prod.fst) ho) (by rw [e]; exact hko)), (h5 k hk hko).1,
            (h5 k hk hko).2]
          intro hc
          obtain ⟨o', ho', e⟩ := List.mem_map.1 hc
          exact hko (by rw [← e]; exact List.mem_map_of_mem (mem_quietOps.1 ho').1)
      refine ⟨r, by rw [h1, g1], by rw [g2, hy'l], by rw [g2]; exact hshape, ?_⟩
      intro ix hix
      rw [g2] at hix
      have hixl : ix.length = x.shape.length := by rw [hix.length_eq, hy'l]
      have hiff : InWin W' ix ↔ Inside x.shape (quietOps ops) ix := by
        rw [inWin_iff]
        constructor
        · rintro ⟨_, h'⟩ q hq
          have hk : q.1 < x.shape.length := hlt q (mem_quietOps.1 hq).1
          have := h' q.1 (by rw [hW'l]; exact hk)
          rw [hW' _ hk, settingAt_some (quietOps_nodup hnd) hq] at this
          exact this
        · intro h'
          refine ⟨by rw [hixl, hW'l], ?_⟩
          intro k hk
          rw [hW'l] at hk
          rw [hW' k hk]
          cases hs : settingAt (quietOps ops) k with
          | none => exact ⟨Nat.zero_le _, (inB_iff.1 hix).2 k (by rw [hy'l]; exact hk)⟩
          | some s => exact h' _ (settingAt_mem hs)
      constructor
      · intro hins
        have hin := hiff.2 hins
        have hun : unshift W' ix = back (quietOps ops) ix := by
          have hl : ix.length = W'.length := by rw [hixl, hW'l]
          apply list_ext_getD (by rw [length_unshift hl]; simp [back, hl])
          intro k hk
          rw [length_unshift hl] at hk
          rw [getD_unshift hl hk, back, getD_map_range (by omega), hW' k (by omega), beforeAt]
          cases settingAt (quietOps ops) k <;> rfl
        have hinb := unshift_inB hin
        rw [hun] at hinb
        rw [← h3, ← g4]
        refine ⟨by rw [restrict, shape_ofFn]; exact hinb, ?_⟩
        rw [restrict, get_ofFn hinb, ← hun, shift_unshift hin]
      · intro hout
        have hnin : ¬ InWin W' ix := fun hc => hout (hiff.1 hc)
        rw [g5 ix hix hnin]
        exact h6 ix hix (fun hc => hnin (g6 ix hc))

/-- otherwise `forward` raises TypeError -/
theorem forward_order_raises (h : KnownReq p x ax axes ss) (hzl : ¬ ZerosLast (zipRight axes ss)) (junk : List Nat → α) :
    p.forward junk x ax = .error .type := by
  have hr := h.toPadReq
  have hc := checkAxes_spec hr.axes_eq
  have hle := hr.len_le
  have hnd := zipRight_nodup (α := α) hr.nodup hle
  have hlt : ∀ o ∈ zipRight axes ss, o.1 < x.ndim := fun o ho => hc.2 _ (zipRight_mem ho).1
  have hne : axes ≠ [] := by
    rintro rfl
    apply hzl
    have h0 : ss = [] := List.length_eq_zero_iff.1 (by simpa using hle)
    subst h0
    simp [zipRight, ZerosLast]
  rcases forward_prefix p junk x ax (castV axes) (zipRight axes ss) hr.ndim_ne hc.1 (by simpa [castV] using hne)
      hr.forall₂ hnd hlt with ⟨h1, h2⟩ | ⟨y', W, h1, hW, h3, h4, h5, h6⟩
  · exfalso
    apply hzl
    apply List.pairwise_of_forall_mem_list
    intro a ha b _ _ hw
    exact absurd (h2 a ha) hw
  · have hWl : W.length = x.shape.length := by
      have := congrArg (fun t : Tensor α => t.shape.length) h3
      simpa [restrict, length_wlen] using this
    rw [h1]
    refine fillLoop_order_raises p (castV axes) _ _ y' W hr.forall₂ hW hnd ?_ hzl
    intro o ho
    have hk := hlt o ho
    simp only [Tensor.ndim] at hk
    obtain ⟨e1, e2⟩ := h4 o ho
    rw [e1, e2, hWl]
    refine ⟨hk, ?_, rfl, by simp only [Nat.add_sub_cancel_left]⟩
    intro hw
    cases hq : o.2.quiet with
    | true => exact Or.inl rfl
    | false =>
      right
      rcases h.known o ho hw with h' | h'
      · rw [hq] at h'; cases h'
      · exact ⟨valued_of_writing hq h'.1, by simp only; omega⟩

/-- `forward` computes `quietPad` -/
theorem forward_quietPad (h : KnownReq p x ax axes ss) (hzl : ZerosLast (zipRight axes ss)) (junk : List Nat → α) :
    p.forward junk x ax = .ok (quietPad junk x (zipRight axes ss)) := by
  obtain ⟨y, h1, h2, h3, h4⟩ := forward_quiet h hzl junk
  have hs : y.shape = paddedSizes x.shape (zipRight axes ss) := by
    apply list_ext_getD (by simp [paddedSizes, h2])
    intro k hk
    rw [h2] at hk
    rw [h3 k hk, paddedSizes, getD_map_range hk]
    rfl
  rw [h1]
  congr 1
  apply ext_get hs
  intro ix hix
  rw [quietPad, get_ofFn (by rw [← hs]; exact hix)]
  split_ifs with hin
  · exact ((h4 ix hix).1 hin).2
  · exact (h4 ix hix).2 hin

theorem quietPad_shape (junk : List Nat → α) (x : Tensor α) (ops : List (Nat × AxisPad α)) :
    (quietPad junk x ops).shape = paddedSizes x.shape ops := rfl

theorem settingAt_quiet {ops : List (Nat × AxisPad α)} (hnd : (ops.map Prod.fst).Nodup) (k : Nat) :
    beforeAt (quietOps ops) k + beforeAt (writingOps ops) k = beforeAt ops k := by
  have hq : ∀ s, settingAt ops k = some s → s.quiet = true → beforeAt (quietOps ops) k = s.before ∧ beforeAt (writingOps ops) k = 0 := by
    intro s hs h
    have hm := settingAt_mem hs
    refine ⟨by rw [beforeAt, settingAt_some (quietOps_nodup hnd) (mem_quietOps.2 ⟨hm, h⟩)], ?_⟩
    rw [beforeAt, settingAt_none]
    intro hc
    obtain ⟨o, ho, e⟩ := List.mem_map.1 hc
    have := eq_of_fst hnd (mem_writingOps.1 ho).1 hm e
    have h2 := (mem_writingOps.1 ho).2
    rw [this] at h2
    simp only at h2
    rw [h] at h2
    cases h2
  have hw : ∀ s, settingAt ops k = some s → s.quiet = false → beforeAt (quietOps ops) k = 0 ∧ beforeAt (writingOps ops) k = s.before := by
    intro s hs h
    have hm := settingAt_mem hs
    refine ⟨?_, by rw [beforeAt, settingAt_some (writingOps_nodup hnd) (mem_writingOps.2 ⟨hm, h⟩)]⟩
    rw [beforeAt, settingAt_none]
    intro hc
    obtain ⟨o, ho, e⟩ := List.mem_map.1 hc
    have := eq_of_fst hnd (mem_quietOps.1 ho).1 hm e
    have h2 := (mem_quietOps.1 ho).2
    rw [this] at h2
    simp only at h2
    rw [h] at h2
    cases h2
  cases hs : settingAt ops k with
  | none =>
    have hn : ∀ ops' : List (Nat × AxisPad α), (∀ o ∈ ops', o ∈ ops) → beforeAt ops' k = 0 := by
      intro ops' h
      rw [beforeAt]
      cases hs' : settingAt ops' k with
      | none => rfl
      | some s =>
        have := settingAt_some hnd (h _ (settingAt_mem hs'))
        simp only at this
        rw [hs] at this
        cases this
    rw [hn _ fun o ho => (mem_quietOps.1 ho).1, hn _ fun o ho => (mem_writingOps.1 ho).1, beforeAt, hs]
  | some s =>
    rw [show beforeAt ops k = s.before by rw [beforeAt, hs]]
    cases h : s.quiet with
    | true => obtain ⟨h1, h2⟩ := hq s hs h; omega
    | false => obtain ⟨h1, h2⟩ := hw s hs h; omega

/-- the original samples are found in the padded tensor -/
theorem quietPad_crop {ops : List (Nat × AxisPad α)} (hok : OpsOK (writingOps ops)) (hnd : (ops.map Prod.fst).Nodup) (junk : List Nat → α)
    {x : Tensor α} (hlt : ∀ o ∈ ops, o.1 < x.ndim) {ix : List Nat} (hix : InB x.shape ix) :
    InB (quietPad junk x ops).shape (embed ops ix) ∧ (quietPad junk x ops).get (embed ops ix) = x.get ix := by
  have hl := hix.length_eq
  have hin : InB (quietPad junk x ops).shape (embed ops ix) := by
    rw [quietPad_shape, inB_iff]
    refine ⟨by simp [embed, paddedSizes, hl], ?_⟩
    intro k hk
    have hk : k < x.shape.length := by simpa [paddedSizes] using hk
    have := hix.lt hk
    rw [embed, getD_map_range (by omega), paddedSizes, getD_map_range hk, beforeAt]
    cases settingAt ops k with
    | none => simpa using this
    | some s => simp only; omega
  refine ⟨hin, ?_⟩
  have hins : Inside x.shape (quietOps ops) (embed ops ix) := by
    intro q hq
    have hk : q.1 < x.shape.length := hlt q (mem_quietOps.1 hq).1
    have := hix.lt hk
    have hs : beforeAt ops q.1 = q.2.before := by rw [beforeAt, settingAt_some hnd (mem_quietOps.1 hq).1]
    rw [embed, getD_map_range (by omega), hs]
    omega
  have hb : back (quietOps ops) (embed ops ix) = embed (writingOps ops) ix := by
    apply list_ext_getD (by simp [back, embed])
    intro k hk
    have hk : k < ix.length := by simpa [back, embed] using hk
    have := settingAt_quiet hnd k
    rw [back, getD_map_range (by simpa [embed] using hk), embed, getD_map_range hk, embed, getD_map_range hk]
    omega
  rw [quietPad, get_ofFn (by rw [← quietPad_shape junk]; exact hin), if_pos hins, hb]
  exact padSeq_crop hok (writingOps_nodup hnd) x (fun o ho => hlt o (mem_writingOps.1 ho).1) hix

end TI
