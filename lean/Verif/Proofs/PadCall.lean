import Verif.Spec.Axes
import Verif.Proofs.PadNd
import Mathlib.Data.List.Sort

/-!
# From an `axes` argument to the list of padding operations
-/

namespace TI
open Tensor Spec

variable {α : Type}

theorem normAxis_lt {n : Nat} {a : Int} {k : Nat} (h : normAxis n a = some k) : k < n := by
  simp only [normAxis] at h
  split_ifs at h <;> simp at h <;> omega

theorem normAxis_eq {n : Nat} {a : Int} {k : Nat} (h : normAxis n a = some k) :
    (if a ≥ 0 then a else (n : Int) + a) = (k : Int) := by
  simp only [normAxis] at h
  split_ifs at h <;> simp at h <;> split_ifs <;> omega

theorem normAxes_spec {n : Nat} : ∀ {l : List Int} {ks : List Nat}, normAxes n l = some ks →
    (l.map fun (a : Int) => if a ≥ 0 then a else (n : Int) + a) = castV ks ∧ ∀ k ∈ ks, k < n := by
  intro l
  induction l with
  | nil => intro ks h; simp [normAxes] at h; subst h; simp [castV]
  | cons a l ih =>
    intro ks h
    simp only [normAxes] at h
    cases h1 : normAxis n a with
    | none => simp [h1] at h
    | some k =>
      cases h2 : normAxes n l with
      | none => simp [h1, h2] at h
      | some ks' =>
        simp only [h1, h2, Option.some.injEq] at h
        subst h
        have := ih h2
        refine ⟨?_, ?_⟩
        · rw [List.map_cons, this.1, normAxis_eq h1]; rfl
        · intro q hq
          rcases List.mem_cons.1 hq with rfl | hq
          · exact normAxis_lt h1
          · exact this.2 q hq

theorem slice_positions (lo hi n st : Nat) (hst : 0 < st) (hhi : hi ≤ n) :
    (List.range ((hi - lo + (st - 1)) / st)).map (fun k => lo + st * k) =
      (List.range n).filter fun k => decide (lo ≤ k ∧ k < hi ∧ (k - lo) % st = 0) := by
  apply List.Perm.eq_of_pairwise (le := fun a b => a < b)
  · intro a b _ _ h1 h2; omega
  · rw [List.pairwise_map]
    refine List.Pairwise.imp ?_ List.pairwise_lt_range
    intro a b hab
    have := Nat.mul_lt_mul_of_pos_left hab hst
    omega
  · exact List.Pairwise.filter _ List.pairwise_lt_range
  · rw [List.perm_ext_iff_of_nodup]
    · intro a
      simp only [List.mem_map, List.mem_range, List.mem_filter, decide_eq_true_eq]
      constructor
      · rintro ⟨k, hk, rfl⟩
        have h1 : st * (k + 1) ≤ hi - lo + (st - 1) := by
          have := Nat.mul_le_of_le_div _ _ _ (Nat.succ_le_of_lt hk)
          rw [Nat.mul_comm]; exact this
        rw [Nat.mul_add, Nat.mul_one] at h1
        refine ⟨by omega, by omega, by omega, ?_⟩
        rw [Nat.add_sub_cancel_left]; exact Nat.mul_mod_right _ _
      · rintro ⟨_, h1, h2, h3⟩
        refine ⟨(a - lo) / st, ?_, ?_⟩
        · rw [Nat.lt_div_iff_mul_lt hst]
          have := Nat.div_mul_le_self (a - lo) st
          rw [Nat.mul_comm] at this ⊢
          omega
        · have := Nat.mul_div_cancel' (Nat.dvd_of_mod_eq_zero h3)
          omega
    · refine List.Nodup.map ?_ List.nodup_range
      intro a b hab
      simp only at hab
      exact Nat.eq_of_mul_eq_mul_left hst (by omega)
    · exact List.nodup_range.filter _

theorem normBound_le (n : Nat) (v : Int) : normBound n v ≤ n := by
  simp only [normBound]; split_ifs <;> omega

theorem checkAxes_spec {n : Nat} {ax : Axes} {axes : List Nat} (h : axesOf n ax = some axes) :
    checkAxes n ax = .ok (castV axes) ∧ ∀ k ∈ axes, k < n := by
  cases ax with
  | none =>
    simp only [axesOf, Option.some.injEq] at h
    subst h
    exact ⟨rfl, fun k hk => List.mem_range.1 hk⟩
  | int a =>
    have := normAxes_spec h
    refine ⟨?_, this.2⟩
    rw [checkAxes, ← this.1]; rfl
  | seq l =>
    have := normAxes_spec h
    refine ⟨?_, this.2⟩
    simp only [checkAxes, this.1]
    rw [if_pos]
    rw [List.all_eq_true]
    intro a ha
    simp only [castV, List.mem_map] at ha
    obtain ⟨k, hk, rfl⟩ := ha
    have := this.2 k hk
    simp; omega
  | slice s =>
    simp only [axesOf] at h
    split_ifs at h with hs
    simp only [Option.some.injEq] at h
    subst h
    refine ⟨?_, ?_⟩
    · have hst : 0 < s.step := Nat.pos_of_ne_zero hs
      rw [checkAxes]
      simp only [PySlice.resolve, castV]
      congr 1
      rw [← slice_positions _ _ n s.step hst, List.map_map]
      · rfl
      · cases s.stop
        · exact le_refl _
        · exact normBound_le _ _
    · intro k hk
      rw [List.mem_filter, List.mem_range] at hk
      exact hk.1

theorem pyIndex_neg {β : Type} {l : List β} {j k : Nat} (hk : k ≤ l.length) (hj : j < k) :
    pyIndex l ((j : Int) - k) = .ok (l[l.length - k + j]'(by omega)) := by
  have e : (j : Int) - k + l.length = ((l.length - k + j : Nat) : Int) := by omega
  have e2 : (if (j : Int) - k < 0 then (j : Int) - k + l.length else (j : Int) - k) =
      ((l.length - k + j : Nat) : Int) := by rw [if_pos (by omega), e]
  simp only [pyIndex, e2]
  rw [if_neg (by omega), Int.toNat_natCast, List.getElem?_eq_getElem (by omega)]

section
variable [Field α] [LinearOrder α] [IsStrictOrderedRing α]
variable {p : Padder α} {x : Tensor α} {ax : Axes} {axes : List Nat} {ss : List (AxisPad α)}

set_option linter.unusedSectionVars false

theorem zipRight_nodup (h : axes.Nodup) (hl : ss.length ≤ axes.length) :
    ((zipRight axes ss).map Prod.fst).Nodup := by
  rw [zipRight, List.map_fst_zip (by rw [List.length_drop]; omega)]
  exact h.sublist (List.drop_sublist _ _)

theorem zipRight_mem {o : Nat × AxisPad α} (h : o ∈ zipRight axes ss) : o.1 ∈ axes ∧ o.2 ∈ ss := by
  have h1 : (o.1, o.2) ∈ (axes.drop (axes.length - ss.length)).zip ss := h
  have := List.of_mem_zip h1
  exact ⟨List.mem_of_mem_drop this.1, this.2⟩

theorem valued_of_rule {s : AxisPad α} (h : s.rule? ≠ none) (hz : s.mode ≠ .zeros) :
    s.mode.valued = true := by
  obtain ⟨b, a, m, cv, ev, sl⟩ := s
  cases m <;> simp_all [AxisPad.rule?, Mode.valued]

theorem Spec.PadCall.len_le (h : PadCall p x ax axes ss) : ss.length ≤ axes.length := by
  have := h.len
  split_ifs at this <;> omega

/-- `forward` performs the sequential padding, whatever the buffer contains -/
theorem forward_call (h : PadCall p x ax axes ss) (junk : List Nat → α) :
    p.forward junk x ax = .ok (padSeq x (zipRight axes ss)) := by
  have hc := checkAxes_spec h.axes_eq
  have hle := h.len_le
  by_cases hne : axes = []
  · have h0 : ss = [] := by
      apply List.length_eq_zero_iff.1
      rw [hne] at hle; simpa using hle
    subst h0
    have : castV axes = [] := by rw [hne]; rfl
    simp [Padder.forward, h.ndim_ne, hc.1, this, bind, Except.bind, pure, Except.pure, zipRight, padSeq]
  · refine forward_ops p junk x ax (castV axes) _ h.ndim_ne hc.1 (by simpa [castV] using hne) ?_
      (zipRight_nodup h.nodup hle) (fun o ho => hc.2 _ (zipRight_mem ho).1) ?_
    · have hk : p.nPadded (castV axes) = ss.length := by
        rw [h.len, Padder.nPadded]; simp [castV]
      rw [hk, List.forall₂_iff_get]
      refine ⟨by simp [Padder.negRange, zipRight]; omega, ?_⟩
      intro j h1 h2
      have hj : j < ss.length := by simpa [Padder.negRange] using h1
      have e : (Padder.negRange ss.length).get ⟨j, h1⟩ = (j : Int) - ss.length := by
        simp [Padder.negRange]
      rw [e]
      have e2 : (zipRight axes ss).get ⟨j, h2⟩ =
          (axes[axes.length - ss.length + j]'(by omega), ss[j]) := by
        simp [zipRight, List.getElem_drop]
      rw [e2]
      refine ⟨?_, h.reads j hj⟩
      rw [pyIndex_neg (by simpa [castV] using hle) hj]
      simp [castV]
    · intro o ho hnz
      have := h.valued o ho hnz
      exact ⟨valued_of_rule this.1 this.2.1, this.2.2⟩

end

end TI
