import Verif.Spec.PadCoord
import Verif.Proofs.PadCall
import Mathlib.Algebra.BigOperators.Group.Finset.Basic
import Mathlib.Algebra.BigOperators.Ring.Finset
import Mathlib.Tactic.Ring
import Mathlib.Tactic.FieldSimp

/-!
# Consequences of sequential padding: shape, crop, coordinates, order independence
-/

namespace TI
open Tensor Spec

variable {α : Type}

set_option linter.unusedSectionVars false

theorem getD_map_range {f : Nat → Nat} {n k : Nat} (hk : k < n) :
    ((List.range n).map f).getD k 0 = f k := by
  simp [List.getD_eq_getElem?_getD, hk]

theorem settingAt_none {ops : List (Nat × AxisPad α)} {k : Nat} (h : k ∉ ops.map Prod.fst) :
    settingAt ops k = none := by
  induction ops with
  | nil => rfl
  | cons o ops ih =>
    simp only [List.map_cons, List.mem_cons, not_or] at h
    rw [settingAt, if_neg (fun hc => h.1 hc.symm), ih h.2]

theorem settingAt_some {ops : List (Nat × AxisPad α)} {o : Nat × AxisPad α}
    (hnd : (ops.map Prod.fst).Nodup) (h : o ∈ ops) : settingAt ops o.1 = some o.2 := by
  induction ops with
  | nil => cases h
  | cons q ops ih =>
    rw [List.map_cons, List.nodup_cons] at hnd
    rcases List.mem_cons.1 h with rfl | h
    · rw [settingAt, if_pos rfl]
    · rw [settingAt, if_neg, ih hnd.2 h]
      intro hc
      exact hnd.1 (by rw [hc]; exact List.mem_map_of_mem h)

theorem settingAt_mem {ops : List (Nat × AxisPad α)} {k : Nat} {s : AxisPad α}
    (h : settingAt ops k = some s) : (k, s) ∈ ops := by
  induction ops with
  | nil => simp [settingAt] at h
  | cons q ops ih =>
    rw [settingAt] at h
    split_ifs at h with hq
    · simp only [Option.some.injEq] at h
      subst h; subst hq; simp
    · exact List.mem_cons_of_mem _ (ih h)

section
variable [Field α] [LinearOrder α] [IsStrictOrderedRing α]

/-- every widened axis has a value-defining mode -/
def OpsOK (ops : List (Nat × AxisPad α)) : Prop :=
  ∀ o ∈ ops, ¬ (o.2.before = 0 ∧ o.2.after = 0) → o.2.rule? ≠ none

theorem padStep_eq {x : Tensor α} {o : Nat × AxisPad α} {E : Ext α} (hd : o.1 < x.ndim)
    (hE : o.2.rule? = some E) :
    padStep x o = extendAxis E o.1 o.2.before (o.2.total (x.shape.getD o.1 0)) x := by
  rw [padStep]
  split_ifs with hz
  · rw [hz.1, AxisPad.total, if_pos hz, extendAxis, Nat.zero_add, Nat.add_zero, set_getD_self]
    refine ext_get rfl ?_
    intro ix hix
    rw [get_ofFn hix]
    have hlt := hix.lt (k := o.1) hd
    have := isExt_of_valued hE (x.shape.getD o.1 0) (fun j => x.get (ix.set o.1 j))
      ((ix.getD o.1 0 : Int) - (0 : Nat)) (by omega) (by omega)
    rw [this]
    have e : (((ix.getD o.1 0 : Int) - (0 : Nat))).toNat = ix.getD o.1 0 := by omega
    rw [e, set_getD_self]
  · rw [hE]

theorem padStep_shape {x : Tensor α} {o : Nat × AxisPad α}
    (h : ¬ (o.2.before = 0 ∧ o.2.after = 0) → o.2.rule? ≠ none) :
    (padStep x o).shape = x.shape.set o.1 (o.2.before + x.shape.getD o.1 0 + o.2.total (x.shape.getD o.1 0)) := by
  rw [padStep]
  split_ifs with hz
  · rw [hz.1, AxisPad.total, if_pos hz, Nat.zero_add, Nat.add_zero, set_getD_self]
  · obtain ⟨E, hE⟩ := Option.ne_none_iff_exists'.1 (h hz)
    rw [hE]; rfl

theorem padSeq_cons (x : Tensor α) (o : Nat × AxisPad α) (ops) :
    padSeq x (o :: ops) = padSeq (padStep x o) ops := rfl

theorem padSeq_append (x : Tensor α) (ops ops' : List (Nat × AxisPad α)) :
    padSeq x (ops ++ ops') = padSeq (padSeq x ops) ops' := by
  simp [padSeq, List.foldl_append]

theorem padSeq_ndim {ops : List (Nat × AxisPad α)} (h : OpsOK ops) (x : Tensor α) :
    (padSeq x ops).ndim = x.ndim := by
  induction ops generalizing x with
  | nil => rfl
  | cons o ops ih =>
    rw [padSeq_cons, ih (fun o' ho' => h o' (by simp [ho']))]
    simp [Tensor.ndim, padStep_shape (h o (by simp))]

theorem padSeq_shape {ops : List (Nat × AxisPad α)} (h : OpsOK ops) (hnd : (ops.map Prod.fst).Nodup)
    (x : Tensor α) (hlt : ∀ o ∈ ops, o.1 < x.ndim) (k : Nat) :
    (padSeq x ops).shape.getD k 0 = match settingAt ops k with
      | some s => s.before + x.shape.getD k 0 + s.total (x.shape.getD k 0)
      | none => x.shape.getD k 0 := by
  induction ops generalizing x with
  | nil => rfl
  | cons o ops ih =>
    have hs := padStep_shape (x := x) (h o (by simp))
    rw [List.map_cons, List.nodup_cons] at hnd
    rw [padSeq_cons, ih (fun o' ho' => h o' (by simp [ho'])) hnd.2 _
      (fun o' ho' => by have := hlt o' (by simp [ho']); simpa [Tensor.ndim, hs] using this), hs, settingAt]
    split_ifs with hk
    · subst hk
      rw [settingAt_none hnd.1]
      exact getD_set_self _ _ _ _ (hlt o (by simp))
    · rw [getD_set_ne _ _ _ _ _ (Ne.symm hk)]

theorem embed_inB {ops : List (Nat × AxisPad α)} (h : OpsOK ops) (hnd : (ops.map Prod.fst).Nodup)
    {x : Tensor α} (hlt : ∀ o ∈ ops, o.1 < x.ndim) {ix : List Nat} (hix : InB x.shape ix) :
    InB (padSeq x ops).shape (embed ops ix) := by
  rw [inB_iff]
  have hn := padSeq_ndim h x
  simp only [Tensor.ndim] at hn
  refine ⟨by simp [embed, hix.length_eq, hn], ?_⟩
  intro k hk
  rw [hn] at hk
  have hl := hix.lt hk
  rw [embed, getD_map_range (by rw [hix.length_eq]; exact hk), padSeq_shape h hnd x hlt]
  simp only [beforeAt]
  cases settingAt ops k with
  | none => simpa using hl
  | some s => simp only; omega

theorem padSeq_crop {ops : List (Nat × AxisPad α)} (h : OpsOK ops) (hnd : (ops.map Prod.fst).Nodup)
    (x : Tensor α) (hlt : ∀ o ∈ ops, o.1 < x.ndim) {ix : List Nat} (hix : InB x.shape ix) :
    (padSeq x ops).get (embed ops ix) = x.get ix := by
  induction ops generalizing x ix with
  | nil =>
    rw [padSeq, List.foldl_nil]
    congr 1
    apply list_ext_getD (by simp [embed])
    intro k hk
    rw [embed, getD_map_range (by simpa [embed] using hk)]
    simp [beforeAt, settingAt]
  | cons o ops ih =>
    have hs := padStep_shape (x := x) (h o (by simp))
    have hd : o.1 < x.shape.length := hlt o (by simp)
    have hdi : o.1 < ix.length := by rw [hix.length_eq]; exact hd
    rw [List.map_cons, List.nodup_cons] at hnd
    have hixd := hix.lt hd
    have hin : InB (padStep x o).shape (ix.set o.1 (ix.getD o.1 0 + o.2.before)) := by
      rw [hs]; exact hix.set' (by omega)
    have e : embed (o :: ops) ix = embed ops (ix.set o.1 (ix.getD o.1 0 + o.2.before)) := by
      apply list_ext_getD (by simp [embed])
      intro k hk
      have hk' : k < ix.length := by simpa [embed] using hk
      rw [embed, getD_map_range hk', embed, getD_map_range (by simpa using hk'),
        getD_set _ _ _ _ _ hdi]
      simp only [beforeAt, settingAt]
      by_cases hko : k = o.1
      · subst hko
        rw [if_pos rfl, if_pos rfl, settingAt_none hnd.1]
        simp
      · rw [if_neg (Ne.symm hko), if_neg hko]
    rw [padSeq_cons, e, ih (fun o' ho' => h o' (by simp [ho'])) hnd.2 _
      (fun o' ho' => by have := hlt o' (by simp [ho']); simpa [Tensor.ndim, hs] using this) hin]
    rw [padStep]
    split_ifs with hz
    · rw [hz.1, Nat.add_zero, set_getD_self]
    · obtain ⟨E, hE⟩ := Option.ne_none_iff_exists'.1 (h o (by simp) hz)
      rw [hE]
      simp only [extendAxis]
      rw [get_ofFn (hix.set' (by omega)), getD_set_self _ _ _ _ hdi,
        isExt_of_valued hE _ _ _ (by omega) (by omega)]
      simp only [List.set_set]
      congr 1
      have e2 : ((ix.getD o.1 0 + o.2.before : Nat) : Int) - o.2.before = (ix.getD o.1 0 : Nat) := by omega
      rw [e2, Int.toNat_natCast, set_getD_self]

/-! ### coordinate modes -/

theorem clampC_id {n : Nat} {z : Int} (h0 : 0 ≤ z) (h1 : z < n) : clampC n z = z.toNat := by
  rw [clampC, if_neg (by omega), if_pos h1]

theorem rule_coord {s : AxisPad α} {c : Nat → Int → Nat} (h : modeC s.mode = some c) {n : Nat} (hn : 0 < n) :
    ∃ E, s.rule? = some E ∧ (∀ u z, E n u z = modeS s.mode n z * u (c n z)) ∧ ∀ z, c n z < n := by
  obtain ⟨b, a, m, cv, ev, sl⟩ := s
  cases m <;> simp only [modeC, Option.some.injEq, reduceCtorEq] at h <;> subst h <;>
    simp only [AxisPad.rule?, modeS, one_mul]
  case replicate =>
    refine ⟨_, rfl, ?_, ?_⟩
    · intro u z
      simp only [Spec.replicate, clampC]
      split_ifs <;> rfl
    · intro z; simp only [clampC]; split_ifs <;> omega
  case circular =>
    refine ⟨_, rfl, fun u z => rfl, ?_⟩
    intro z
    have h1 := Int.emod_nonneg z (show (n : Int) ≠ 0 by omega)
    have h2 := Int.emod_lt_of_pos z (show (0 : Int) < n by omega)
    simp only [circC]; omega
  case periodize =>
    have h1 : ∀ z, _ := fun z => Int.emod_nonneg z (show ((n + 1 : Nat) : Int) ≠ 0 by omega)
    have h2 : ∀ z, _ := fun z => Int.emod_lt_of_pos z (show (0 : Int) < (n + 1 : Nat) by omega)
    refine ⟨_, rfl, ?_, ?_⟩
    · intro u z
      simp only [Spec.periodize, perC]
      split_ifs with h
      · rfl
      · simp only [Spec.circular]
        have := h1 z
        have := h2 z
        split_ifs
        · congr 1; omega
        · congr 1; omega
    · intro z
      simp only [perC]
      split_ifs
      · have h1 := Int.emod_nonneg z (show (n : Int) ≠ 0 by omega)
        have h2 := Int.emod_lt_of_pos z (show (0 : Int) < n by omega)
        omega
      · omega
  case symmetric =>
    have h1 : ∀ z, _ := fun z => Int.emod_nonneg z (show (2 * n : Int) ≠ 0 by omega)
    have h2 : ∀ z, _ := fun z => Int.emod_lt_of_pos z (show (0 : Int) < 2 * n by omega)
    refine ⟨_, rfl, ?_, ?_⟩
    · intro u z
      simp only [Spec.symmetric, symC]
      split_ifs <;> rfl
    · intro z; have := h1 z; have := h2 z; simp only [symC]; split_ifs <;> omega
  case antisymmetric =>
    have h1 : ∀ z, _ := fun z => Int.emod_nonneg z (show (2 * n : Int) ≠ 0 by omega)
    have h2 : ∀ z, _ := fun z => Int.emod_lt_of_pos z (show (0 : Int) < 2 * n by omega)
    refine ⟨_, rfl, ?_, ?_⟩
    · intro u z
      simp only [Spec.antisymmetric, symC]
      split_ifs <;> simp
    · intro z; have := h1 z; have := h2 z; simp only [symC]; split_ifs <;> omega
  case reflect =>
    refine ⟨_, rfl, ?_, ?_⟩
    · intro u z
      simp only [Spec.reflect, reflC]
      split_ifs <;> rfl
    · intro z
      simp only [reflC]
      split_ifs with h1
      · omega
      · assumption
      · omega

theorem modeC_id {s : AxisPad α} {c : Nat → Int → Nat} (h : modeC s.mode = some c) {n : Nat} {z : Int}
    (h0 : 0 ≤ z) (h1 : z < n) : c n z = z.toNat ∧ modeS s.mode n z = (1 : α) := by
  obtain ⟨b, a, m, cv, ev, sl⟩ := s
  have hm := emod_small h0 h1
  have hm2 := emod_small (P := 2 * n) h0 (by omega)
  have hm3 := emod_small (P := (n + 1 : Nat)) h0 (by omega)
  cases m <;> simp only [modeC, Option.some.injEq, reduceCtorEq] at h <;> subst h <;> simp only [modeS, and_true]
  · exact clampC_id h0 h1
  · simp only [circC, hm.1]
  · simp only [perC]
    split_ifs
    · rw [hm.1]
    · rw [hm3.1]; omega
  · simp only [symC, hm2.1]; rw [if_pos (by omega)]
  · simp only [reflC]
    split_ifs with h2 h3
    · omega
    · have := (emod_small (z := z) (P := (2 * (n - 1) : Nat)) h0 (by omega)).1
      rw [this]
    · have := (emod_small (z := z) (P := (2 * (n - 1) : Nat)) h0 (by omega)).1
      rw [this] at h3; omega
  · refine ⟨?_, ?_⟩
    · simp only [symC, hm2.1]; rw [if_pos (by omega)]
    · rw [if_pos]; rw [hm2.1]; omega

theorem padStep_coord {x : Tensor α} {o : Nat × AxisPad α} {c : Nat → Int → Nat}
    (hc : modeC o.2.mode = some c) (hd : o.1 < x.ndim) (hn : 0 < x.shape.getD o.1 0) {ix : List Nat}
    (hix : InB (padStep x o).shape ix) :
    (padStep x o).get ix = modeS o.2.mode (x.shape.getD o.1 0) ((ix.getD o.1 0 : Int) - o.2.before) *
      x.get (ix.set o.1 (c (x.shape.getD o.1 0) ((ix.getD o.1 0 : Int) - o.2.before))) := by
  obtain ⟨E, hE, hval, _⟩ := rule_coord hc hn
  rw [padStep_eq hd hE] at hix ⊢
  rw [extendAxis] at hix ⊢
  rw [shape_ofFn] at hix
  rw [get_ofFn hix, hval]

theorem padSeq_coord {ops : List (Nat × AxisPad α)} (hnd : (ops.map Prod.fst).Nodup)
    (hm : ∀ o ∈ ops, modeC o.2.mode ≠ none) (x : Tensor α) (hlt : ∀ o ∈ ops, o.1 < x.ndim)
    (hn : ∀ o ∈ ops, 0 < x.shape.getD o.1 0) {ix : List Nat} (hix : InB (padSeq x ops).shape ix) :
    (padSeq x ops).get ix = signs x.shape ops ix * x.get (source x.shape ops ix) := by
  induction ops generalizing x with
  | nil =>
    rw [padSeq, List.foldl_nil, signs, List.map_nil, List.prod_nil, one_mul]
    congr 1
    apply list_ext_getD (by simp [source])
    intro k hk
    rw [source, getD_map_range hk]
    simp [settingAt]
  | cons o ops ih =>
    have hd : o.1 < x.shape.length := hlt o (by simp)
    have hn0 := hn o (by simp)
    rw [List.map_cons, List.nodup_cons] at hnd
    obtain ⟨c, hc⟩ := Option.ne_none_iff_exists'.1 (hm o (by simp))
    obtain ⟨E, hE, hval, hcn⟩ := rule_coord hc hn0
    have hs := padStep_shape (x := x) (o := o) (fun _ => by rw [hE]; simp)
    have hshape : ∀ k, k ≠ o.1 → (padStep x o).shape.getD k 0 = x.shape.getD k 0 := by
      intro k hk; rw [hs, getD_set_ne _ _ _ _ _ hk]
    have hne : ∀ q ∈ ops, q.1 ≠ o.1 := by
      intro q hq he; exact hnd.1 (by rw [← he]; exact List.mem_map_of_mem hq)
    have hok : OpsOK ops := by
      intro q hq _
      obtain ⟨c', hc'⟩ := Option.ne_none_iff_exists'.1 (hm q (by simp [hq]))
      obtain ⟨E', hE', _⟩ := rule_coord hc' (n := 1) (by omega)
      rw [hE']; simp
    have hlt' : ∀ q ∈ ops, q.1 < (padStep x o).ndim := fun q hq => by
      have := hlt q (by simp [hq]); simpa [Tensor.ndim, hs] using this
    have hn' : ∀ q ∈ ops, 0 < (padStep x o).shape.getD q.1 0 := fun q hq => by
      rw [hshape _ (hne q hq)]; exact hn q (by simp [hq])
    have hl : ix.length = x.shape.length := by
      have h1 := hix.length_eq
      have h2 := padSeq_ndim hok (padStep x o)
      simp only [Tensor.ndim] at h2
      rw [padSeq_cons, h2, hs] at h1
      simpa using h1
    rw [padSeq_cons] at hix ⊢
    rw [ih hnd.2 (fun q hq => hm q (by simp [hq])) (padStep x o) hlt' hn' hix]
    -- the intermediate position is valid
    have hsrc : InB (padStep x o).shape (source (padStep x o).shape ops ix) := by
      rw [inB_iff]
      refine ⟨by simp [source, hl, hs], ?_⟩
      intro k hk
      have hk' : k < x.shape.length := by simpa [hs] using hk
      rw [source, getD_map_range (by rw [hl]; exact hk')]
      have hixk := hix.lt (k := k) (by
        have h2 := padSeq_ndim hok (padStep x o)
        simp only [Tensor.ndim] at h2
        rw [h2]; exact hk)
      rw [padSeq_shape hok hnd.2 _ hlt'] at hixk
      cases hset : settingAt ops k with
      | none => rw [hset] at hixk; exact hixk
      | some s =>
        have hmem := settingAt_mem hset
        obtain ⟨c', hc'⟩ := Option.ne_none_iff_exists'.1 (hm (k, s) (by simp [hmem]))
        obtain ⟨_, _, _, hlt2⟩ := rule_coord hc' (hn' (k, s) hmem)
        simp only at hc'
        simp only [hc']
        exact hlt2 _
    rw [padStep_coord hc hd hn0 hsrc]
    have hgd : (source (padStep x o).shape ops ix).getD o.1 0 = ix.getD o.1 0 := by
      rw [source, getD_map_range (by rw [hl]; exact hd), settingAt_none hnd.1]
    rw [hgd, ← mul_assoc]
    congr 1
    · rw [signs, signs, List.map_cons, List.prod_cons, mul_comm]
      congr 2
      apply List.map_congr_left
      intro q hq
      rw [hshape _ (hne q hq)]
    · congr 1
      apply list_ext_getD (by simp [source])
      intro k hk
      have hk' : k < ix.length := by simpa [source] using hk
      rw [getD_set _ _ _ _ _ (by simp [source, hl]; exact hd), source, getD_map_range hk', source,
        getD_map_range hk', settingAt]
      by_cases hko : k = o.1
      · subst hko
        rw [if_pos rfl, if_pos rfl]
        simp only [hc]
      · rw [if_neg hko, if_neg (Ne.symm hko), hshape k hko]

/-! ### linear rules commute -/

/-- the rule is linear in the samples -/
def Spec.IsLin (E : Ext α) (n : Nat) : Prop :=
  ∀ (a b : α) (u v : Nat → α) (z : Int), E n (fun j => a * u j + b * v j) z = a * E n u z + b * E n v z

theorem IsLin.sum {E : Ext α} {n : Nat} (h : IsLin E n) (c : Nat → α) (f : Nat → Nat → α) (m : Nat) (z : Int) :
    E n (fun j => ∑ i ∈ Finset.range m, c i * f i j) z = ∑ i ∈ Finset.range m, c i * E n (f i) z := by
  induction m with
  | zero =>
    simp only [Finset.range_zero, Finset.sum_empty]
    have := h 0 0 (fun _ => 0) (fun _ => 0) z
    simpa using this
  | succ m ih =>
    rw [Finset.sum_range_succ, ← ih]
    have := h 1 (c m) (fun j => ∑ i ∈ Finset.range m, c i * f i j) (f m) z
    simp only [one_mul] at this
    rw [← this]
    congr 1
    funext j
    rw [Finset.sum_range_succ]

/-- weights of a linear local rule -/
theorem IsLin.weights {E : Ext α} {n : Nat} (h : IsLin E n) (hl : Local E n) (u : Nat → α) (z : Int) :
    E n u z = ∑ i ∈ Finset.range n, E n (fun j => if j = i then 1 else 0) z * u i := by
  have h1 := IsLin.sum h u (fun i j => if j = i then 1 else 0) n z
  rw [hl u (fun j => ∑ i ∈ Finset.range n, u i * (if j = i then 1 else 0)) z, h1]
  · exact Finset.sum_congr rfl (fun i _ => mul_comm _ _)
  · intro j hj
    rw [Finset.sum_eq_single j]
    · simp
    · intro b _ hb; rw [if_neg (Ne.symm hb), mul_zero]
    · intro hc; exact absurd (Finset.mem_range.2 hj) hc

theorem lin_comm {E E' : Ext α} {n n' : Nat} (h : IsLin E n) (hE' : IsLin E' n') (hl' : Local E' n')
    (M : Nat → Nat → α) (z z' : Int) :
    E n (fun j => E' n' (fun i => M i j) z') z = E' n' (fun i => E n (fun j => M i j) z) z' := by
  have h1 : (fun j => E' n' (fun i => M i j) z') = fun j =>
      ∑ i ∈ Finset.range n', E' n' (fun k => if k = i then 1 else 0) z' * M i j := by
    funext j; exact IsLin.weights hE' hl' _ _
  rw [h1, IsLin.sum h, ← IsLin.weights hE' hl']

theorem extendAxis_comm {E E' : Ext α} {x : Tensor α} {d d' b a b' a' : Nat} (hdd : d ≠ d')
    (hd : d < x.ndim) (hd' : d' < x.ndim)
    (h : IsLin E (x.shape.getD d 0)) (hl : Local E (x.shape.getD d 0))
    (h' : IsLin E' (x.shape.getD d' 0)) (hl' : Local E' (x.shape.getD d' 0)) :
    extendAxis E d b a (extendAxis E' d' b' a' x) = extendAxis E' d' b' a' (extendAxis E d b a x) := by
  simp only [Tensor.ndim] at hd hd'
  have e1 : (x.shape.set d' (b' + x.shape.getD d' 0 + a')).getD d 0 = x.shape.getD d 0 :=
    getD_set_ne _ _ _ _ _ hdd
  have e2 : (x.shape.set d (b + x.shape.getD d 0 + a)).getD d' 0 = x.shape.getD d' 0 :=
    getD_set_ne _ _ _ _ _ (Ne.symm hdd)
  simp only [extendAxis, shape_ofFn, e1, e2]
  rw [List.set_comm _ _ (Ne.symm hdd)]
  apply ofFn_congr
  intro ix hix
  have hlen : ix.length = x.shape.length := by rw [hix.length_eq]; simp
  have hixd' : ix.getD d' 0 < b' + x.shape.getD d' 0 + a' := by
    have := hix.lt (k := d') (by simpa using hd')
    rwa [getD_set_self _ _ _ _ (by simpa using hd')] at this
  have hixd : ix.getD d 0 < b + x.shape.getD d 0 + a := by
    have := hix.lt (k := d) (by simpa using hd)
    rwa [getD_set_ne _ _ _ _ _ hdd, getD_set_self _ _ _ _ hd] at this
  have c1 : E (x.shape.getD d 0) (fun j =>
        (ofFn (x.shape.set d' (b' + x.shape.getD d' 0 + a')) fun ix =>
          E' (x.shape.getD d' 0) (fun j => x.get (ix.set d' j)) ((ix.getD d' 0 : Int) - b')).get
          (ix.set d j)) ((ix.getD d 0 : Int) - b) =
      E (x.shape.getD d 0) (fun j => E' (x.shape.getD d' 0) (fun i => x.get ((ix.set d j).set d' i))
        ((ix.getD d' 0 : Int) - b')) ((ix.getD d 0 : Int) - b) := by
    apply hl
    intro j hj
    rw [get_ofFn, getD_set_ne _ _ _ _ _ (Ne.symm hdd)]
    have h1 := InB.set (s := x.shape.set d' (b' + x.shape.getD d' 0 + a')) (d := d)
      (by rw [List.set_comm _ _ (Ne.symm hdd)]; exact hix) hj
    rwa [← e1, set_getD_self] at h1
  have c2 : E' (x.shape.getD d' 0) (fun j =>
        (ofFn (x.shape.set d (b + x.shape.getD d 0 + a)) fun ix =>
          E (x.shape.getD d 0) (fun j => x.get (ix.set d j)) ((ix.getD d 0 : Int) - b)).get
          (ix.set d' j)) ((ix.getD d' 0 : Int) - b') =
      E' (x.shape.getD d' 0) (fun i => E (x.shape.getD d 0) (fun j => x.get ((ix.set d' i).set d j))
        ((ix.getD d 0 : Int) - b)) ((ix.getD d' 0 : Int) - b') := by
    apply hl'
    intro j hj
    rw [get_ofFn, getD_set_ne _ _ _ _ _ hdd]
    have h1 := InB.set (s := x.shape.set d (b + x.shape.getD d 0 + a)) (d := d') hix hj
    rwa [← e2, set_getD_self] at h1
  rw [c1, c2, lin_comm h h' hl' (fun i j => x.get ((ix.set d j).set d' i))]
  congr 1
  funext i
  congr 1
  funext j
  rw [List.set_comm _ _ hdd]

theorem sum_map_lin (l : List Nat) (a b : α) (u v : Nat → α) :
    (l.map fun j => a * u j + b * v j).sum = a * (l.map u).sum + b * (l.map v).sum := by
  induction l with
  | nil => simp
  | cons j l ih => simp only [List.map_cons, List.sum_cons, ih]; ring

theorem isLin_of_linear {s : AxisPad α} (h : s.Linear) {n : Nat} (hn : 0 < n) :
    ∃ E, s.rule? = some E ∧ IsLin E n ∧ Local E n := by
  obtain ⟨b, a, m, cv, ev, sl⟩ := s
  cases m <;> simp only [AxisPad.Linear] at h <;> simp only [AxisPad.rule?]
  case replicate =>
    refine ⟨_, rfl, ?_, replicate_local hn⟩
    intro a b u v z; simp only [Spec.replicate]; split_ifs <;> rfl
  case smooth =>
    refine ⟨_, rfl, ?_, smooth_local hn⟩
    intro a b u v z; simp only [Spec.smooth]; split_ifs <;> ring
  case circular => exact ⟨_, rfl, fun a b u v z => rfl, circular_local hn⟩
  case periodize =>
    refine ⟨_, rfl, ?_, periodize_local hn⟩
    intro a b u v z; simp only [Spec.periodize, Spec.circular]; split_ifs <;> rfl
  case symmetric =>
    refine ⟨_, rfl, ?_, symmetric_local hn⟩
    intro a b u v z; simp only [Spec.symmetric]; split_ifs <;> rfl
  case reflect =>
    refine ⟨_, rfl, ?_, reflect_local hn⟩
    intro a b u v z; simp only [Spec.reflect]; split_ifs <;> rfl
  case antisymmetric =>
    refine ⟨_, rfl, ?_, antisymmetric_local hn⟩
    intro a b u v z; simp only [Spec.antisymmetric]; split_ifs <;> ring
  case oddReflect =>
    refine ⟨_, rfl, ?_, oddReflect_local hn⟩
    intro a b u v z; simp only [Spec.oddReflect]; split_ifs <;> ring
  case oddSymmetric =>
    refine ⟨_, rfl, ?_, oddSymmetric_local hn⟩
    intro a b u v z; simp only [Spec.oddSymmetric]; split_ifs <;> ring
  case stat st =>
    cases st <;> simp only at h
    refine ⟨_, rfl, ?_, border_local _ _ _ hn⟩
    intro a b u v z
    simp only [Spec.border, statVal, List.length_map, sum_map_lin]
    split_ifs <;> ring
  case constant =>
    refine ⟨_, rfl, ?_, constant_local _ _⟩
    intro a b u v z
    simp only [Spec.constant, h]; split_ifs <;> ring
  case linearRamp =>
    refine ⟨_, rfl, ?_, linearRamp_local _ _ _ _ hn⟩
    intro a b u v z
    simp only [Spec.linearRamp, h]; split_ifs <;> ring

theorem padStep_comm {x : Tensor α} {o o' : Nat × AxisPad α} (hne : o.1 ≠ o'.1)
    (hd : o.1 < x.ndim) (hd' : o'.1 < x.ndim) (hn : 0 < x.shape.getD o.1 0)
    (hn' : 0 < x.shape.getD o'.1 0) (h : o.2.Linear) (h' : o'.2.Linear) :
    padStep (padStep x o) o' = padStep (padStep x o') o := by
  obtain ⟨E, hE, hlin, hloc⟩ := isLin_of_linear h hn
  obtain ⟨E', hE', hlin', hloc'⟩ := isLin_of_linear h' hn'
  rw [padStep_eq hd hE, padStep_eq hd' hE', padStep_eq (o := o') _ hE', padStep_eq (o := o) _ hE]
  · have e1 : (extendAxis E o.1 o.2.before (o.2.total (x.shape.getD o.1 0)) x).shape.getD o'.1 0 =
        x.shape.getD o'.1 0 := by
      rw [extendAxis, shape_ofFn, getD_set_ne _ _ _ _ _ (Ne.symm hne)]
    have e2 : (extendAxis E' o'.1 o'.2.before (o'.2.total (x.shape.getD o'.1 0)) x).shape.getD o.1 0 =
        x.shape.getD o.1 0 := by
      rw [extendAxis, shape_ofFn, getD_set_ne _ _ _ _ _ hne]
    rw [e1, e2]
    exact extendAxis_comm (Ne.symm hne) hd' hd hlin' hloc' hlin hloc
  · simpa [Tensor.ndim, extendAxis] using hd
  · simpa [Tensor.ndim, extendAxis] using hd'

theorem linear_rule {s : AxisPad α} (h : s.Linear) : s.rule? ≠ none := by
  obtain ⟨E, hE, _⟩ := isLin_of_linear h (n := 1) (by omega)
  rw [hE]; simp

/-- sequential padding with linear settings does not depend on the order of the axes -/
theorem padSeq_perm {ops ops' : List (Nat × AxisPad α)} (hp : ops.Perm ops') :
    ∀ x : Tensor α, (ops.map Prod.fst).Nodup → (∀ o ∈ ops, o.1 < x.ndim) →
    (∀ o ∈ ops, 0 < x.shape.getD o.1 0) → (∀ o ∈ ops, o.2.Linear) → padSeq x ops = padSeq x ops' := by
  induction hp with
  | nil => intros; rfl
  | cons o hp ih =>
    intro x hnd hlt hn hlin
    rw [padSeq_cons, padSeq_cons]
    have hs := padStep_shape (x := x) (o := o) (fun _ => linear_rule (hlin o (by simp)))
    rw [List.map_cons, List.nodup_cons] at hnd
    refine ih _ hnd.2 ?_ ?_ (fun q hq => hlin q (by simp [hq]))
    · intro q hq
      have := hlt q (by simp [hq]); simpa [Tensor.ndim, hs] using this
    · intro q hq
      rw [hs, getD_set_ne _ _ _ _ _ (fun he => hnd.1 (by rw [← he]; exact List.mem_map_of_mem hq))]
      exact hn q (by simp [hq])
  | swap o o' l =>
    intro x hnd hlt hn hlin
    simp only [padSeq_cons]
    rw [padStep_comm _ (hlt _ (by simp)) (hlt _ (by simp)) (hn _ (by simp)) (hn _ (by simp))
      (hlin _ (by simp)) (hlin _ (by simp))]
    simp only [List.map_cons, List.nodup_cons, List.mem_cons, not_or] at hnd
    exact hnd.1.1
  | trans h1 h2 ih1 ih2 =>
    intro x hnd hlt hn hlin
    rw [ih1 x hnd hlt hn hlin]
    have hm : ∀ q, q ∈ _ → q ∈ _ := fun q hq => h1.mem_iff.2 hq
    refine ih2 x ((h1.map Prod.fst).nodup_iff.1 hnd) (fun q hq => hlt q (hm q hq))
      (fun q hq => hn q (hm q hq)) (fun q hq => hlin q (hm q hq))

theorem fibreLaw_extendAxis {E : Ext α} {x : Tensor α} {d b a : Nat} (hd : d < x.ndim)
    (hE : IsExt E (x.shape.getD d 0)) (hl : Local E (x.shape.getD d 0)) :
    FibreLaw E d b (x.shape.getD d 0) (extendAxis E d b a x) := by
  intro ix hix
  rw [extendAxis] at hix ⊢
  rw [shape_ofFn] at hix
  have hlen : ix.length = x.shape.length := by rw [hix.length_eq]; simp
  rw [get_ofFn hix]
  apply hl
  intro j hj
  have hin : InB (x.shape.set d (b + x.shape.getD d 0 + a)) (ix.set d (b + j)) := hix.set (by omega)
  rw [get_ofFn hin, getD_set_self _ _ _ _ (by rw [hlen]; exact hd)]
  simp only [List.set_set]
  rw [hE _ _ (by omega) (by omega)]
  congr 2
  omega

/-- after padding with linear settings, every padded axis obeys its extension rule on all fibres -/
theorem padSeq_fibreLaw {ops : List (Nat × AxisPad α)} {x : Tensor α} (hnd : (ops.map Prod.fst).Nodup)
    (hlt : ∀ o ∈ ops, o.1 < x.ndim) (hn : ∀ o ∈ ops, 0 < x.shape.getD o.1 0)
    (hlin : ∀ o ∈ ops, o.2.Linear) {o : Nat × AxisPad α} (ho : o ∈ ops) :
    ∃ E, o.2.rule? = some E ∧ FibreLaw E o.1 o.2.before (x.shape.getD o.1 0) (padSeq x ops) := by
  obtain ⟨l, r, rfl⟩ := List.append_of_mem ho
  have hp : (l ++ o :: r).Perm ((l ++ r) ++ [o]) := by
    have h1 := List.perm_middle (a := o) (l₁ := l) (l₂ := r)
    exact h1.trans (List.perm_append_singleton o (l ++ r)).symm
  rw [padSeq_perm hp x hnd hlt hn hlin, padSeq_append]
  obtain ⟨E, hE, hE1, hE2⟩ := isLin_of_linear (hlin o ho) (hn o ho)
  refine ⟨E, hE, ?_⟩
  have hsub : ∀ q ∈ l ++ r, q ∈ l ++ o :: r := by
    intro q hq
    rcases List.mem_append.1 hq with h | h
    · exact List.mem_append_left _ h
    · exact List.mem_append_right _ (List.mem_cons_of_mem _ h)
  have hok : OpsOK (l ++ r) := fun q hq _ => linear_rule (hlin q (hsub q hq))
  have hnd2 : (((l ++ r) ++ [o]).map Prod.fst).Nodup := (hp.map Prod.fst).nodup_iff.1 hnd
  have hnd3 : ((l ++ r).map Prod.fst).Nodup ∧ o.1 ∉ (l ++ r).map Prod.fst := by
    rw [List.map_append, List.nodup_append] at hnd2
    refine ⟨hnd2.1, ?_⟩
    intro hc
    exact hnd2.2.2 _ hc _ (by simp) rfl
  have hsh : (padSeq x (l ++ r)).shape.getD o.1 0 = x.shape.getD o.1 0 := by
    rw [padSeq_shape hok hnd3.1 x (fun q hq => hlt q (hsub q hq)), settingAt_none hnd3.2]
  have hdim : o.1 < (padSeq x (l ++ r)).ndim := by rw [padSeq_ndim hok]; exact hlt o ho
  have := fibreLaw_extendAxis (E := E) (x := padSeq x (l ++ r)) (d := o.1) (b := o.2.before)
    (a := o.2.total (x.shape.getD o.1 0)) hdim (isExt_of_valued hE _) (by rw [hsh]; exact hE2)
  rw [hsh] at this
  rw [padSeq, List.foldl_cons, List.foldl_nil, padStep_eq hdim hE, hsh]
  exact this

/-- the last padded axis obeys its rule for every mode -/
theorem padSeq_fibreLaw_last {ops : List (Nat × AxisPad α)} {o : Nat × AxisPad α} {x : Tensor α}
    (hnd : ((ops ++ [o]).map Prod.fst).Nodup)
    (hlt : ∀ q ∈ ops ++ [o], q.1 < x.ndim) (hok : OpsOK ops) {E : Ext α} (hE : o.2.rule? = some E)
    (hl : Local E (x.shape.getD o.1 0)) :
    FibreLaw E o.1 o.2.before (x.shape.getD o.1 0) (padSeq x (ops ++ [o])) := by
  rw [padSeq_append]
  rw [List.map_append, List.nodup_append] at hnd
  have hnot : o.1 ∉ ops.map Prod.fst := fun hc => hnd.2.2 _ hc _ (by simp) rfl
  have hsh : (padSeq x ops).shape.getD o.1 0 = x.shape.getD o.1 0 := by
    rw [padSeq_shape hok hnd.1 x (fun q hq => hlt q (by simp [hq])), settingAt_none hnot]
  have hdim : o.1 < (padSeq x ops).ndim := by rw [padSeq_ndim hok]; exact hlt o (by simp)
  have := fibreLaw_extendAxis (E := E) (x := padSeq x ops) (d := o.1) (b := o.2.before)
    (a := o.2.total (x.shape.getD o.1 0)) hdim (isExt_of_valued hE _) (by rw [hsh]; exact hl)
  rw [hsh] at this
  rw [padSeq, List.foldl_cons, List.foldl_nil, padStep_eq hdim hE, hsh]
  exact this

end

end TI
