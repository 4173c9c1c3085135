import Verif.Proofs.PadLaws
import Mathlib.Data.List.Sort

/-!
# Lemmas for the mode-by-mode properties
-/

namespace TI
open Tensor Spec

set_option linter.unusedSectionVars false

variable {α : Type} [Field α] [LinearOrder α] [IsStrictOrderedRing α]
variable {p : Padder α} {x : Tensor α} {ax : Axes} {axes : List Nat} {ss : List (AxisPad α)}

theorem Spec.PadCall.ok (h : PadCall p x ax axes ss) : OpsOK (zipRight axes ss) :=
  fun o ho hnz => (h.valued o ho hnz).1

theorem Spec.PadCall.nd (h : PadCall p x ax axes ss) : ((zipRight axes ss).map Prod.fst).Nodup :=
  zipRight_nodup h.nodup h.len_le

theorem Spec.PadCall.lt (h : PadCall p x ax axes ss) : ∀ o ∈ zipRight axes ss, o.1 < x.ndim :=
  fun _ ho => (checkAxes_spec h.axes_eq).2 _ (zipRight_mem ho).1

/-- if the padded tensor has an element, no padded axis was empty -/
theorem Spec.PadCall.pos (h : PadCall p x ax axes ss) {ix : List Nat}
    (hix : InB (padSeq x (zipRight axes ss)).shape ix) :
    ∀ o ∈ zipRight axes ss, 0 < x.shape.getD o.1 0 := by
  intro o ho
  by_cases hz : o.2.before = 0 ∧ o.2.after = 0
  · have hlt := hix.lt (k := o.1) (by
      have := padSeq_ndim h.ok x
      simp only [Tensor.ndim] at this
      rw [this]; exact h.lt o ho)
    rw [padSeq_shape h.ok h.nd x h.lt, settingAt_some h.nd ho] at hlt
    simp only [AxisPad.total, if_pos hz] at hlt
    omega
  · exact (h.valued o ho hz).2.2

theorem source_uniform {ops : List (Nat × AxisPad α)} {m : Mode α} {c : Nat → Int → Nat}
    (hc : modeC m = some c) (hm : ∀ o ∈ ops, o.2.mode = m) (shape ix : List Nat) :
    source shape ops ix = pull c shape ops ix := by
  simp only [source, pull]
  apply List.map_congr_left
  intro k _
  cases hs : settingAt ops k with
  | none => rfl
  | some s =>
    have := hm _ (settingAt_mem hs)
    simp only at this
    simp only [this, hc]

theorem signs_one {ops : List (Nat × AxisPad α)} (hm : ∀ o ∈ ops, o.2.mode ≠ .antisymmetric)
    (shape ix : List Nat) : signs shape ops ix = (1 : α) := by
  rw [signs]
  apply List.prod_eq_one
  intro v hv
  rw [List.mem_map] at hv
  obtain ⟨o, ho, rfl⟩ := hv
  have := hm o ho
  obtain ⟨k, b, a, m, cv, ev, sl⟩ := o
  cases m <;> simp_all [modeS]

theorem coord_uniform (h : PadCall p x ax axes ss) {m : Mode α} {c : Nat → Int → Nat}
    (hc : modeC m = some c) (hm : ∀ s ∈ ss, s.mode = m) (hna : m ≠ .antisymmetric)
    (junk : List Nat → α) :
    ∃ y, p.forward junk x ax = .ok y ∧ ∀ ix, InB y.shape ix →
      y.get ix = x.get (pull c x.shape (zipRight axes ss) ix) := by
  refine ⟨_, forward_call h junk, ?_⟩
  intro ix hix
  have hm' : ∀ o ∈ zipRight axes ss, o.2.mode = m := fun o ho => hm _ (zipRight_mem ho).2
  rw [padSeq_coord h.nd (fun o ho => by rw [hm' o ho, hc]; simp) x h.lt (h.pos hix) hix,
    source_uniform hc hm', signs_one (fun o ho => by rw [hm' o ho]; exact hna), one_mul]

/-- The extension rule of an axis holds at every position that lies in the original region of all the
axes processed after it. -/
theorem padSeq_fibreLaw_at {l r : List (Nat × AxisPad α)} {o : Nat × AxisPad α}
    (hnd : ((l ++ o :: r).map Prod.fst).Nodup) (hlt : ∀ q ∈ l ++ o :: r, q.1 < x.ndim)
    (hok : OpsOK (l ++ o :: r)) {E : Ext α} (hE : o.2.rule? = some E)
    (hl : Local E (x.shape.getD o.1 0)) {ix : List Nat}
    (hix : InB (padSeq x (l ++ o :: r)).shape ix) (hin : Inside x.shape r ix) :
    (padSeq x (l ++ o :: r)).get ix = E (x.shape.getD o.1 0)
      (fun j => (padSeq x (l ++ o :: r)).get (ix.set o.1 (o.2.before + j)))
      ((ix.getD o.1 0 : Int) - o.2.before) := by
  have happ : l ++ o :: r = (l ++ [o]) ++ r := by simp
  have hnd' := hnd
  rw [happ, List.map_append, List.nodup_append] at hnd'
  have hok1 : OpsOK (l ++ [o]) := fun q hq => hok q (by rw [happ]; exact List.mem_append_left _ hq)
  have hok2 : OpsOK r := fun q hq => hok q (by simp [hq])
  have hlt1 : ∀ q ∈ l ++ [o], q.1 < x.ndim := fun q hq => hlt q (by rw [happ]; exact List.mem_append_left _ hq)
  have hlaw := padSeq_fibreLaw_last (x := x) hnd'.1 hlt1 (fun q hq => hok1 q (by simp [hq])) hE hl
  have hzn := padSeq_ndim hok1 x
  have hlt2 : ∀ q ∈ r, q.1 < (padSeq x (l ++ [o])).ndim := fun q hq => by
    rw [hzn]; exact hlt q (by simp [hq])
  have hor : o.1 ∉ r.map Prod.fst := fun hc => hnd'.2.2 o.1 (by simp) _ hc rfl
  have hzr : ∀ q ∈ r, (padSeq x (l ++ [o])).shape.getD q.1 0 = x.shape.getD q.1 0 := by
    intro q hq
    rw [padSeq_shape hok1 hnd'.1 x hlt1, settingAt_none]
    intro hc
    exact hnd'.2.2 _ hc q.1 (List.mem_map_of_mem hq) rfl
  rw [happ, padSeq_append] at hix ⊢
  have hd : o.1 < x.ndim := hlt o (by simp)
  have hyn := padSeq_ndim hok2 (padSeq x (l ++ [o]))
  have hylen : ix.length = x.ndim := by
    rw [hix.length_eq]; simp only [Tensor.ndim] at hyn hzn ⊢; omega
  have hysh : ∀ k, _ := fun k => padSeq_shape hok2 hnd'.2.1 (padSeq x (l ++ [o])) hlt2 k
  generalize hz : padSeq x (l ++ [o]) = z at *
  -- the same position in `z`
  let ix' : List Nat := (List.range ix.length).map fun k => ix.getD k 0 - beforeAt r k
  have hix'k : ∀ k, k < ix.length → ix'.getD k 0 = ix.getD k 0 - beforeAt r k := fun k hk => getD_map_range hk
  have hlen' : ix'.length = ix.length := by simp [ix']
  have hbo : beforeAt r o.1 = 0 := by rw [beforeAt, settingAt_none hor]
  have hge : ∀ k, k < ix.length → beforeAt r k ≤ ix.getD k 0 := by
    intro k hk
    rw [beforeAt]
    cases hs : settingAt r k with
    | none => simp
    | some s => exact (hin _ (settingAt_mem hs)).1
  have hInZ : InB z.shape ix' := by
    rw [inB_iff]
    refine ⟨by simp only [Tensor.ndim] at hzn hylen; omega, ?_⟩
    intro k hk
    have hk' : k < ix.length := by simp only [Tensor.ndim] at hzn hylen; omega
    rw [hix'k k hk']
    have h1 := hix.lt (k := k) (by simp only [Tensor.ndim] at hyn; omega)
    rw [hysh k] at h1
    rw [beforeAt]
    cases hs : settingAt r k with
    | none => rw [hs] at h1; simpa using h1
    | some s =>
      have h2 := hin _ (settingAt_mem hs)
      have h3 := hzr _ (settingAt_mem hs)
      simp only at h2 h3 ⊢
      omega
  have hemb : embed r ix' = ix := by
    apply list_ext_getD (by simp [embed, hlen'])
    intro k hk
    have hk' : k < ix'.length := by simpa [embed] using hk
    rw [embed, getD_map_range hk', hix'k k (by omega)]
    have := hge k (by omega)
    omega
  have hio : ix'.getD o.1 0 = ix.getD o.1 0 := by rw [hix'k o.1 (by omega), hbo, Nat.sub_zero]
  have h1 : (padSeq z r).get ix = z.get ix' := by
    conv_lhs => rw [← hemb]
    exact padSeq_crop hok2 hnd'.2.1 z hlt2 hInZ
  rw [h1, hlaw ix' hInZ, hio]
  apply hl
  intro j hj
  have hzo : o.2.before + j < z.shape.getD o.1 0 := by
    rw [← hz, padSeq_shape hok1 hnd'.1 x hlt1, settingAt_some hnd'.1 (by simp)]
    simp only; omega
  have hinS : InB z.shape (ix'.set o.1 (o.2.before + j)) := hInZ.set_same hzo
  rw [← padSeq_crop hok2 hnd'.2.1 z hlt2 hinS]
  congr 1
  apply list_ext_getD (by simp [embed, hlen'])
  intro k hk
  have hk' : k < ix.length := by simpa [embed, hlen'] using hk
  rw [embed, getD_map_range (by simp [hlen', hk']), getD_set _ _ _ _ _ (by omega), getD_set _ _ _ _ _ (by omega)]
  split_ifs with hko
  · subst hko; rw [hbo, Nat.add_zero]
  · rw [hix'k k hk']
    have := hge k hk'
    omega

theorem foldl_max_spec : ∀ (l : List α) (a : α),
    (l.foldl max a = a ∨ l.foldl max a ∈ l) ∧ a ≤ l.foldl max a ∧ ∀ b ∈ l, b ≤ l.foldl max a := by
  intro l
  induction l with
  | nil => intro a; simp
  | cons c l ih =>
    intro a
    obtain ⟨h1, h2, h3⟩ := ih (max a c)
    simp only [List.foldl_cons]
    refine ⟨?_, le_trans (le_max_left _ _) h2, ?_⟩
    · rcases h1 with h1 | h1
      · rcases max_choice a c with h | h
        · left; rw [h1, h]
        · right; rw [h1, h]; simp
      · right; simp [h1]
    · intro b hb
      rcases List.mem_cons.1 hb with rfl | hb
      · exact le_trans (le_max_right _ _) h2
      · exact h3 b hb

theorem foldl_min_spec : ∀ (l : List α) (a : α),
    (l.foldl min a = a ∨ l.foldl min a ∈ l) ∧ l.foldl min a ≤ a ∧ ∀ b ∈ l, l.foldl min a ≤ b := by
  intro l
  induction l with
  | nil => intro a; simp
  | cons c l ih =>
    intro a
    obtain ⟨h1, h2, h3⟩ := ih (min a c)
    simp only [List.foldl_cons]
    refine ⟨?_, le_trans h2 (min_le_left _ _), ?_⟩
    · rcases h1 with h1 | h1
      · rcases min_choice a c with h | h
        · left; rw [h1, h]
        · right; rw [h1, h]; simp
      · right; simp [h1]
    · intro b hb
      rcases List.mem_cons.1 hb with rfl | hb
      · exact le_trans h2 (min_le_right _ _)
      · exact h3 b hb

/-- element `k` of a sorted list: at most `k` elements are smaller, more than `k` are not larger -/
theorem sorted_rank {l : List α} (hs : l.Pairwise (· ≤ ·)) {k : Nat} (hk : k < l.length) :
    (l.filter fun a => decide (a < l[k])).length ≤ k ∧
      k < (l.filter fun a => decide (a ≤ l[k])).length := by
  have hsplit : l = l.take k ++ l[k] :: l.drop (k + 1) := by
    rw [List.getElem_cons_drop, List.take_append_drop]
  have hlen : (l.take k).length = k := by simp; omega
  generalize hv : l[k] = v at *
  generalize l.take k = a at *
  generalize l.drop (k + 1) = b at *
  rw [hsplit] at hs ⊢
  rw [List.pairwise_append] at hs
  obtain ⟨_, hs2, hs3⟩ := hs
  rw [List.pairwise_cons] at hs2
  constructor
  · rw [List.filter_append, List.filter_cons_of_neg (by simp), List.length_append]
    have : b.filter (fun c => decide (c < v)) = [] := by
      rw [List.filter_eq_nil_iff]
      intro c hc
      simpa using hs2.1 c hc
    rw [this]
    have := List.length_filter_le (fun c => decide (c < v)) a
    simp; omega
  · rw [List.filter_append, List.filter_cons_of_pos (by simp), List.length_append, List.length_cons]
    have : a.filter (fun c => decide (c ≤ v)) = a := by
      rw [List.filter_eq_self]
      intro c hc
      simpa using hs3 c hc v (by simp)
    rw [this]
    omega

theorem statVal_isStat (st : Stat) {l : List α} (hl : l ≠ []) : IsStat st l (statVal st l) := by
  have hpos : 0 < l.length := List.length_pos_iff.2 hl
  cases st with
  | mean =>
    simp only [IsStat, statVal]
    have : (l.length : α) ≠ 0 := by
      have : (0 : α) < l.length := by exact_mod_cast hpos
      exact ne_of_gt this
    field_simp
  | maximum =>
    obtain ⟨a, l, rfl⟩ := List.exists_cons_of_ne_nil hl
    simp only [IsStat, statVal, List.headD_cons, List.foldl_cons, max_self]
    obtain ⟨h1, h2, h3⟩ := foldl_max_spec l a
    refine ⟨by rcases h1 with h1 | h1 <;> simp [h1], ?_⟩
    intro b hb
    rcases List.mem_cons.1 hb with rfl | hb
    · exact h2
    · exact h3 b hb
  | minimum =>
    obtain ⟨a, l, rfl⟩ := List.exists_cons_of_ne_nil hl
    simp only [IsStat, statVal, List.headD_cons, List.foldl_cons, min_self]
    obtain ⟨h1, h2, h3⟩ := foldl_min_spec l a
    refine ⟨by rcases h1 with h1 | h1 <;> simp [h1], ?_⟩
    intro b hb
    rcases List.mem_cons.1 hb with rfl | hb
    · exact h2
    · exact h3 b hb
  | median =>
    have hperm := List.mergeSort_perm l (fun a b => decide (a ≤ b))
    have hlen := hperm.length_eq
    have hk : (l.length - 1) / 2 < (l.mergeSort (fun a b => decide (a ≤ b))).length := by rw [hlen]; omega
    have hsorted : (l.mergeSort (fun a b => decide (a ≤ b))).Pairwise (· ≤ ·) := by
      have := List.pairwise_mergeSort (le := fun a b : α => decide (a ≤ b))
        (by intro a b c h1 h2; simp at *; exact le_trans h1 h2)
        (by intro a b; simp; exact le_total a b) l
      exact this.imp (by intro a b h; simpa using h)
    have hget : (l.mergeSort (fun a b => decide (a ≤ b))).getD ((l.length - 1) / 2) 0 =
        (l.mergeSort (fun a b => decide (a ≤ b)))[(l.length - 1) / 2] := by
      simp [List.getD_eq_getElem?_getD, List.getElem?_eq_getElem hk]
    have key : ∀ v, v = (l.mergeSort (fun a b => decide (a ≤ b)))[(l.length - 1) / 2] →
        IsStat .median l v := by
      rintro _ rfl
      obtain ⟨h1, h2⟩ := sorted_rank hsorted hk
      refine ⟨hperm.mem_iff.1 (List.getElem_mem hk), ?_, ?_⟩
      · rwa [(hperm.filter _).length_eq] at h1
      · rwa [(hperm.filter _).length_eq] at h2
    exact key _ hget

theorem window_pos {n : Nat} (hn : 0 < n) (w : Option Int) : 0 < window n w ∧ window n w ≤ n := by
  cases w with
  | none => exact ⟨hn, le_refl _⟩
  | some w => simp only [window]; omega

theorem rule_local {s : AxisPad α} {E : Ext α} (h : s.rule? = some E) {n : Nat} (hn : 0 < n) : Local E n := by
  obtain ⟨b, a, m, cv, ev, sl⟩ := s
  cases m <;> simp only [AxisPad.rule?, Option.some.injEq, reduceCtorEq] at h <;> subst h
  · exact replicate_local hn
  · exact smooth_local hn
  · exact circular_local hn
  · exact periodize_local hn
  · exact symmetric_local hn
  · exact reflect_local hn
  · exact antisymmetric_local hn
  · exact oddReflect_local hn
  · exact oddSymmetric_local hn
  · exact border_local _ _ _ hn
  · exact constant_local _ _
  · exact constant_local _ _
  · exact linearRamp_local _ _ _ _ hn

/-- one processed axis and the axes processed later -/
theorem axis_law (h : PadCall p x ax axes ss) {l r : List (Nat × AxisPad α)} {o : Nat × AxisPad α}
    (hsplit : zipRight axes ss = l ++ o :: r) {E : Ext α} (hE : o.2.rule? = some E) (junk : List Nat → α) :
    ∃ y, p.forward junk x ax = .ok y ∧ ∀ ix, InB y.shape ix → Inside x.shape r ix →
      0 < x.shape.getD o.1 0 ∧
      y.get ix = E (x.shape.getD o.1 0) (fun j => y.get (ix.set o.1 (o.2.before + j)))
        ((ix.getD o.1 0 : Int) - o.2.before) := by
  refine ⟨_, forward_call h junk, ?_⟩
  intro ix hix hin
  have hpos := h.pos hix o (by rw [hsplit]; simp)
  have h1 := h.nd
  have h2 := h.lt
  have h3 := h.ok
  rw [hsplit] at h1 h2 h3 hix ⊢
  exact ⟨hpos, padSeq_fibreLaw_at h1 h2 h3 hE (rule_local hE hpos) hix hin⟩

theorem axis_law_linear (h : PadCall p x ax axes ss) (hlin : ∀ s ∈ ss, s.Linear)
    {o : Nat × AxisPad α} (ho : o ∈ zipRight axes ss) (junk : List Nat → α) :
    ∃ y E, o.2.rule? = some E ∧ p.forward junk x ax = .ok y ∧ ∀ ix, InB y.shape ix →
      0 < x.shape.getD o.1 0 ∧
      y.get ix = E (x.shape.getD o.1 0) (fun j => y.get (ix.set o.1 (o.2.before + j)))
        ((ix.getD o.1 0 : Int) - o.2.before) := by
  have hl : ∀ o ∈ zipRight axes ss, o.2.Linear := fun o ho => hlin _ (zipRight_mem ho).2
  obtain ⟨E, hE⟩ := Option.ne_none_iff_exists'.1 (linear_rule (hl o ho))
  refine ⟨_, E, hE, forward_call h junk, ?_⟩
  intro ix hix
  have hpos := h.pos hix
  obtain ⟨E', hE', hlaw⟩ := padSeq_fibreLaw h.nd h.lt hpos hl ho
  rw [hE] at hE'
  cases hE'
  exact ⟨hpos o ho, hlaw ix hix⟩

end TI
