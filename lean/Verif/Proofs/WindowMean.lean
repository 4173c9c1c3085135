import Verif.Proofs.PoolBuilt

/-!
# Means of the original samples in a window
-/

set_option linter.unusedSectionVars false

namespace TI
open Tensor Spec

variable {α : Type} [Field α] [LinearOrder α] [IsStrictOrderedRing α]

theorem indices_nodup : ∀ s : List Nat, (indices s).Nodup := by
  intro s
  induction s with
  | nil => simp [indices]
  | cons n s ih =>
    simp only [indices]
    rw [List.nodup_flatMap]
    refine ⟨?_, ?_⟩
    · intro i _
      exact List.Pairwise.map _ (fun a b hab h => hab (by simpa using h)) ih
    · refine List.Pairwise.imp ?_ (List.nodup_range (n := n))
      intro a b hab l hl1 hl2
      simp only [List.mem_map] at hl1 hl2
      obtain ⟨_, _, rfl⟩ := hl1
      obtain ⟨_, _, h⟩ := hl2
      simp at h
      exact hab h.1.symm

/-! ## positions in a window -/

theorem corrSource_length (ops : List (PoolOp α)) (ix j : List Nat) : (corrSource ops ix j).length = ix.length :=
  setAll_length _ _ _

theorem corrSource_cons' {o : PoolOp α} {ops : List (PoolOp α)} (h : ((o :: ops).map (·.axis)).Nodup) (ix j : List Nat) (i : Nat) :
    corrSource (o :: ops) ix (i :: j) = (corrSource ops ix j).set o.axis (ix.getD o.axis 0 * o.stride + i) := by
  rw [← corrSource_cons h, corrSource, setAll_getD _ _ _ (zip_axis_ne h j)]

theorem mem_corrSource : ∀ {ops : List (PoolOp α)} {ix : List Nat}, (ops.map (·.axis)).Nodup → (∀ o ∈ ops, o.axis < ix.length) → ∀ (p : List Nat),
    (∃ j, InB (ops.map fun o => o.kernel.length) j ∧ corrSource ops ix j = p) ↔
      p.length = ix.length ∧ (∀ o ∈ ops, ix.getD o.axis 0 * o.stride ≤ p.getD o.axis 0 ∧
        p.getD o.axis 0 < ix.getD o.axis 0 * o.stride + o.kernel.length) ∧ ∀ k < ix.length, k ∉ ops.map (·.axis) → p.getD k 0 = ix.getD k 0
  | [], ix, _, _, p => by
    constructor
    · rintro ⟨j, hj, rfl⟩
      rw [corrSource_nil_left]
      simp
    · rintro ⟨h1, _, h3⟩
      refine ⟨[], trivial, ?_⟩
      rw [corrSource_nil_left]
      exact (list_ext_getD h1 fun k hk => h3 k (by omega) (by simp)).symm
  | o :: ops, ix, hnd, hlt, p => by
    have hnd' := List.nodup_cons.1 hnd
    have ih := fun q => mem_corrSource (ops := ops) (ix := ix) hnd'.2 (fun r hr => hlt r (by simp [hr])) q
    have hne : ∀ q ∈ ops, q.axis ≠ o.axis := fun q hq e => hnd'.1 (List.mem_map.2 ⟨q, hq, e⟩)
    have hol := hlt o (by simp)
    constructor
    · rintro ⟨j, hj, rfl⟩
      cases j with
      | nil => exact absurd hj (by simp [InB])
      | cons i j =>
        obtain ⟨h1, h2, h3⟩ := (ih (corrSource ops ix j)).1 ⟨j, hj.2, rfl⟩
        rw [corrSource_cons' hnd]
        have hl : o.axis < (corrSource ops ix j).length := by rw [h1]; exact hol
        refine ⟨by rw [List.length_set, h1], ?_, ?_⟩
        · intro q hq
          rcases List.mem_cons.1 hq with rfl | hq
          · rw [getD_set_self _ _ _ _ hl]
            have hi : i < q.kernel.length := hj.1
            omega
          · rw [getD_set_ne _ _ _ _ _ (hne q hq)]
            exact h2 q hq
        · intro k hk hk'
          rw [List.map_cons, List.mem_cons, not_or] at hk'
          rw [getD_set_ne _ _ _ _ _ hk'.1]
          exact h3 k hk hk'.2
    · rintro ⟨h1, h2, h3⟩
      obtain ⟨j, hj, e⟩ := (ih (p.set o.axis (ix.getD o.axis 0))).2 ⟨by rw [List.length_set, h1], by
        intro q hq
        rw [getD_set_ne _ _ _ _ _ (hne q hq)]
        exact h2 q (by simp [hq]), by
        intro k hk hk'
        by_cases e : k = o.axis
        · subst e
          rw [getD_set_self _ _ _ _ (by omega)]
        · rw [getD_set_ne _ _ _ _ _ e]
          apply h3 k hk
          rw [List.map_cons, List.mem_cons, not_or]
          exact ⟨e, hk'⟩⟩
      have h2o := h2 o (by simp)
      refine ⟨(p.getD o.axis 0 - ix.getD o.axis 0 * o.stride) :: j, ⟨by simp only; omega, hj⟩, ?_⟩
      rw [corrSource_cons' hnd, e, List.set_set, show ix.getD o.axis 0 * o.stride + (p.getD o.axis 0 - ix.getD o.axis 0 * o.stride) =
        p.getD o.axis 0 by omega, set_getD_self]

theorem corrSource_inj : ∀ {ops : List (PoolOp α)} {ix : List Nat}, (ops.map (·.axis)).Nodup → (∀ o ∈ ops, o.axis < ix.length) →
    ∀ {j j' : List Nat}, j.length = ops.length → j'.length = ops.length → corrSource ops ix j = corrSource ops ix j' → j = j'
  | [], _, _, _, [], [], _, _, _ => rfl
  | o :: ops, ix, hnd, hlt, i :: j, i' :: j', h1, h2, e => by
    have hnd' := List.nodup_cons.1 hnd
    rw [corrSource_cons' hnd, corrSource_cons' hnd] at e
    have hol := hlt o (by simp)
    have ei := congrArg (fun l => l.getD o.axis 0) e
    rw [getD_set_self _ _ _ _ (by rw [corrSource_length]; exact hol), getD_set_self _ _ _ _ (by rw [corrSource_length]; exact hol)] at ei
    have ej : corrSource ops ix j = corrSource ops ix j' := by
      apply list_ext_getD (by rw [corrSource_length, corrSource_length])
      intro k _
      by_cases hk : k = o.axis
      · subst hk
        rw [corrSource, corrSource, setAll_getD _ _ _ (zip_axis_ne hnd j), setAll_getD _ _ _ (zip_axis_ne hnd j')]
      · have := congrArg (fun l => l.getD k 0) e
        rwa [getD_set_ne _ _ _ _ _ hk, getD_set_ne _ _ _ _ _ hk] at this
    rw [corrSource_inj hnd'.2 (fun r hr => hlt r (by simp [hr])) (by simpa using h1) (by simpa using h2) ej]
    congr 1
    omega

/-! ## zero padding -/

/-- settings that fill with zeros -/
def ZeroFill (s : AxisPad α) : Prop := s.mode = .constant ∧ s.cv = (0, 0)

theorem ZeroFill.rule {s : AxisPad α} (h : ZeroFill s) : s.rule? = some (Spec.constant 0 0) := by
  rw [AxisPad.rule?, h.1]
  simp [h.2]

/-- a position in the original region is the place of an original sample -/
theorem inside_embed {ops : List (Nat × AxisPad α)} {x : Tensor α} (hok : OpsOK ops) (hnd : (ops.map Prod.fst).Nodup)
    (hlt : ∀ o ∈ ops, o.1 < x.ndim) {ix : List Nat} (hix : InB (padSeq x ops).shape ix) (hin : Inside x.shape ops ix) :
    ∃ jx, InB x.shape jx ∧ embed ops jx = ix := by
  have hl := hix.length_eq
  have hl' : ix.length = x.shape.length := by
    rw [hl]; exact padSeq_ndim hok x
  refine ⟨(List.range ix.length).map fun k => ix.getD k 0 - beforeAt ops k, ?_, ?_⟩
  · rw [inB_iff]
    refine ⟨by simp [hl'], ?_⟩
    intro k hk
    rw [getD_map_range (by omega)]
    cases hs : settingAt ops k with
    | none =>
      have hm := (inB_iff.1 hix).2 k (by rw [← hl, hl']; exact hk)
      rw [padSeq_shape hok hnd _ hlt, hs] at hm
      simpa [beforeAt, hs] using hm
    | some s =>
      have : s.before ≤ ix.getD k 0 ∧ ix.getD k 0 < s.before + x.shape.getD k 0 := hin _ (settingAt_mem hs)
      simp only [beforeAt, hs]
      omega
  · apply list_ext_getD (by simp [embed])
    intro k hk
    have hk' : k < ix.length := by simpa [embed] using hk
    rw [embed, getD_map_range (by simpa using hk'), getD_map_range hk']
    cases hs : settingAt ops k with
    | none => simp [beforeAt, hs]
    | some s =>
      have : s.before ≤ ix.getD k 0 ∧ ix.getD k 0 < s.before + x.shape.getD k 0 := hin _ (settingAt_mem hs)
      simp only [beforeAt, hs]
      omega

theorem padSeq_outside : ∀ {ops : List (Nat × AxisPad α)} {x : Tensor α}, (∀ o ∈ ops, ZeroFill o.2) → (ops.map Prod.fst).Nodup →
    (∀ o ∈ ops, o.1 < x.ndim) → ∀ {ix : List Nat}, InB (padSeq x ops).shape ix → ¬ Inside x.shape ops ix → (padSeq x ops).get ix = 0
  | [], x, _, _, _, ix, _, h => absurd (fun _ hq => absurd hq (by simp)) h
  | o :: ops, x, hz, hnd, hlt, ix, hix, h => by
    have hnd' := List.nodup_cons.1 hnd
    have hne : ∀ q ∈ ops, q.1 ≠ o.1 := fun q hq e => hnd'.1 (List.mem_map.2 ⟨q, hq, e⟩)
    have hE := (hz o (by simp)).rule
    have hol := hlt o (by simp)
    have hshape : (padStep x o).shape = x.shape.set o.1 (o.2.before + x.shape.getD o.1 0 + o.2.total (x.shape.getD o.1 0)) :=
      padStep_shape (fun _ => by rw [hE]; simp)
    have hnd_step : (padStep x o).ndim = x.ndim := by rw [ndim, hshape, List.length_set, ndim]
    change InB (padSeq (padStep x o) ops).shape ix at hix
    change (padSeq (padStep x o) ops).get ix = 0
    have hzt : ∀ q ∈ ops, ZeroFill q.2 := fun q hq => hz q (by simp [hq])
    have hltt : ∀ q ∈ ops, q.1 < (padStep x o).ndim := fun q hq => by rw [hnd_step]; exact hlt q (by simp [hq])
    have hok : OpsOK ops := fun q hq _ => by rw [(hzt q hq).rule]; simp
    by_cases hin : Inside (padStep x o).shape ops ix
    · -- inside for the other axes: read the padded step
      have hnot : ¬ (o.2.before ≤ ix.getD o.1 0 ∧ ix.getD o.1 0 < o.2.before + x.shape.getD o.1 0) := by
        intro hh
        apply h
        intro q hq
        rcases List.mem_cons.1 hq with rfl | hq
        · exact hh
        · have := hin q hq
          rwa [hshape, getD_set_ne _ _ _ _ _ (hne q hq)] at this
      obtain ⟨jx, hjx, e⟩ := inside_embed hok hnd'.2 hltt hix hin
      rw [← e, padSeq_crop hok hnd'.2 _ hltt hjx]
      have hjo : jx.getD o.1 0 = ix.getD o.1 0 := by
        rw [← e, embed, getD_map_range (by rw [hjx.length_eq]; rw [← hnd_step] at hol; exact hol), beforeAt, settingAt_none hnd'.1, Nat.add_zero]
      rw [padStep_eq hol hE] at hjx ⊢
      have hjx' : InB (x.shape.set o.1 (o.2.before + x.shape.getD o.1 0 + o.2.total (x.shape.getD o.1 0))) jx := hjx
      rw [extendAxis, get_ofFn hjx', hjo, Spec.constant]
      split_ifs with c1 c2
      · rfl
      · exfalso; apply hnot; omega
      · rfl
    · exact padSeq_outside hzt hnd'.2 hltt hix hin

/-! ## the samples in a window -/

theorem sum_filter_zero {β : Type} {l : List β} {f : β → α} {q : β → Bool} (h : ∀ a ∈ l, q a = false → f a = 0) :
    (l.map f).sum = ((l.filter q).map f).sum := by
  induction l with
  | nil => rfl
  | cons a l ih =>
    have ih := ih fun b hb => h b (by simp [hb])
    cases hq : q a with
    | true => rw [List.filter_cons_of_pos hq, List.map_cons, List.map_cons, List.sum_cons, List.sum_cons, ih]
    | false => rw [List.filter_cons_of_neg (by simp [hq]), List.map_cons, List.sum_cons, ih, h a (by simp) hq, zero_add]

theorem map_filter' {β γ : Type} (l : List β) (f : β → γ) (q : γ → Bool) : (l.map f).filter q = (l.filter fun b => q (f b)).map f := by
  rw [List.filter_map]
  rfl

/-- the padding of `sops` is the same padding of the pooled axes -/
structure PadsFor (shape : List Nat) (ops : List (PoolOp α)) (sops : List (Nat × AxisPad α)) : Prop where
  nodup : (sops.map Prod.fst).Nodup
  has : ∀ o ∈ ops, ∃ s, (o.axis, s) ∈ sops ∧ s.before = o.before shape
  only : ∀ q ∈ sops, ∃ o ∈ ops, o.axis = q.1 ∧ q.2.before = o.before shape

/-- the position `p` of the padded tensor is original -/
def Original (shape : List Nat) (ops : List (PoolOp α)) (p : List Nat) : Prop :=
  ∀ o ∈ ops, o.before shape ≤ p.getD o.axis 0 ∧ p.getD o.axis 0 < o.before shape + shape.getD o.axis 0

instance (shape : List Nat) (ops : List (PoolOp α)) (p : List Nat) : Decidable (Original shape ops p) := by
  unfold Original
  infer_instance

theorem PadsFor.inside {shape : List Nat} {ops : List (PoolOp α)} {sops : List (Nat × AxisPad α)} (h : PadsFor shape ops sops) (p : List Nat) :
    Inside shape sops p ↔ Original shape ops p := by
  constructor
  · intro hi o ho
    obtain ⟨s, hs, e⟩ := h.has o ho
    have := hi _ hs
    rw [← e]
    exact this
  · intro hi q hq
    obtain ⟨o, ho, e1, e2⟩ := h.only q hq
    have := hi o ho
    rw [e1, ← e2] at this
    exact this

theorem PadsFor.beforeAt {shape : List Nat} {ops : List (PoolOp α)} {sops : List (Nat × AxisPad α)} (h : PadsFor shape ops sops)
    {o : PoolOp α} (ho : o ∈ ops) : Spec.beforeAt sops o.axis = o.before shape := by
  obtain ⟨s, hs, e⟩ := h.has o ho
  have := settingAt_some h.nodup hs
  simp only at this
  rw [Spec.beforeAt, this]
  exact e

theorem PadsFor.beforeAt_none {shape : List Nat} {ops : List (PoolOp α)} {sops : List (Nat × AxisPad α)} (h : PadsFor shape ops sops)
    {k : Nat} (hk : k ∉ ops.map (·.axis)) : Spec.beforeAt sops k = 0 := by
  rw [Spec.beforeAt, settingAt_none]
  intro hm
  obtain ⟨q, hq, rfl⟩ := List.mem_map.1 hm
  obtain ⟨o, ho, e, _⟩ := h.only q hq
  exact hk (List.mem_map.2 ⟨o, ho, e⟩)

theorem embed_getD (ops : List (Nat × AxisPad α)) {ix : List Nat} {k : Nat} (hk : k < ix.length) :
    (embed ops ix).getD k 0 = ix.getD k 0 + beforeAt ops k := by
  rw [embed, getD_map_range hk]

theorem window_perm {x : Tensor α} {ops : List (PoolOp α)} {sops : List (Nat × AxisPad α)} (hok : OpsOK sops)
    (hlt : ∀ o ∈ sops, o.1 < x.ndim) (hp : PadsFor x.shape ops sops) (hpo : PoolOps (padSeq x sops) ops) (hne : ∀ o ∈ ops, o.kernel ≠ [])
    {ix : List Nat} (hix : InB (corrNd (padSeq x sops) ops).shape ix) :
    (((indices (ops.map fun o => o.kernel.length)).map (corrSource ops ix)).filter fun p => decide (Original x.shape ops p)).Perm
      ((seen x.shape ops ix).map (embed sops)) := by
  have hPn : (padSeq x sops).shape.length = x.shape.length := padSeq_ndim hok x
  have hlen : ix.length = x.shape.length := by
    rw [hix.length_eq, ← hPn]
    rw [← poolSeq_eq_corrNd hpo hne]
    exact poolSeq_ndim _ _
  have haxlt : ∀ o ∈ ops, o.axis < ix.length := by
    intro o ho
    rw [hlen, ← hPn]
    exact hpo.axis o ho (hne o ho)
  have hnd1 : ((indices (ops.map fun o => o.kernel.length)).map (corrSource ops ix)).Nodup := by
    apply List.Nodup.map_on _ (indices_nodup _)
    intro j hj j' hj' e
    exact corrSource_inj hpo.nodup haxlt (by simpa using (mem_indices.1 hj).length_eq) (by simpa using (mem_indices.1 hj').length_eq) e
  rw [List.perm_ext_iff_of_nodup (hnd1.filter _)]
  · intro p
    rw [List.mem_filter, List.mem_map, decide_eq_true_eq, List.mem_map]
    have hmem := mem_corrSource hpo.nodup haxlt p
    constructor
    · rintro ⟨⟨j, hj, rfl⟩, horig⟩
      have hj' := mem_indices.1 hj
      have hin := corrSource_inB hpo hne hix hj'
      obtain ⟨jx, hjx, e⟩ := inside_embed hok hp.nodup hlt hin ((hp.inside _).2 horig)
      obtain ⟨h1, h2, h3⟩ := hmem.1 ⟨j, hj', rfl⟩
      refine ⟨jx, ?_, e⟩
      rw [seen, List.mem_filter, decide_eq_true_eq]
      have hjl : jx.length = ix.length := by rw [hjx.length_eq, hlen]
      refine ⟨mem_indices.2 hjx, ?_, ?_⟩
      · intro o ho
        have := h2 o ho
        rwa [← e, embed_getD _ (by rw [hjl]; exact haxlt o ho), hp.beforeAt ho] at this
      · intro k hk hk'
        have := h3 k (by omega) hk'
        rwa [← e, embed_getD _ (by omega), hp.beforeAt_none hk', Nat.add_zero] at this
    · rintro ⟨jx, hjx, rfl⟩
      rw [seen, List.mem_filter, decide_eq_true_eq] at hjx
      obtain ⟨hj1, hj2, hj3⟩ := hjx
      have hj1 := mem_indices.1 hj1
      have hjl : jx.length = ix.length := by rw [hj1.length_eq, hlen]
      constructor
      · obtain ⟨j, hj, e⟩ := hmem.2 ⟨by simp [embed, hjl], by
          intro o ho
          rw [embed_getD _ (by rw [hjl]; exact haxlt o ho), hp.beforeAt ho]
          exact hj2 o ho, by
          intro k hk hk'
          rw [embed_getD _ (by omega), hp.beforeAt_none hk', Nat.add_zero]
          exact hj3 k (by omega) hk'⟩
        exact ⟨j, mem_indices.2 hj, e⟩
      · intro o ho
        have hl : o.axis < jx.length := by rw [hjl]; exact haxlt o ho
        rw [embed_getD _ hl, hp.beforeAt ho]
        have := hj1.lt (k := o.axis) (by rw [← hj1.length_eq]; exact hl)
        omega
  · apply List.Nodup.map_on _ ((indices_nodup _).filter _)
    intro jx hjx jx' hjx' e
    have h1 := (mem_indices.1 (List.mem_filter.1 hjx).1).length_eq
    have h2 := (mem_indices.1 (List.mem_filter.1 hjx').1).length_eq
    apply list_ext_getD (by omega)
    intro k hk
    have := congrArg (fun l => l.getD k 0) e
    rw [embed_getD _ hk, embed_getD _ (by omega)] at this
    omega

theorem corrWeight_average {ops : List (PoolOp α)} (h : ∀ o ∈ ops, o.kernel = avgKernel o.kernel.length) :
    ∀ {j : List Nat}, InB (ops.map fun o => o.kernel.length) j → corrWeight ops j = (ops.map fun o => 1 / (o.kernel.length : α)).prod := by
  induction ops with
  | nil => intro j _; simp [corrWeight]
  | cons o ops ih =>
    intro j hj
    cases j with
    | nil => exact absurd hj (by simp [InB])
    | cons i j =>
      have hi : i < o.kernel.length := hj.1
      have e : o.kernel.getD i 0 = 1 / (o.kernel.length : α) := by
        rw [h o (by simp)]
        simp [avgKernel, hi]
      have ih := ih (fun p hp => h p (by simp [hp])) hj.2
      rw [corrWeight] at ih ⊢
      rw [List.zipWith_cons_cons, List.prod_cons, ih, List.map_cons, List.prod_cons, e]

theorem prod_sizes_ne {ops : List (PoolOp α)} (hne : ∀ o ∈ ops, o.kernel ≠ []) : (ops.map fun o => (o.kernel.length : α)).prod ≠ 0 := by
  induction ops with
  | nil => simp
  | cons o ops ih =>
    rw [List.map_cons, List.prod_cons]
    refine mul_ne_zero ?_ (ih fun p hp => hne p (by simp [hp]))
    have := List.length_pos_iff.2 (hne o (by simp))
    exact_mod_cast this.ne'

theorem prod_inv {ops : List (PoolOp α)} (hne : ∀ o ∈ ops, o.kernel ≠ []) :
    (ops.map fun o => 1 / (o.kernel.length : α)).prod * (ops.map fun o => (o.kernel.length : α)).prod = 1 := by
  induction ops with
  | nil => simp
  | cons o ops ih =>
    have hk : (o.kernel.length : α) ≠ 0 := by
      have := List.length_pos_iff.2 (hne o (by simp))
      exact_mod_cast this.ne'
    rw [List.map_cons, List.map_cons, List.prod_cons, List.prod_cons, mul_mul_mul_comm, ih (fun p hp => hne p (by simp [hp])),
      one_div_mul_cancel hk, one_mul]

theorem seen_length {x : Tensor α} {ops : List (PoolOp α)} {sops : List (Nat × AxisPad α)} (hok : OpsOK sops)
    (hlt : ∀ o ∈ sops, o.1 < x.ndim) (hp : PadsFor x.shape ops sops) (hpo : PoolOps (padSeq x sops) ops) (hne : ∀ o ∈ ops, o.kernel ≠ [])
    {ix : List Nat} (hix : InB (corrNd (padSeq x sops) ops).shape ix) :
    (indices (ops.map fun o => o.kernel.length)).countP (fun j => decide (Original x.shape ops (corrSource ops ix j))) =
      (seen x.shape ops ix).length := by
  have := (window_perm hok hlt hp hpo hne hix).length_eq
  rw [List.length_map, map_filter', List.length_map, ← List.countP_eq_length_filter] at this
  exact this

/-- average pooling of a zero-padded tensor, divided by the share of original samples -/
theorem pooled_mean {x : Tensor α} {ops : List (PoolOp α)} {sops : List (Nat × AxisPad α)} (hz : ∀ o ∈ sops, ZeroFill o.2)
    (hlt : ∀ o ∈ sops, o.1 < x.ndim) (hp : PadsFor x.shape ops sops) (hpo : PoolOps (padSeq x sops) ops) (hne : ∀ o ∈ ops, o.kernel ≠ [])
    (havg : ∀ o ∈ ops, o.kernel = avgKernel o.kernel.length) {ix : List Nat} (hix : InB (corrNd (padSeq x sops) ops).shape ix) :
    (corrNd (padSeq x sops) ops).get ix * (ops.map fun o => (o.kernel.length : α)).prod /
      ((((indices (ops.map fun o => o.kernel.length)).countP fun j => decide (Original x.shape ops (corrSource ops ix j)) : Nat)) : α) =
      mean ((seen x.shape ops ix).map x.get) := by
  have hok : OpsOK sops := fun q hq _ => by rw [(hz q hq).rule]; simp
  have hperm := window_perm hok hlt hp hpo hne hix
  have hcount := seen_length hok hlt hp hpo hne hix
  have hsum : ((indices (ops.map fun o => o.kernel.length)).map fun j => (padSeq x sops).get (corrSource ops ix j)).sum =
      ((seen x.shape ops ix).map x.get).sum := by
    have e1 := sum_filter_zero (l := (indices (ops.map fun o => o.kernel.length)).map (corrSource ops ix))
      (f := (padSeq x sops).get) (q := fun p => decide (Original x.shape ops p)) (by
        intro p hp' hq
        obtain ⟨j, hj, rfl⟩ := List.mem_map.1 hp'
        apply padSeq_outside hz hp.nodup hlt (corrSource_inB hpo hne hix (mem_indices.1 hj))
        rw [hp.inside]
        simpa using hq)
    rw [List.map_map] at e1
    refine e1.trans ?_
    rw [(hperm.map _).sum_eq, List.map_map]
    congr 1
    apply List.map_congr_left
    intro jx hjx
    exact padSeq_crop hok hp.nodup x hlt (mem_indices.1 (List.mem_filter.1 hjx).1)
  have hget : (corrNd (padSeq x sops) ops).get ix = (ops.map fun o => 1 / (o.kernel.length : α)).prod *
      ((indices (ops.map fun o => o.kernel.length)).map fun j => (padSeq x sops).get (corrSource ops ix j)).sum := by
    have hix' := hix
    rw [corrNd, shape_ofFn] at hix'
    rw [corrNd, get_ofFn hix', mul_sum_map]
    congr 1
    apply List.map_congr_left
    intro j hj
    rw [corrWeight_average havg (mem_indices.1 hj)]
  rw [hget, hcount, hsum, mul_right_comm, prod_inv hne, one_mul, mean, List.length_map]

end TI
