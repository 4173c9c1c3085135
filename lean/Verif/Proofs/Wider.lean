import Verif.Spec.Wider
import Verif.Proofs.Steps

/-!
# A narrower padding inside a wider one: proofs
-/

set_option linter.unusedSectionVars false

namespace TI
open Tensor Spec

section
variable {α : Type} [Field α] [LinearOrder α] [IsStrictOrderedRing α]

theorem further_length (off : Nat → Nat) (ix : List Nat) : (further off ix).length = ix.length := by simp [further]

theorem further_getD {off : Nat → Nat} {ix : List Nat} {k : Nat} (hk : k < ix.length) : (further off ix).getD k 0 = ix.getD k 0 + off k := by
  rw [further, getD_map_range hk]

theorem further_set {off off' : Nat → Nat} {ix : List Nat} {d : Nat} (j : Nat) (h : ∀ k, k ≠ d → off' k = off k) (h0 : off d = 0) :
    (further off' ix).set d j = further off (ix.set d j) := by
  apply list_ext_getD (by simp [further])
  intro k hk
  have hk' : k < ix.length := by simpa [further] using hk
  rw [further_getD (by simpa using hk')]
  by_cases hkd : k = d
  · subst hkd
    rw [getD_set_self _ _ _ _ (by rwa [further_length]), getD_set_self _ _ _ _ hk', h0]; omega
  · rw [getD_set_ne _ _ _ _ _ hkd, getD_set_ne _ _ _ _ _ hkd, further_getD hk', h k hkd]

theorem further_zero {off : Nat → Nat} {ix : List Nat} (h : ∀ k, off k = 0) : further off ix = ix := by
  apply list_ext_getD (by simp [further])
  intro k hk
  rw [further_getD (by simpa [further] using hk), h, Nat.add_zero]

theorem wider_rule {s s' : AxisPad α} (h : s.Wider s') : s'.rule? = s.rule? := by
  have := h.ramp
  obtain ⟨b, a, m, cv, ev, sl⟩ := s
  obtain ⟨b', a', m', cv', ev', sl'⟩ := s'
  obtain rfl : m' = m := h.mode
  obtain rfl : cv' = cv := h.cv
  obtain rfl : sl' = sl := h.sl
  cases m' <;> first | rfl | exact absurd rfl this

theorem extendAxis_partOf {E : Ext α} {y z : Tensor α} {off off' : Nat → Nat} {d b a b' a' : Nat} (hp : PartOf off y z)
    (hd : d < y.ndim) (hsz : z.shape.getD d 0 = y.shape.getD d 0) (h0 : off d = 0) (hoff : ∀ k, k ≠ d → off' k = off k)
    (hd0 : off' d + b = b') (ha : a ≤ a') (hl : Local E (y.shape.getD d 0)) (hn : 0 < y.shape.getD d 0) :
    PartOf off' (extendAxis E d b a y) (extendAxis E d b' a' z) := by
  intro ix hix
  have hd' : d < y.shape.length := hd
  have hlen : ix.length = y.shape.length := by rw [hix.length_eq]; simp [extended_shape]
  have hdl : d < ix.length := by omega
  have hix' := hix
  rw [extended_shape] at hix'
  have hlt : ix.getD d 0 < b + y.shape.getD d 0 + a := by
    have := hix'.lt (k := d) (by simpa using hd')
    rwa [getD_set_self _ _ _ _ hd'] at this
  have hin : ∀ j < y.shape.getD d 0, InB y.shape (ix.set d j) := by
    intro j hj
    have := InB.set hix' (d := d) hj
    rwa [set_getD_self] at this
  have hB : InB (extendAxis E d b' a' z).shape (further off' ix) := by
    have h1 := (hp _ (hin 0 hn)).1
    rw [← further_set 0 hoff h0] at h1
    have h2 := InB.set' h1 (d := d) (i := (further off' ix).getD d 0) (m := b' + z.shape.getD d 0 + a') (by rw [hsz, further_getD hdl]; omega)
    rw [List.set_set, set_getD_self] at h2
    exact h2
  refine ⟨hB, ?_⟩
  rw [extended_get hB, extended_get hix, hsz, further_getD hdl]
  have e : ∀ j < y.shape.getD d 0, z.get ((further off' ix).set d j) = y.get (ix.set d j) := by
    intro j hj
    rw [further_set j hoff h0]
    exact (hp _ (hin j hj)).2
  rw [hl _ _ _ e]
  congr 1
  push_cast
  omega

theorem padStep_partOf {y z : Tensor α} {off off' : Nat → Nat} {d : Nat} {s s' : AxisPad α} (hp : PartOf off y z) (hnd : z.ndim = y.ndim)
    (hd : d < y.ndim) (hsz : z.shape.getD d 0 = y.shape.getD d 0) (h0 : off d = 0) (hoff : ∀ k, k ≠ d → off' k = off k)
    (hd0 : off' d = s'.before - s.before) (hw : s.Wider s')
    (hv : ¬ (s'.before = 0 ∧ s'.after = 0) → s'.rule? ≠ none ∧ 0 < y.shape.getD d 0) :
    PartOf off' (padStep y (d, s)) (padStep z (d, s')) := by
  have hb := hw.before
  have ha := hw.after
  by_cases hz : s'.before = 0 ∧ s'.after = 0
  · rw [padStep, padStep, if_pos hz, if_pos (show s.before = 0 ∧ s.after = 0 by omega)]
    have e : off' = off := by
      funext k
      by_cases hk : k = d
      · rw [hk, hd0, h0]; omega
      · exact hoff k hk
    rwa [e]
  obtain ⟨E, hE⟩ := Option.ne_none_iff_exists'.1 (hv hz).1
  have hE' : s.rule? = some E := by rw [← wider_rule hw]; exact hE
  have hn := (hv hz).2
  rw [padStep_eq (o := (d, s)) hd hE', padStep_eq (o := (d, s')) (by rw [hnd]; exact hd) hE]
  refine extendAxis_partOf hp hd hsz h0 hoff (by dsimp only; omega) ?_ (rule_local hE hn) hn
  dsimp only
  rw [hsz, AxisPad.total, AxisPad.total, if_neg hz, hw.mode]
  split_ifs <;> omega

theorem beforeAt_cons_self (d : Nat) (s : AxisPad α) (ops : List (Nat × AxisPad α)) : beforeAt ((d, s) :: ops) d = s.before := by
  simp [beforeAt, settingAt]

theorem beforeAt_cons_ne {d k : Nat} (h : k ≠ d) (s : AxisPad α) (ops : List (Nat × AxisPad α)) : beforeAt ((d, s) :: ops) k = beforeAt ops k := by
  simp [beforeAt, settingAt, Ne.symm h]

theorem beforeAt_zip_not_mem {k : Nat} : ∀ {axes : List Nat} {ss : List (AxisPad α)}, k ∉ axes → beforeAt (axes.zip ss) k = 0
  | [], _, _ => by simp [beforeAt, settingAt]
  | _ :: _, [], _ => by simp [beforeAt, settingAt]
  | d :: axes, s :: ss, h => by
    rw [List.mem_cons, not_or] at h
    rw [List.zip_cons_cons, beforeAt_cons_ne h.1]
    exact beforeAt_zip_not_mem h.2

theorem padSeq_partOf : ∀ {axes : List Nat} {ss ss' : List (AxisPad α)} {y z : Tensor α} {off : Nat → Nat}, ss.length = axes.length →
    ss'.length = axes.length → (∀ j (g : j < ss.length) (g' : j < ss'.length), ss[j].Wider ss'[j]) → PartOf off y z → z.ndim = y.ndim →
    (∀ d ∈ axes, d < y.ndim ∧ z.shape.getD d 0 = y.shape.getD d 0 ∧ off d = 0) → axes.Nodup →
    (∀ o ∈ axes.zip ss', ¬ (o.2.before = 0 ∧ o.2.after = 0) → o.2.rule? ≠ none ∧ 0 < y.shape.getD o.1 0) →
    PartOf (fun k => off k + (beforeAt (axes.zip ss') k - beforeAt (axes.zip ss) k)) (padSeq y (axes.zip ss)) (padSeq z (axes.zip ss'))
  | [], _, _, _, _, off, _, _, _, hp, _, _, _, _ => by simpa [padSeq, beforeAt, settingAt] using hp
  | d :: axes, s :: ss, s' :: ss', y, z, off, l, l', hw, hp, hnd, hax, hdup, hv => by
    simp only [List.length_cons, Nat.add_right_cancel_iff] at l l'
    rw [List.nodup_cons] at hdup
    obtain ⟨hd, hsz, h0⟩ := hax d (by simp)
    have hw0 : s.Wider s' := hw 0 (by simp) (by simp)
    have hstep := padStep_partOf (off' := fun k => if k = d then s'.before - s.before else off k) hp hnd hd hsz h0
      (fun k hk => if_neg hk) (if_pos rfl) hw0 (hv (d, s') (by simp))
    have hne : ∀ e ∈ axes, e ≠ d := fun e he h => hdup.1 (h ▸ he)
    have key := padSeq_partOf l l' (fun j g g' => by
        have := hw (j + 1) (by simpa using g) (by simpa using g')
        simpa only [List.getElem_cons_succ] using this) hstep (by rw [padStep_ndim, padStep_ndim, hnd])
      (fun e he => ⟨by rw [padStep_ndim]; exact (hax e (by simp [he])).1,
        by rw [padStep_size (hne e he), padStep_size (hne e he)]; exact (hax e (by simp [he])).2.1,
        by rw [if_neg (hne e he)]; exact (hax e (by simp [he])).2.2⟩) hdup.2
      (fun o ho hz => by
        have hm := List.of_mem_zip (show (o.1, o.2) ∈ axes.zip ss' from ho)
        have h1 := hv o (by rw [List.zip_cons_cons]; exact List.mem_cons_of_mem _ ho) hz
        refine ⟨h1.1, ?_⟩
        rw [padStep_size (hne _ hm.1)]
        exact h1.2)
    simp only [List.zip_cons_cons, padSeq_cons]
    convert key using 1
    funext k
    by_cases hk : k = d
    · subst hk
      rw [beforeAt_cons_self, beforeAt_cons_self, if_pos rfl, beforeAt_zip_not_mem hdup.1, beforeAt_zip_not_mem hdup.1, h0]
      omega
    · rw [beforeAt_cons_ne hk, beforeAt_cons_ne hk, if_neg hk]

end

end TI
