import Verif.Spec.Coincide
import Verif.Proofs.PoolSame
import Verif.Proofs.Roll

/-!
# Modes that coincide: proofs for C113
-/

set_option linter.unusedSectionVars false

namespace TI
open Tensor Spec

variable {α : Type} [Field α] [LinearOrder α] [IsStrictOrderedRing α]

/-- the rules `E` and `E'` agree where the setting `s` writes -/
def AgreeOn (n b a : Nat) (E E' : Ext α) : Prop := ∀ (u : Nat → α) (z : Int), -(b : Int) ≤ z → z < n + a → E n u z = E' n u z

theorem extendAxis_agree {E E' : Ext α} {x : Tensor α} {d b a : Nat} (hd : d < x.ndim) (h : AgreeOn (x.shape.getD d 0) b a E E') :
    extendAxis E d b a x = extendAxis E' d b a x := by
  apply ofFn_congr
  intro ix hix
  apply h
  · omega
  · have := hix.lt (k := d) (by rw [List.length_set]; exact hd)
    rw [getD_set_self _ _ _ _ hd] at this
    omega

theorem window_short {n : Nat} {k : Int} {l : Option Int} (h : Short k l) (hn : 0 < n) (hk : 1 ≤ k) : 1 ≤ Spec.window n l ∧ (Spec.window n l : Int) ≤ k := by
  obtain ⟨w, rfl, hw⟩ := h
  simp only [Spec.window]
  omega

theorem statVal_single (st : Stat) (a : α) : statVal st [a] = a := by
  cases st <;> simp [statVal]

theorem statVal_low {l : List α} (h1 : 1 ≤ l.length) (h2 : l.length ≤ 2) : statVal .median l = statVal .minimum l := by
  match l, h1, h2 with
  | [a], _, _ => rw [statVal_single, statVal_single]
  | [a, b], _, _ =>
    simp only [statVal, List.length_cons, List.length_nil, List.headD_cons, List.foldl_cons, List.foldl_nil, min_self]
    by_cases hab : a ≤ b
    · rw [List.mergeSort_of_pairwise (by simpa using hab)]; simp [hab]
    · have h' : b ≤ a := le_of_not_ge hab
      have : List.mergeSort [a, b] (fun a b => decide (a ≤ b)) = [b, a] := by
        apply List.Perm.eq_of_pairwise' (r := (· ≤ ·)) _ (by simpa using h') ((List.mergeSort_perm _ _).trans (List.Perm.swap _ _ _))
        have := List.pairwise_mergeSort (le := fun a b : α => decide (a ≤ b)) (fun a b c h h' => by simpa using le_trans (by simpa using h) (by simpa using h'))
          (fun a b => by simpa using le_total a b) [a, b]
        simpa using this
      rw [this]; simp [h']
theorem agree_outside {E E' : Ext α} {n b a : Nat} (h : IsExt E n) (h' : IsExt E' n)
    (hb : ∀ (u : Nat → α) (z : Int), z < 0 → -(b : Int) ≤ z → E n u z = E' n u z)
    (ha : ∀ (u : Nat → α) (z : Int), (n : Int) ≤ z → z < n + a → E n u z = E' n u z) : AgreeOn n b a E E' := by
  intro u z h1 h2
  by_cases hz : z < 0
  · exact hb u z hz h1
  by_cases hz' : z < n
  · rw [h u z (by omega) hz', h' u z (by omega) hz']
  · exact ha u z (by omega) h2

section
variable {n : Nat} {s : AxisPad α}

theorem total_plain (h : s.mode.isPeriodize = false) : s.total n = s.after := by
  rw [AxisPad.total, h]
  split_ifs with hz
  · exact hz.2.symm
  · simp_all
  · rfl

theorem emod_before {m : Nat} (hm : 0 < m) : ((-1 : Int) % m).toNat = m - 1 := by
  have : (-1 : Int) % m = m - 1 := by
    rw [← Int.add_emod_right, Int.emod_eq_of_lt] <;> omega
  omega

theorem agree_symmetric (hn : 0 < n) {b a : Nat} (h : b ≤ 1 ∧ a ≤ 1 ∨ n = 1) : AgreeOn (α := α) n b a Spec.symmetric Spec.replicate := by
  rcases h with ⟨hb, ha⟩ | rfl
  · apply agree_outside (symmetric_isExt n) (replicate_isExt n)
    · intro u z h1 h2
      obtain rfl : z = -1 := by omega
      have := emod_before (m := 2 * n) (by omega)
      push_cast at this
      simp only [Spec.symmetric, Spec.replicate, this]
      rw [if_neg (by omega), if_pos (by omega)]
      congr 1; omega
    · intro u z h1 h2
      obtain rfl : z = n := by omega
      have : ((n : Int) % (2 * n)).toNat = n := by rw [Int.emod_eq_of_lt] <;> omega
      simp only [Spec.symmetric, Spec.replicate, this]
      rw [if_neg (by omega), if_neg (by omega), if_neg (by omega)]
      congr 1; omega
  · intro u z _ _
    have e : ∀ j : Nat, j < 2 → (if j < 1 then u j else u (2 * 1 - 1 - j)) = u 0 := by
      intro j hj
      have : j = 0 ∨ j = 1 := by omega
      rcases this with rfl | rfl <;> rfl
    have hl : (z % (2 * (1 : Nat))).toNat < 2 := by omega
    simp only [Spec.symmetric, Spec.replicate]
    rw [e _ hl]
    split_ifs
    · rfl
    · congr 1; omega
    · rfl

theorem agree_oddSymmetric (hn : 0 < n) {b a : Nat} (h : b ≤ 1 ∧ a ≤ 1 ∨ n = 1) : AgreeOn (α := α) n b a Spec.oddSymmetric Spec.replicate := by
  rcases h with ⟨hb, ha⟩ | rfl
  · apply agree_outside (oddSymmetric_isExt n) (replicate_isExt n)
    · intro u z h1 h2
      obtain rfl : z = -1 := by omega
      have := emod_before (m := 2 * n) (by omega)
      push_cast at this
      have hd : (-1 : Int) / (2 * n) = -1 := by
        rw [Int.ediv_eq_iff_of_pos (by omega)]; omega
      simp only [Spec.oddSymmetric, Spec.replicate, this, hd]
      rw [if_neg (by omega), if_pos (by omega), show 2 * n - 1 - (2 * n - 1) = 0 by omega]
      push_cast; ring
    · intro u z h1 h2
      obtain rfl : z = n := by omega
      have : ((n : Int) % (2 * n)).toNat = n := by rw [Int.emod_eq_of_lt] <;> omega
      have hd : (n : Int) / (2 * n) = 0 := by rw [Int.ediv_eq_zero_of_lt] <;> omega
      simp only [Spec.oddSymmetric, Spec.replicate, this, hd]
      rw [if_neg (by omega), if_neg (by omega), if_neg (by omega), show 2 * n - 1 - n = n - 1 by omega]
      push_cast; ring
  · intro u z _ _
    have e : ∀ j : Nat, j < 2 → (if j < 1 then u j else 2 * u (1 - 1) - u (2 * 1 - 1 - j)) = u 0 := by
      intro j hj
      have : j = 0 ∨ j = 1 := by omega
      rcases this with rfl | rfl
      · rfl
      · show 2 * u 0 - u 0 = u 0; ring
    have hl : (z % (2 * (1 : Nat))).toNat < 2 := by omega
    simp only [Spec.oddSymmetric, Spec.replicate]
    rw [e _ hl, show u (1 - 1) - u 0 = 0 by simp, mul_zero, mul_zero, add_zero]
    split_ifs
    · rfl
    · congr 1; omega
    · rfl

theorem replicate_one (u : Nat → α) (z : Int) : Spec.replicate 1 u z = u 0 := by
  simp only [Spec.replicate]
  split_ifs
  · rfl
  · congr 1; omega
  · rfl

theorem agree_stat (hn : 0 < n) (st : Stat) {b a : Nat} {l l' : Option Int} (h : Short 1 l ∧ Short 1 l' ∨ n = 1) :
    AgreeOn (α := α) n b a (Spec.border (statVal st) l l') Spec.replicate := by
  have hw : Spec.window n l = 1 ∧ Spec.window n l' = 1 := by
    rcases h with ⟨h, h'⟩ | rfl
    · have := window_short h hn le_rfl; have := window_short h' hn le_rfl; omega
    · constructor
      · cases l <;> simp only [Spec.window]; omega
      · cases l' <;> simp only [Spec.window]; omega
  intro u z _ _
  simp only [Spec.border, Spec.replicate, hw.1, hw.2, List.range_one, List.map_cons, List.map_nil, statVal_single, Nat.add_zero]

theorem edge_rule (hn : 0 < n) (h : s.EdgeLike n) : s.total n = s.after ∧ ∃ E, s.rule? = some E ∧ AgreeOn n s.before s.after E Spec.replicate := by
  rcases h with h | ⟨⟨st, h⟩, hs⟩ | ⟨h | h, hs⟩ | ⟨h | h | h | h, rfl⟩ <;>
    refine ⟨total_plain (by rw [h]; rfl), _, by rw [AxisPad.rule?, h], ?_⟩
  · exact fun _ _ _ _ => rfl
  · exact agree_stat hn st hs
  · exact agree_symmetric hn hs
  · exact agree_oddSymmetric hn hs
  all_goals intro u z _ _; rw [replicate_one]
  · simp only [Spec.circular]; congr 1; omega
  all_goals rfl

theorem agree_line (hn : 2 ≤ n) {b a : Nat} (h : b ≤ 1 ∧ a ≤ 1 ∨ n = 2) : AgreeOn (α := α) n b a Spec.oddReflect Spec.smooth := by
  apply agree_outside (oddReflect_isExt n) (smooth_isExt n)
  · intro u z h1 h2
    simp only [Spec.oddReflect, Spec.smooth, if_neg (show ¬ n = 1 by omega), if_pos h1]
    rcases h with ⟨hb, ha⟩ | rfl
    · obtain rfl : z = -1 := by omega
      have := emod_before (m := 2 * (n - 1)) (by omega)
      have hd : (-1 : Int) / (2 * (n - 1) : Nat) = -1 := by
        rw [Int.ediv_eq_iff_of_pos (by omega)]; omega
      rw [this, hd]
      by_cases h2 : n = 2
      · subst h2; simp; ring
      · rw [if_neg (by omega), show 2 * (n - 1) - (2 * (n - 1) - 1) = 1 by omega]
        push_cast; ring
    · simp only [show 2 * (2 - 1) = 2 by rfl, show 2 - 1 = 1 by rfl]
      push_cast
      have h2 : z % 2 = 0 ∨ z % 2 = 1 := by omega
      have hz : z = 2 * (z / 2) + z % 2 := by omega
      rcases h2 with h2 | h2
      · rw [h2] at hz ⊢
        have hz' : (z : α) = 2 * ((z / 2 : Int) : α) := by
          have := congrArg (fun k : Int => (k : α)) hz; push_cast at this; simpa using this
        rw [hz']; simp; ring
      · rw [h2] at hz ⊢
        have hz' : (z : α) = 2 * ((z / 2 : Int) : α) + 1 := by
          have := congrArg (fun k : Int => (k : α)) hz; push_cast at this; simpa using this
        rw [hz']; simp; ring
  · intro u z h1 h2
    simp only [Spec.oddReflect, Spec.smooth, if_neg (show ¬ n = 1 by omega), if_neg (show ¬ z < 0 by omega), if_neg (show ¬ z < n by omega)]
    rcases h with ⟨hb, ha⟩ | rfl
    · obtain rfl : z = n := by omega
      by_cases h2 : n = 2
      · subst h2; norm_num; ring
      · have e1 : ((n : Int) % (2 * (n - 1) : Nat)).toNat = n := by rw [Int.emod_eq_of_lt] <;> omega
        have e2 : (n : Int) / (2 * (n - 1) : Nat) = 0 := by rw [Int.ediv_eq_zero_of_lt] <;> omega
        rw [e1, e2, if_neg (by omega), show 2 * (n - 1) - n = n - 2 by omega, show (n : Int) - (n - 1 : Nat) = 1 by omega]
        push_cast; ring
    · simp only [show 2 * (2 - 1) = 2 by rfl, show 2 - 1 = 1 by rfl, show 2 - 2 = 0 by rfl]
      push_cast
      have h2 : z % 2 = 0 ∨ z % 2 = 1 := by omega
      have hz : z = 2 * (z / 2) + z % 2 := by omega
      rcases h2 with h2 | h2
      · rw [h2] at hz ⊢
        have hz' : (z : α) = 2 * ((z / 2 : Int) : α) := by
          have := congrArg (fun k : Int => (k : α)) hz; push_cast at this; simpa using this
        rw [hz']; simp; ring
      · rw [h2] at hz ⊢
        have hz' : (z : α) = 2 * ((z / 2 : Int) : α) + 1 := by
          have := congrArg (fun k : Int => (k : α)) hz; push_cast at this; simpa using this
        rw [hz']; simp; ring

theorem line_rule (h : s.LineLike n) : s.total n = s.after ∧ ∃ E, s.rule? = some E ∧ AgreeOn n s.before s.after E Spec.smooth := by
  obtain ⟨hn, h | ⟨h, hs⟩⟩ := h <;> refine ⟨total_plain (by rw [h]; rfl), _, by rw [AxisPad.rule?, h], ?_⟩
  · exact fun _ _ _ _ => rfl
  · exact agree_line hn hs

theorem ring_rule (h : s.RingLike n) : s.total n = s.after ∧ ∃ E, s.rule? = some E ∧ AgreeOn n s.before s.after E Spec.circular := by
  rcases h with h | ⟨h, hs⟩ | ⟨h, rfl⟩
  · exact ⟨total_plain (by rw [h]; rfl), _, by rw [AxisPad.rule?, h], fun _ _ _ _ => rfl⟩
  · refine ⟨?_, _, by rw [AxisPad.rule?, h], ?_⟩
    · rw [AxisPad.total, h]
      split_ifs with hz hz'
      · exact hz.2.symm
      · rw [hs]; rfl
      · rfl
    · intro u z _ _
      simp only [Spec.periodize, if_pos hs]
  · refine ⟨total_plain (by rw [h]; rfl), _, by rw [AxisPad.rule?, h], ?_⟩
    intro u z _ _
    simp only [Spec.reflect, Spec.circular]
    rw [if_neg (by omega), if_pos (by omega)]

theorem low_rule (hn : 0 < n) (h : s.LowLike n) :
    s.total n = s.after ∧ ∃ E, s.rule? = some E ∧ AgreeOn n s.before s.after E (Spec.border (statVal .minimum) s.sl.1 s.sl.2) := by
  rcases h with h | ⟨h, hs⟩ <;> refine ⟨total_plain (by rw [h]; rfl), _, by rw [AxisPad.rule?, h], ?_⟩
  · exact fun _ _ _ _ => rfl
  · intro u z _ _
    have hw : ∀ l, (Short 2 l ∨ n ≤ 2) → 1 ≤ Spec.window n l ∧ Spec.window n l ≤ 2 := by
      rintro l (h | h)
      · have := window_short h hn (by omega); omega
      · exact ⟨(window_pos hn l).1, (window_le l).trans h⟩
    have h1 := hw s.sl.1 (hs.imp_left And.left)
    have h2 := hw s.sl.2 (hs.imp_left And.right)
    simp only [Spec.border]
    rw [statVal_low (by simpa using h1.1) (by simpa using h1.2), statVal_low (by simpa using h2.1) (by simpa using h2.2)]

theorem value_rule (hn : 0 < n) {c : α × α} (h : s.ValueLike c) :
    s.total n = s.after ∧ ∃ E, s.rule? = some E ∧ AgreeOn n s.before s.after E (Spec.constant c.1 c.2) := by
  rcases h with ⟨h, rfl⟩ | ⟨h, rfl, hb, ha⟩ <;> refine ⟨total_plain (by rw [h]; rfl), _, by rw [AxisPad.rule?, h], ?_⟩
  · exact fun _ _ _ _ => rfl
  · intro u z h1 h2
    simp only [Spec.linearRamp, Spec.constant]
    split_ifs with g1 g2
    · obtain rfl : z = -1 := by omega
      rw [show s.before = 1 by omega]; simp
    · rfl
    · obtain rfl : z = n := by omega
      rw [show s.after = 1 by omega]
      rw [show (n : Int) - (n - 1 : Nat) = 1 by omega]; simp

theorem AgreeOn.symm {b a : Nat} {E E' : Ext α} (h : AgreeOn n b a E E') : AgreeOn n b a E' E := fun u z h1 h2 => (h u z h1 h2).symm

theorem AgreeOn.trans {b a : Nat} {E E' F : Ext α} (h : AgreeOn n b a E E') (h' : AgreeOn n b a E' F) : AgreeOn n b a E F :=
  fun u z h1 h2 => (h u z h1 h2).trans (h' u z h1 h2)

/-- coinciding settings either pad the same number of samples by rules that agree there, or are equal -/
theorem coincide_rule {s' : AxisPad α} (hn : 0 < n) (h : s.Coincide n s') :
    s' = s ∨ s'.total n = s.total n ∧ ∃ E E', s.rule? = some E ∧ s'.rule? = some E' ∧ AgreeOn n s.before (s.total n) E E' := by
  have join : ∀ {F : Ext α}, (s.total n = s.after ∧ ∃ E, s.rule? = some E ∧ AgreeOn n s.before s.after E F) →
      (s'.total n = s'.after ∧ ∃ E, s'.rule? = some E ∧ AgreeOn n s'.before s'.after E F) →
      s'.total n = s.total n ∧ ∃ E E', s.rule? = some E ∧ s'.rule? = some E' ∧ AgreeOn n s.before (s.total n) E E' := by
    rintro F ⟨h1, E, h2, h3⟩ ⟨h1', E', h2', h3'⟩
    rw [h.before, h.after] at h3'
    exact ⟨by rw [h1, h1', h.after], E, E', h2, h2', by rw [h1]; exact h3.trans h3'.symm⟩
  rcases h.alike with ⟨h1, h2⟩ | ⟨h1, h2⟩ | ⟨h1, h2⟩ | ⟨h1, h2, h3⟩ | ⟨c, h1, h2⟩ | ⟨h1, h2, h3, h4⟩
  · exact .inr (join (edge_rule hn h1) (edge_rule hn h2))
  · exact .inr (join (line_rule h1) (line_rule h2))
  · exact .inr (join (ring_rule h1) (ring_rule h2))
  · exact .inr (join (low_rule hn h1) (by rw [h3]; exact low_rule hn h2))
  · exact .inr (join (value_rule hn h1) (value_rule hn h2))
  · left
    obtain ⟨b, a, m, cv, ev, sl⟩ := s
    obtain ⟨b', a', m', cv', ev', sl'⟩ := s'
    obtain ⟨rfl, rfl⟩ : b' = b ∧ a' = a := ⟨h.before, h.after⟩
    simp_all

end

theorem padStep_coincide {x : Tensor α} {d : Nat} {s s' : AxisPad α} (hd : d < x.ndim)
    (h : ¬ (s.before = 0 ∧ s.after = 0) → 0 < x.shape.getD d 0 ∧ s.Coincide (x.shape.getD d 0) s') (hb : s'.before = s.before) (ha : s'.after = s.after) :
    padStep x (d, s') = padStep x (d, s) := by
  by_cases hz : s.before = 0 ∧ s.after = 0
  · rw [padStep, padStep, if_pos hz, if_pos (by rw [hb, ha]; exact hz)]
  obtain ⟨hn, hc⟩ := h hz
  rcases coincide_rule hn hc with rfl | ⟨ht, E, E', hE, hE', hag⟩
  · rfl
  · simp only [padStep, hE, hE', hb, ha, if_neg hz, ht]
    exact (extendAxis_agree hd hag).symm

theorem padSeq_coincide : ∀ {ops ops' : List (Nat × AxisPad α)} {x : Tensor α}, (ops.map Prod.fst).Nodup → (∀ o ∈ ops, o.1 < x.ndim) →
    List.Forall₂ (fun o o' => o'.1 = o.1 ∧ o'.2.before = o.2.before ∧ o'.2.after = o.2.after ∧
      (¬ (o.2.before = 0 ∧ o.2.after = 0) → 0 < x.shape.getD o.1 0 ∧ o.2.Coincide (x.shape.getD o.1 0) o'.2)) ops ops' →
    padSeq x ops' = padSeq x ops
  | [], [], _, _, _, _ => rfl
  | o :: ops, o' :: ops', x, hnd, hlt, .cons h hs => by
    obtain ⟨d, s⟩ := o
    obtain ⟨d', s'⟩ := o'
    obtain ⟨rfl, hb, ha, hf⟩ : d' = d ∧ _ := h
    have hnd' := List.nodup_cons.1 (show (d' :: ops.map Prod.fst).Nodup from hnd)
    show padSeq (padStep x (d', s')) ops' = padSeq (padStep x (d', s)) ops
    rw [padStep_coincide (hlt (d', s) (by simp)) hf hb ha]
    apply padSeq_coincide hnd'.2
    · intro q hq
      rw [padStep_ndim]
      exact hlt q (by simp [hq])
    · have : ∀ (l l' : List (Nat × AxisPad α)), (∀ q ∈ l, q ∈ ops) → List.Forall₂ (fun o o' => o'.1 = o.1 ∧ o'.2.before = o.2.before ∧ o'.2.after = o.2.after ∧
          (¬ (o.2.before = 0 ∧ o.2.after = 0) → 0 < x.shape.getD o.1 0 ∧ o.2.Coincide (x.shape.getD o.1 0) o'.2)) l l' →
          List.Forall₂ (fun o o' => o'.1 = o.1 ∧ o'.2.before = o.2.before ∧ o'.2.after = o.2.after ∧
          (¬ (o.2.before = 0 ∧ o.2.after = 0) → 0 < (padStep x (d', s)).shape.getD o.1 0 ∧ o.2.Coincide ((padStep x (d', s)).shape.getD o.1 0) o'.2)) l l' := by
        intro l l' hl h
        induction h with
        | nil => exact .nil
        | cons h _ ih =>
          refine .cons ?_ (ih fun q hq => hl q (by simp [hq]))
          have hq' := fun e => hnd'.1 (List.mem_map.2 ⟨_, hl _ (List.mem_cons_self ..), e⟩)
          rw [padStep_size hq']
          exact h
      exact this _ _ (fun _ h => h) hs

end TI
