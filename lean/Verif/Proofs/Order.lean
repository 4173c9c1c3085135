import Verif.Spec.Order
import Verif.Proofs.Grey

/-!
# Order-preserving rules, padding and pooling
-/

set_option linter.unusedSectionVars false

namespace TI
open Tensor Spec

variable {α : Type} [Field α] [LinearOrder α] [IsStrictOrderedRing α]

/-! ## statistics -/

theorem foldl_max_mono {l l' : List α} (h : List.Forall₂ (· ≤ ·) l l') : ∀ {a a' : α}, a ≤ a' → l.foldl max a ≤ l'.foldl max a' := by
  induction h with
  | nil => intro a a' h; exact h
  | cons h _ ih => intro a a' ha; exact ih (max_le_max ha h)

theorem foldl_min_mono {l l' : List α} (h : List.Forall₂ (· ≤ ·) l l') : ∀ {a a' : α}, a ≤ a' → l.foldl min a ≤ l'.foldl min a' := by
  induction h with
  | nil => intro a a' h; exact h
  | cons h _ ih => intro a a' ha; exact ih (min_le_min ha h)

/-- the smaller list has at least as many elements below any bound -/
theorem countP_le_of {l l' : List α} (h : List.Forall₂ (· ≤ ·) l l') (v : α) :
    l'.countP (fun a => decide (a ≤ v)) ≤ l.countP (fun a => decide (a ≤ v)) := by
  induction h with
  | nil => exact le_refl _
  | @cons a b l l' h _ ih =>
    rw [List.countP_cons, List.countP_cons]
    by_cases hb : b ≤ v
    · simp only [hb, h.trans hb, decide_true, if_true]; omega
    · simp only [hb, decide_false, Bool.false_eq_true, if_false]; omega

/-- In an ascending list the elements up to position `k` are not larger than the one there. -/
theorem sorted_countP {l : List α} (hs : l.Pairwise (· ≤ ·)) {k : Nat} (hk : k < l.length) :
    k + 1 ≤ l.countP (fun a => decide (a ≤ l[k])) := by
  have h1 : (l.take (k + 1)).countP (fun a => decide (a ≤ l[k])) = (l.take (k + 1)).length := by
    rw [List.countP_eq_length]
    intro a ha
    obtain ⟨i, hi, rfl⟩ := List.getElem_of_mem ha
    rw [List.length_take] at hi
    rw [List.getElem_take]
    rcases Nat.lt_or_ge i k with hik | hik
    · simpa using List.pairwise_iff_getElem.1 hs i k (by omega) hk hik
    · have : i = k := by omega
      subst this; simp
  have h2 : (l.take (k + 1)).countP (fun a => decide (a ≤ l[k])) ≤ l.countP (fun a => decide (a ≤ l[k])) :=
    (List.take_sublist _ _).countP_le
  rw [h1, List.length_take] at h2
  omega

/-- if at least `k + 1` elements of an ascending list are at most `v`, the one at position `k` is -/
theorem sorted_le_of_countP {l : List α} (hs : l.Pairwise (· ≤ ·)) {k : Nat} (hk : k < l.length) {v : α}
    (h : k + 1 ≤ l.countP (fun a => decide (a ≤ v))) : l[k] ≤ v := by
  by_contra hc
  push Not at hc
  have e : l.countP (fun a => decide (a ≤ v)) = (l.take k).countP (fun a => decide (a ≤ v)) +
      (l.drop k).countP (fun a => decide (a ≤ v)) := by
    rw [← List.countP_append, List.take_append_drop]
  have h0 : (l.drop k).countP (fun a => decide (a ≤ v)) = 0 := by
    rw [List.countP_eq_zero]
    intro a ha
    obtain ⟨i, hi, rfl⟩ := List.getElem_of_mem ha
    rw [List.length_drop] at hi
    rw [List.getElem_drop]
    rcases Nat.eq_zero_or_pos i with rfl | hi0
    · simpa using hc
    · have := List.pairwise_iff_getElem.1 hs k (k + i) hk (by omega) (by omega)
      simpa using lt_of_lt_of_le hc this
  have h1 : (l.take k).countP (fun a => decide (a ≤ v)) ≤ k := by
    refine le_trans List.countP_le_length ?_
    rw [List.length_take]; omega
  omega

theorem mergeSort_sorted (l : List α) : (l.mergeSort fun a b => decide (a ≤ b)).Pairwise (· ≤ ·) :=
  (List.pairwise_mergeSort (by simp only [decide_eq_true_eq]; exact fun a b c => le_trans) (by
    simp only [Bool.or_eq_true, decide_eq_true_eq]; exact fun a b => le_total a b) l).imp (by simp)

theorem orderStat_mono {l l' : List α} (h : List.Forall₂ (· ≤ ·) l l') {k : Nat} (hk : k < l.length) :
    (l.mergeSort fun a b => decide (a ≤ b)).getD k 0 ≤ (l'.mergeSort fun a b => decide (a ≤ b)).getD k 0 := by
  have hl := h.length_eq
  have h1 : k < (l.mergeSort fun a b => decide (a ≤ b)).length := by rwa [List.length_mergeSort]
  have h2 : k < (l'.mergeSort fun a b => decide (a ≤ b)).length := by rw [List.length_mergeSort]; omega
  rw [List.getD_eq_getElem?_getD, List.getD_eq_getElem?_getD, List.getElem?_eq_getElem h1, List.getElem?_eq_getElem h2,
    Option.getD_some, Option.getD_some]
  apply sorted_le_of_countP (mergeSort_sorted l) h1
  have e := sorted_countP (mergeSort_sorted l') h2
  rw [(List.mergeSort_perm l' _).countP_eq] at e
  rw [(List.mergeSort_perm l _).countP_eq]
  exact e.trans (countP_le_of h _)

theorem statVal_mono {st : Stat} {l l' : List α} (hne : l ≠ []) (h : List.Forall₂ (· ≤ ·) l l') : statVal st l ≤ statVal st l' := by
  have hl := h.length_eq
  have hp : 0 < l.length := List.length_pos_iff.2 hne
  have hd : l.headD 0 ≤ l'.headD 0 := by
    cases h with
    | nil => exact le_refl _
    | cons h _ => exact h
  cases st with
  | mean =>
    rw [statVal, statVal, ← hl]
    have : l.sum ≤ l'.sum := h.sum_le_sum
    have h0 : (0 : α) < (l.length : α) := by exact_mod_cast hp
    exact div_le_div_of_nonneg_right this h0.le
  | median =>
    rw [statVal, statVal, ← hl]
    exact orderStat_mono h (by omega)
  | maximum => exact foldl_max_mono h hd
  | minimum => exact foldl_min_mono h hd

theorem forall₂_range {k : Nat} {u u' : Nat → α} (h : ∀ j < k, u j ≤ u' j) :
    List.Forall₂ (· ≤ ·) ((List.range k).map u) ((List.range k).map u') := by
  rw [List.forall₂_iff_get]
  refine ⟨by simp, fun i h1 h2 => ?_⟩
  simpa using h i (by simpa using h1)

/-! ## rules -/

theorem ramp_mono {t a a' b b' : α} (h0 : 0 ≤ t) (h1 : t ≤ 1) (ha : a ≤ a') (hb : b ≤ b') :
    a + t * (b - a) ≤ a' + t * (b' - a') := by
  have e1 : a + t * (b - a) = (1 - t) * a + t * b := by ring
  have e2 : a' + t * (b' - a') = (1 - t) * a' + t * b' := by ring
  rw [e1, e2]
  exact add_le_add (mul_le_mul_of_nonneg_left ha (by linarith)) (mul_le_mul_of_nonneg_left hb h0)

theorem rule_rises {s s' : AxisPad α} (h : s.Rises s') (hb : s'.before = s.before) (ha : s'.after = s.after) {E : Ext α}
    (hE : s.rule? = some E) {n : Nat} (hn : 0 < n) :
    ∃ E', s'.rule? = some E' ∧ ∀ (u u' : Nat → α) (z : Int), (∀ j < n, u j ≤ u' j) → -(s.before : Int) ≤ z →
      z < n + s.total n → E n u z ≤ E' n u' z := by
  have coord : ∀ c, modeC s.mode = some c → (∀ n z, modeS s.mode n z = (1 : α)) → s'.rule? = s.rule? →
      ∃ E', s'.rule? = some E' ∧ ∀ (u u' : Nat → α) (z : Int), (∀ j < n, u j ≤ u' j) → -(s.before : Int) ≤ z →
      z < n + s.total n → E n u z ≤ E' n u' z := by
    intro c hc hs he
    obtain ⟨E', h1, h2, h3⟩ := rule_coord hc hn
    rw [hE] at h1
    cases h1
    refine ⟨E, by rw [he, hE], fun u u' z hu _ _ => ?_⟩
    rw [h2, h2, hs, one_mul, one_mul]
    exact hu _ (h3 z)
  obtain ⟨b, a, m, cv, ev, sl⟩ := s
  obtain ⟨b', a', m', cv', ev', sl'⟩ := s'
  obtain ⟨h3, h4, h5⟩ := h
  simp only at hb ha h3 h4
  subst hb ha h3 h4
  cases m' <;> simp only at h5
  case replicate => exact coord _ rfl (fun _ _ => rfl) rfl
  case circular => exact coord _ rfl (fun _ _ => rfl) rfl
  case periodize => exact coord _ rfl (fun _ _ => rfl) rfl
  case symmetric => exact coord _ rfl (fun _ _ => rfl) rfl
  case reflect => exact coord _ rfl (fun _ _ => rfl) rfl
  all_goals
    simp only [AxisPad.rule?, Option.some.injEq] at hE
    subst hE
    refine ⟨_, rfl, fun u u' z hu hz1 hz2 => ?_⟩
  case constant =>
    simp only [Spec.constant]
    split_ifs
    · exact h5.1
    · exact hu _ (by omega)
    · exact h5.2
  case linearRamp =>
    have ht : AxisPad.total (⟨b', a', .linearRamp, cv, ev, sl'⟩ : AxisPad α) n ≤ a' := by
      simp only [AxisPad.total, Mode.isPeriodize, Bool.false_eq_true, if_false]; split_ifs <;> omega
    simp only at hz1
    simp only [Spec.linearRamp]
    split_ifs with c1 c2
    · have hb0 : (0 : α) < (b' : α) := by exact_mod_cast (by omega : 0 < b')
      apply ramp_mono _ _ (hu 0 hn) h5.1
      · apply div_nonneg _ hb0.le
        exact_mod_cast (by omega : (0 : Int) ≤ -z)
      · rw [div_le_one hb0]
        have : (-z : Int) ≤ (b' : Int) := by omega
        exact_mod_cast this
    · exact hu _ (by omega)
    · have ha0 : (0 : α) < (a' : α) := by exact_mod_cast (by omega : 0 < a')
      apply ramp_mono _ _ (hu _ (by omega)) h5.2
      · apply div_nonneg _ ha0.le
        exact_mod_cast (by omega : (0 : Int) ≤ z - (n - 1 : Nat))
      · rw [div_le_one ha0]
        have : (z - (n - 1 : Nat) : Int) ≤ (a' : Int) := by omega
        exact_mod_cast this
  case stat st =>
    have hw : ∀ w, 0 < window n w ∧ window n w ≤ n := by
      intro w
      cases w with
      | none => exact ⟨hn, le_refl _⟩
      | some w => simp only [window]; omega
    have h1 := hw sl'.1
    have h2 := hw sl'.2
    simp only [Spec.border]
    split_ifs
    · exact statVal_mono (by simp; omega) (forall₂_range fun j hj => hu j (by omega))
    · exact hu _ (by omega)
    · exact statVal_mono (by simp; omega) (forall₂_range fun j hj => hu _ (by omega))

/-! ## padding -/

theorem padStep_below {x y : Tensor α} {d : Nat} {s s' : AxisPad α} (h : ¬ (s.before = 0 ∧ s.after = 0) → s.Rises s') (hb : s'.before = s.before)
    (ha : s'.after = s.after) (hd : d < x.ndim) (hn : ¬ (s.before = 0 ∧ s.after = 0) → s.rule? ≠ none ∧ 0 < x.shape.getD d 0) (hxy : Below x y) :
    Below (padStep x (d, s)) (padStep y (d, s')) := by
  by_cases hz : s.before = 0 ∧ s.after = 0
  · rw [padStep, padStep, if_pos hz, if_pos (by rw [hb, ha]; exact hz)]
    exact hxy
  have hf := h hz
  obtain ⟨E, hE⟩ := Option.ne_none_iff_exists'.1 (hn hz).1
  obtain ⟨E', hE', key⟩ := rule_rises hf hb ha hE (hn hz).2
  have ht : s'.total (x.shape.getD d 0) = s.total (x.shape.getD d 0) := by simp only [AxisPad.total, hb, ha, hf.mode]
  simp only [padStep, hE, hE', hb, ha, if_neg hz]
  rw [hxy.1, ht]
  refine ⟨by rw [extended_shape, extended_shape, hxy.1], ?_⟩
  intro ix hix
  have hix' : InB (extendAxis E' d s.before (s.total (x.shape.getD d 0)) y).shape ix := by
    rw [extended_shape, hxy.1, ← extended_shape]; exact hix
  rw [extended_get hix, extended_get hix', hxy.1]
  rw [extended_shape] at hix
  have hl := hix.lt (k := d) (by rw [List.length_set]; exact hd)
  rw [getD_set_self _ _ _ _ hd] at hl
  apply key
  · intro j hj
    apply hxy.2
    have h1 := hix.set' (d := d) hj
    rwa [List.set_set, set_getD_self] at h1
  · omega
  · omega

theorem padSeq_below : ∀ {ops ops' : List (Nat × AxisPad α)} {x y : Tensor α}, (ops.map Prod.fst).Nodup →
    List.Forall₂ (fun o o' => o'.1 = o.1 ∧ o'.2.before = o.2.before ∧ o'.2.after = o.2.after ∧
      (¬ (o.2.before = 0 ∧ o.2.after = 0) → o.2.Rises o'.2)) ops ops' → (∀ o ∈ ops, o.1 < x.ndim) →
    (∀ o ∈ ops, ¬ (o.2.before = 0 ∧ o.2.after = 0) → o.2.rule? ≠ none ∧ 0 < x.shape.getD o.1 0) →
    Below x y → Below (padSeq x ops) (padSeq y ops')
  | [], [], _, _, _, _, _, _, h => h
  | o :: ops, o' :: ops', x, y, hnd, .cons h hs, hd, hn, hxy => by
    obtain ⟨d, s⟩ := o
    obtain ⟨d', s'⟩ := o'
    obtain ⟨rfl, hb, ha, hf⟩ : d' = d ∧ _ := h
    have hnd' := List.nodup_cons.1 (show (d' :: ops.map Prod.fst).Nodup from hnd)
    have hsh := padStep_shape (x := x) (o := (d', s)) fun hw => (hn (d', s) (by simp) hw).1
    show Below (padSeq (padStep x (d', s)) ops) (padSeq (padStep y (d', s')) ops')
    refine padSeq_below hnd'.2 hs ?_ ?_ (padStep_below hf hb ha (hd (d', s) (by simp)) (hn (d', s) (by simp)) hxy)
    · intro q hq
      simpa [ndim, hsh] using hd q (by simp [hq])
    · intro q hq hz
      have hq' : q.1 ≠ d' := fun e => hnd'.1 (List.mem_map.2 ⟨q, hq, e⟩)
      rw [hsh, getD_set_ne _ _ _ _ _ hq']
      exact hn q (by simp [hq]) hz

/-! ## pooling -/

theorem slide_below {x y : Tensor α} {o : PoolOp α} (ho : o.kernel ≠ [] → o.axis < x.ndim ∧ 0 < o.stride) (hw : ∀ a ∈ o.kernel, 0 ≤ a)
    (h : Below x y) : Below (slide x o) (slide y o) := by
  by_cases hk : o.kernel = []
  · simpa [slide, hk] using h
  have hs : (slide y o).shape = (slide x o).shape := by rw [slide_shape, slide_shape, h.1]
  refine ⟨hs, fun ix hix => ?_⟩
  rw [slide_get hk hix, slide_get hk (by rw [hs]; exact hix)]
  apply List.sum_le_sum
  intro j hj
  have hj := List.mem_range.1 hj
  apply mul_le_mul_of_nonneg_left
  · exact h.2 _ (slide_inB (ho hk).2 (ho hk).1 hk hix hj)
  · apply hw; simp [hj]

theorem poolSeq_below : ∀ {ops : List (PoolOp α)} {x y : Tensor α}, Fitting x ops → (∀ o ∈ ops, ∀ a ∈ o.kernel, 0 ≤ a) →
    Below x y → Below (poolSeq x ops) (poolSeq y ops)
  | [], _, _, _, _, h => h
  | o :: ops, x, y, hf, hw, h => by
    have h' : _ ∧ _ := hf
    show Below (poolSeq (slide x o) ops) (poolSeq (slide y o) ops)
    exact poolSeq_below h'.2 (fun q hq => hw q (by simp [hq]))
      (slide_below (fun hk => ⟨(h'.1 hk).1, (h'.1 hk).2.1⟩) (hw o (by simp)) h)

/-! ## from order to distance -/

theorem close_iff {δ : α} {x y : Tensor α} : Close δ x y ↔
    Below x (y.map fun v => 1 * v + δ) ∧ Below y (x.map fun v => 1 * v + δ) := by
  constructor
  · rintro ⟨hs, h⟩
    refine ⟨⟨hs, fun ix hix => ?_⟩, ⟨hs.symm, fun ix hix => ?_⟩⟩
    · rw [get_map _ _ (by rw [hs]; exact hix)]
      have := (abs_le.1 (h ix hix)).2
      linarith
    · rw [hs] at hix
      rw [get_map _ _ hix]
      have := (abs_le.1 (h ix hix)).1
      linarith
  · rintro ⟨⟨hs, h1⟩, ⟨_, h2⟩⟩
    have hs : y.shape = x.shape := hs
    refine ⟨hs, fun ix hix => ?_⟩
    have e1 := h1 ix hix
    have e2 := h2 ix (by rw [hs]; exact hix)
    rw [get_map _ _ (by rw [hs]; exact hix)] at e1
    rw [get_map _ _ hix] at e2
    rw [abs_le]
    constructor <;> linarith

/-- constants and end values raised by `δ` -/
def raised (δ : α) (s : AxisPad α) : AxisPad α :=
  { s with cv := (1 * s.cv.1 + δ, 1 * s.cv.2 + δ), ev := (1 * s.ev.1 + δ, 1 * s.ev.2 + δ) }

theorem raised_rises {δ : α} (hδ : 0 ≤ δ) {s : AxisPad α} (h : s.Rises s) : s.Rises (raised δ s) := by
  obtain ⟨b, a, m, cv, ev, sl⟩ := s
  have h := h.fill
  refine ⟨rfl, rfl, ?_⟩
  cases m <;> simp only [raised, one_mul] at h ⊢
  · exact ⟨by linarith, by linarith⟩
  · exact ⟨by linarith, by linarith⟩

theorem raised_follows {δ : α} {s : AxisPad α} (h : s.Rises s) : s.Follows (fun v => 1 * v + δ) (raised δ s) := by
  obtain ⟨b, a, m, cv, ev, sl⟩ := s
  have h := h.fill
  refine ⟨rfl, rfl, ?_⟩
  cases m with
  | stat st =>
    cases st with
    | mean => exact ⟨1, δ, fun v => rfl⟩
    | _ => intro u v huv; simp only; linarith
  | linearRamp => exact ⟨rfl, 1, δ, fun v => rfl⟩
  | constant => exact rfl
  | _ => trivial

theorem forall₂_raised {P : Nat × AxisPad α → Nat × AxisPad α → Prop} {δ : α} {ops : List (Nat × AxisPad α)}
    (h : ∀ o ∈ ops, P o (o.1, raised δ o.2)) : List.Forall₂ P ops (ops.map fun o => (o.1, raised δ o.2)) := by
  induction ops with
  | nil => exact .nil
  | cons o ops ih => exact .cons (h o (by simp)) (ih fun q hq => h q (by simp [hq]))

theorem padSeq_close {δ : α} (hδ : 0 ≤ δ) {ops : List (Nat × AxisPad α)} {x y : Tensor α} (hnd : (ops.map Prod.fst).Nodup)
    (hd : ∀ o ∈ ops, o.1 < x.ndim) (hr : ∀ o ∈ ops, ¬ (o.2.before = 0 ∧ o.2.after = 0) → o.2.Rises o.2)
    (hn : ∀ o ∈ ops, ¬ (o.2.before = 0 ∧ o.2.after = 0) → o.2.rule? ≠ none ∧ 0 < x.shape.getD o.1 0)
    (h : Close δ x y) : Close δ (padSeq x ops) (padSeq y ops) := by
  have hb := forall₂_raised (δ := δ) (ops := ops) (P := fun o o' => o'.1 = o.1 ∧ o'.2.before = o.2.before ∧ o'.2.after = o.2.after ∧
      (¬ (o.2.before = 0 ∧ o.2.after = 0) → o.2.Rises o'.2)) fun o ho => ⟨rfl, rfl, rfl, fun hz => raised_rises hδ (hr o ho hz)⟩
  have hf := forall₂_raised (δ := δ) (ops := ops) (P := fun o o' => o'.1 = o.1 ∧ o'.2.before = o.2.before ∧ o'.2.after = o.2.after ∧
      (¬ (o.2.before = 0 ∧ o.2.after = 0) → o.2.Follows (fun v => 1 * v + δ) o'.2)) fun o ho => ⟨rfl, rfl, rfl, fun hz => raised_follows (hr o ho hz)⟩
  obtain ⟨h1, h2⟩ := close_iff.1 h
  have hs := h.1
  rw [close_iff]
  constructor
  · rw [← padSeq_map hnd hf (by rw [hs]; exact hn)]
    exact padSeq_below hnd hb hd hn h1
  · rw [← padSeq_map hnd hf hn]
    exact padSeq_below hnd hb (by intro o ho; simp only [ndim, hs]; exact hd o ho) (by rw [hs]; exact hn) h2

theorem poolSeq_close {δ : α} {ops : List (PoolOp α)} {x y : Tensor α} (hf : Fitting x ops) (hw : ∀ o ∈ ops, ∀ a ∈ o.kernel, 0 ≤ a)
    (h : Close δ x y) : Close (δ * totalWeight ops) (poolSeq x ops) (poolSeq y ops) := by
  obtain ⟨h1, h2⟩ := close_iff.1 h
  have hfy := Fitting_congr h.1.symm hf
  rw [close_iff]
  constructor
  · rw [← poolSeq_map 1 δ hfy]
    exact poolSeq_below hf hw h1
  · rw [← poolSeq_map 1 δ hf]
    exact poolSeq_below hfy hw h2

end TI
