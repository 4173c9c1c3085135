import Verif.Spec.Grey
import Verif.Proofs.Batch

/-!
# Changing the grey values: padding, pooling, maps
-/

set_option linter.unusedSectionVars false

namespace TI
open Tensor Spec

section
variable {α : Type} [Field α] [LinearOrder α] [IsStrictOrderedRing α] {f : α → α}

/-! ## statistics -/

theorem foldl_max_map (hf : ∀ u v, u ≤ v → f u ≤ f v) : ∀ (l : List α) (a : α), (l.map f).foldl max (f a) = f (l.foldl max a)
  | [], _ => rfl
  | b :: l, a => by
    have e : max (f a) (f b) = f (max a b) := (Monotone.map_max fun u v h => hf u v h).symm
    rw [List.map_cons, List.foldl_cons, List.foldl_cons, e, foldl_max_map hf]

theorem foldl_min_map (hf : ∀ u v, u ≤ v → f u ≤ f v) : ∀ (l : List α) (a : α), (l.map f).foldl min (f a) = f (l.foldl min a)
  | [], _ => rfl
  | b :: l, a => by
    have e : min (f a) (f b) = f (min a b) := (Monotone.map_min fun u v h => hf u v h).symm
    rw [List.map_cons, List.foldl_cons, List.foldl_cons, e, foldl_min_map hf]

theorem mergeSort_map (hf : ∀ u v, u ≤ v → f u ≤ f v) (l : List α) :
    (l.map f).mergeSort (fun a b => decide (a ≤ b)) = (l.mergeSort fun a b => decide (a ≤ b)).map f := by
  have hs : ∀ l : List α, (l.mergeSort fun a b => decide (a ≤ b)).Pairwise fun a b => a ≤ b := fun l =>
    (List.pairwise_mergeSort (by simp only [decide_eq_true_eq]; exact fun a b c => le_trans) (by
      simp only [Bool.or_eq_true, decide_eq_true_eq]; exact fun a b => le_total a b) l).imp (by simp)
  apply List.Perm.eq_of_pairwise' (r := fun a b : α => a ≤ b) (hs _)
  · rw [List.pairwise_map]
    exact (hs l).imp fun h => hf _ _ h
  · exact (List.mergeSort_perm _ _).trans ((List.mergeSort_perm l _).map f).symm

theorem sum_affine {l : List α} (c d : α) (hf : ∀ v, f v = c * v + d) : (l.map f).sum = c * l.sum + d * (l.length : α) := by
  induction l with
  | nil => simp
  | cons a l ih => rw [List.map_cons, List.sum_cons, ih, hf, List.sum_cons, List.length_cons]; push_cast; ring

theorem statVal_map {st : Stat} {l : List α} (hne : l ≠ []) (hf : StatFollows f st) : statVal st (l.map f) = f (statVal st l) := by
  have hd : (l.map f).headD 0 = f (l.headD 0) := by
    cases l with
    | nil => exact absurd rfl hne
    | cons a l => rfl
  cases st with
  | mean =>
    obtain ⟨c, d, hf⟩ := hf
    have hl : (l.length : α) ≠ 0 := Nat.cast_ne_zero.2 (by simpa using hne)
    rw [statVal, statVal, sum_affine c d hf, List.length_map, hf]
    field_simp
  | median =>
    have hk : (l.length - 1) / 2 < (l.mergeSort fun a b => decide (a ≤ b)).length := by
      rw [List.length_mergeSort]
      have : 0 < l.length := List.length_pos_iff.2 hne
      omega
    rw [statVal, statVal, mergeSort_map hf, List.length_map, List.getD_eq_getElem?_getD, List.getD_eq_getElem?_getD, List.getElem?_map,
      List.getElem?_eq_getElem hk, Option.map_some, Option.getD_some, Option.getD_some]
  | maximum => rw [statVal, statVal, hd, foldl_max_map hf]
  | minimum => rw [statVal, statVal, hd, foldl_min_map hf]

/-! ## extension rules -/

theorem rule_follows {s s' : AxisPad α} (h : s.Follows f s') (hb : s'.before = s.before) (ha : s'.after = s.after) {E : Ext α} (hE : s.rule? = some E) {n : Nat} (hn : 0 < n) :
    ∃ E', s'.rule? = some E' ∧ ∀ (u : Nat → α) z, E' n (fun j => f (u j)) z = f (E n u z) := by
  obtain ⟨b, a, m, cv, ev, sl⟩ := s
  obtain ⟨b', a', m', cv', ev', sl'⟩ := s'
  obtain ⟨h3, h4, h5⟩ := h
  simp only at hb ha h3 h4
  subst hb ha h3 h4
  cases m' <;> simp only at h5 <;> simp only [AxisPad.rule?, Option.some.injEq] at hE <;> subst hE <;>
    refine ⟨_, rfl, fun u z => ?_⟩
  case replicate => simp only [Spec.replicate]; split_ifs <;> rfl
  case circular => rfl
  case periodize => simp only [Spec.periodize, Spec.circular]; split_ifs <;> rfl
  case symmetric => simp only [Spec.symmetric]; split_ifs <;> rfl
  case reflect => simp only [Spec.reflect]; split_ifs <;> rfl
  case antisymmetric => simp only [Spec.antisymmetric]; split_ifs <;> simp only [h5]
  case zeros => simp only [Spec.constant]; split_ifs <;> simp only [h5]
  case constant => simp only [Spec.constant]; split_ifs <;> simp only [h5]
  case smooth =>
    obtain ⟨c, d, hf⟩ := h5
    simp only [Spec.smooth, hf]; split_ifs <;> ring
  case oddReflect =>
    obtain ⟨c, d, hf⟩ := h5
    simp only [Spec.oddReflect, hf]; split_ifs <;> ring
  case oddSymmetric =>
    obtain ⟨c, d, hf⟩ := h5
    simp only [Spec.oddSymmetric, hf]; split_ifs <;> ring
  case linearRamp =>
    obtain ⟨he, c, d, hf⟩ := h5
    simp only [Spec.linearRamp, he, hf]; split_ifs <;> ring
  case stat st =>
    have hw : ∀ w, 0 < window n w := by
      intro w
      cases w with
      | none => exact hn
      | some w => simp only [window]; omega
    have hm : ∀ (k : Nat) (v : Nat → α), 0 < k → statVal st ((List.range k).map fun j => f (v j)) = f (statVal st ((List.range k).map v)) := by
      intro k v hk
      have := statVal_map (l := (List.range k).map v) (by simpa using hk.ne') h5
      rwa [List.map_map] at this
    simp only [Spec.border]
    split_ifs
    · exact hm _ _ (hw _)
    · rfl
    · exact hm _ _ (hw _)

/-! ## padding -/

theorem padStep_map {x : Tensor α} {d : Nat} {s s' : AxisPad α} (h : ¬ (s.before = 0 ∧ s.after = 0) → s.Follows f s') (hb : s'.before = s.before)
    (ha : s'.after = s.after) (hn : ¬ (s.before = 0 ∧ s.after = 0) → s.rule? ≠ none ∧ 0 < x.shape.getD d 0) :
    padStep (x.map f) (d, s') = (padStep x (d, s)).map f := by
  by_cases hz : s.before = 0 ∧ s.after = 0
  · rw [padStep, padStep, if_pos hz, if_pos (by rw [hb, ha]; exact hz)]
  have hf := h hz
  obtain ⟨E, hE⟩ := Option.ne_none_iff_exists'.1 (hn hz).1
  obtain ⟨E', hE', key⟩ := rule_follows hf hb ha hE (hn hz).2
  have ht : s'.total (x.shape.getD d 0) = s.total (x.shape.getD d 0) := by simp only [AxisPad.total, hb, ha, hf.mode]
  simp only [padStep, hE, hE', hb, ha, if_neg hz]
  rw [show (x.map f).shape = x.shape from rfl, ht]
  apply ext_get (show (extendAxis E' d s.before (s.total (x.shape.getD d 0)) (x.map f)).shape =
    ((extendAxis E d s.before (s.total (x.shape.getD d 0)) x).map f).shape from rfl)
  intro ix hix
  have hix' : InB (extendAxis E d s.before (s.total (x.shape.getD d 0)) x).shape ix := hix
  rw [get_map f _ hix', extended_get hix, extended_get hix', ← key]
  apply rule_local hE' (hn hz).2
  intro j hj
  rw [get_map]
  have h1 := hix'.set' (d := d) hj
  rwa [extended_shape, List.set_set, set_getD_self] at h1

theorem padSeq_map : ∀ {ops ops' : List (Nat × AxisPad α)} {x : Tensor α}, (ops.map Prod.fst).Nodup →
    List.Forall₂ (fun o o' => o'.1 = o.1 ∧ o'.2.before = o.2.before ∧ o'.2.after = o.2.after ∧
      (¬ (o.2.before = 0 ∧ o.2.after = 0) → o.2.Follows f o'.2)) ops ops' →
    (∀ o ∈ ops, ¬ (o.2.before = 0 ∧ o.2.after = 0) → o.2.rule? ≠ none ∧ 0 < x.shape.getD o.1 0) →
    padSeq (x.map f) ops' = (padSeq x ops).map f
  | [], [], _, _, _, _ => rfl
  | o :: ops, o' :: ops', x, hnd, .cons h hs, hn => by
    obtain ⟨d, s⟩ := o
    obtain ⟨d', s'⟩ := o'
    obtain ⟨rfl, hb, ha, hf⟩ : d' = d ∧ _ := h
    have hnd' := List.nodup_cons.1 (show (d' :: ops.map Prod.fst).Nodup from hnd)
    have hsh := padStep_shape (x := x) (o := (d', s)) fun hw => (hn (d', s) (by simp) hw).1
    show padSeq (padStep (x.map f) (d', s')) ops' = (padSeq (padStep x (d', s)) ops).map f
    rw [padStep_map hf hb ha (hn (d', s) (by simp))]
    apply padSeq_map hnd'.2 hs
    intro q hq hz
    have hq' : q.1 ≠ d' := fun e => hnd'.1 (List.mem_map.2 ⟨q, hq, e⟩)
    rw [hsh, getD_set_ne _ _ _ _ _ hq']
    exact hn q (by simp [hq]) hz

/-! ## pooling -/

theorem affine_sum (w : List α) (u : Nat → α) (c d : α) : ∀ n, n = w.length →
    ((List.range n).map fun j => w.getD j 0 * (c * u j + d)).sum = c * ((List.range n).map fun j => w.getD j 0 * u j).sum + d * w.sum := by
  intro n hn
  have e : (List.range n).map (fun j => w.getD j 0) = w := by
    subst hn
    apply List.ext_getElem (by simp)
    intro i h1 h2
    simp [h2]
  have : ∀ l : List Nat, (l.map fun j => w.getD j 0 * (c * u j + d)).sum =
      c * (l.map fun j => w.getD j 0 * u j).sum + d * (l.map fun j => w.getD j 0).sum := by
    intro l
    induction l with
    | nil => simp
    | cons j l ih => simp only [List.map_cons, List.sum_cons, ih]; ring
  rw [this, e]

theorem slide_map {x : Tensor α} {o : PoolOp α} (c d : α) (ho : o.kernel ≠ [] → o.axis < x.ndim) (hst : o.kernel ≠ [] → 0 < o.stride) :
    slide (x.map fun v => c * v + d) o = (slide x o).map fun v => c * v + d * (if o.kernel = [] then 1 else o.kernel.sum) := by
  by_cases hk : o.kernel = []
  · simp [slide, hk]
  rw [if_neg hk]
  have hsh : (slide (x.map fun v => c * v + d) o).shape = ((slide x o).map fun v => c * v + d * o.kernel.sum).shape := by
    rw [slide_shape, if_neg hk]
    show _ = (slide x o).shape
    rw [slide_shape, if_neg hk]
    rfl
  apply ext_get hsh
  intro ix hix
  have hix' : InB (slide x o).shape ix := by rw [hsh] at hix; exact hix
  rw [get_map _ _ hix', slide_get hk hix, slide_get hk hix', ← affine_sum _ _ _ _ _ rfl]
  congr 1
  apply List.map_congr_left
  intro j hj
  rw [get_map _ _ (slide_inB (hst hk) (ho hk) hk hix' (List.mem_range.1 hj))]

theorem map_shape (x : Tensor α) (f : α → α) : (x.map f).shape = x.shape := rfl

theorem poolSeq_map : ∀ {ops : List (PoolOp α)} {x : Tensor α} (c d : α), Fitting x ops →
    poolSeq (x.map fun v => c * v + d) ops = (poolSeq x ops).map fun v => c * v + d * totalWeight ops
  | [], x, c, d, _ => by simp only [poolSeq, List.foldl_nil, totalWeight, List.map_nil, List.prod_nil, mul_one]
  | o :: ops, x, c, d, h => by
    have h' : _ ∧ _ := h
    show poolSeq (slide (x.map fun v => c * v + d) o) ops = (poolSeq (slide x o) ops).map _
    rw [slide_map c d (fun hk => (h'.1 hk).1) (fun hk => (h'.1 hk).2.1), poolSeq_map c _ h'.2]
    congr 1
    funext v
    rw [totalWeight, totalWeight, List.map_cons, List.prod_cons]
    ring

/-! ## same padding and blurs -/

section
variable {g : PoolArgs α} {gp gp' : PadArgs α} {x : Tensor α} {ax : Axes} {axes : List Nat} {c d : α}

theorem sameOps_follows {shape : List Nat} (h : gp.Follows f axes.length gp') :
    List.Forall₂ (fun o o' => o'.1 = o.1 ∧ o'.2.before = o.2.before ∧ o'.2.after = o.2.after ∧
      (¬ (o.2.before = 0 ∧ o.2.after = 0) → o.2.Follows f o'.2)) (sameOps g gp shape axes) (sameOps g gp' shape axes) := by
  rw [sameOps, sameOps, List.forall₂_iff_get]
  refine ⟨by simp, ?_⟩
  intro i h1 h2
  have hi : i < axes.length := by simpa using h1
  simp only [List.get_eq_getElem, List.getElem_zip, List.getElem_map, List.getElem_range]
  rw [withWidths_entry _ _ _ _ hi, withWidths_entry _ _ _ _ hi]
  exact ⟨trivial, rfl, rfl, fun _ => ⟨(h i hi).mode, (h i hi).sl, (h i hi).fill⟩⟩

theorem same_map (hc : SameCall g gp x ax axes) (h : gp.Follows (fun v => c * v + d) axes.length gp') :
    poolSeq (padSeq (x.map fun v => c * v + d) (sameOps g gp' x.shape axes)) (g.ops axes) =
      (poolSeq (padSeq x (sameOps g gp x.shape axes)) (g.ops axes)).map fun v => c * v + d * totalWeight (g.ops axes) := by
  rw [padSeq_map (by rw [sameOps_fst]; exact hc.nodup) (sameOps_follows h), poolSeq_map c d hc.poolOps.fitting]
  intro o ho hw
  refine ⟨hc.opsOK o ho hw, ?_⟩
  obtain ⟨i, hi, rfl⟩ := sameOps_mem ho
  exact hc.pos _ (getD_mem_lt hi)

end

section
variable {g : Given (List α)} {gp : Option (PadArgs α)} {x y1 y2 : Tensor α} {ax : Axes} {axes : List Nat} {p : Option (Padder α)} {c : α}

theorem Spec.AxisPad.Follows.square {s : AxisPad α} (h : s.Follows (fun v => c * v) s) : s.Follows (fun v => c * (c * v)) s := by
  obtain ⟨b, a, m, cv, ev, sl⟩ := s
  refine ⟨rfl, rfl, ?_⟩
  have h5 := h.fill
  cases m <;> simp only at h5 ⊢
  case smooth => exact ⟨c * c, 0, fun v => by ring⟩
  case oddReflect => exact ⟨c * c, 0, fun v => by ring⟩
  case oddSymmetric => exact ⟨c * c, 0, fun v => by ring⟩
  case antisymmetric => intro v; ring
  case zeros => ring
  case constant => rw [Prod.ext_iff] at h5 ⊢; exact ⟨h5.1.trans (congrArg (c * ·) h5.1), h5.2.trans (congrArg (c * ·) h5.2)⟩
  case linearRamp =>
    refine ⟨?_, c * c, 0, fun v => by ring⟩
    have h6 := h5.1
    rw [Prod.ext_iff] at h6 ⊢
    exact ⟨h6.1.trans (congrArg (c * ·) h6.1), h6.2.trans (congrArg (c * ·) h6.2)⟩
  case stat st =>
    cases st
    case mean => exact ⟨c * c, 0, fun v => by ring⟩
    all_goals exact fun u v huv => h5 _ _ (h5 _ _ huv)

theorem blurred_scaled (h : BlurCall g gp x ax axes p) (hs : Scales c gp axes.length) :
    blurred g gp axes (x.map fun v => c * v) = (blurred g gp axes x).map fun v => c * v := by
  have e : (fun v : α => c * v) = fun v => c * v + 0 := by funext v; rw [add_zero]
  have e' : ∀ t : α, (fun v : α => c * v + 0 * t) = fun v => c * v + 0 := by intro t; funext v; rw [zero_mul]
  cases gp with
  | none =>
    show poolSeq _ _ = (poolSeq _ _).map _
    rw [e, poolSeq_map c 0 h.2.2, e']
  | some gp =>
    have hf := hs gp rfl
    rw [e] at hf ⊢
    show poolSeq _ _ = (poolSeq _ _).map _
    rw [map_shape, same_map h.2 hf, e']

theorem Spec.Scales.square {n : Nat} (h : Scales c gp n) : Scales (c * c) gp n := by
  intro a ha i hi
  have := (h a ha i hi).square
  simpa only [mul_assoc] using this

theorem times_map (h : y2.shape = y1.shape) : times (y1.map fun v => c * v) (y2.map fun v => c * v) = (times y1 y2).map fun v => (c * c) * v := by
  apply ext_get (show (times (y1.map fun v => c * v) (y2.map fun v => c * v)).shape = ((times y1 y2).map fun v => (c * c) * v).shape from rfl)
  intro ix hix
  have hix' : InB y1.shape ix := hix
  rw [get_map _ _ (show InB (times y1 y2).shape ix from hix'), times, times, get_ofFn (show InB (y1.map _).shape ix from hix'), get_map _ _ hix',
    get_map _ _ (by rw [h]; exact hix'), get_ofFn hix']
  ring

/-- a map whose formula does not change if means are multiplied by `c` and mean products by `c ^ 2` -/
theorem pointMap_scaled {F F' : α → α → α → α → α → α} (hF : ∀ a b s t u, F' (c * a) (c * b) ((c * c) * s) ((c * c) * t) ((c * c) * u) = F a b s t u)
    (h : BlurCall g gp y1 ax axes p) (h12 : y2.shape = y1.shape) (hs : Scales c gp axes.length) :
    pointMap F' (blurred g gp axes) (y1.map fun v => c * v) (y2.map fun v => c * v) = pointMap F (blurred g gp axes) y1 y2 := by
  have hc : ∀ z : Tensor α, z.shape = y1.shape → BlurCall g gp z ax axes p := by
    intro z hz
    cases gp with
    | none => exact ⟨h.1, by rw [ndim, hz]; exact h.2.1, Fitting_congr hz.symm h.2.2⟩
    | some gp => exact ⟨h.1, h.2.congr hz⟩
  have hsh : ∀ z : Tensor α, z.shape = y1.shape → (blurred g gp axes z).shape = (blurred g gp axes y1).shape := fun z hz => blurred_congr h hz
  rw [pointMap, pointMap, times_map (y1 := y1) (y2 := y1) rfl, times_map (y1 := y2) (y2 := y2) rfl, times_map h12, blurred_scaled h hs,
    blurred_scaled (hc y2 h12) hs, blurred_scaled (hc (times y1 y1) rfl) hs.square, blurred_scaled (hc (times y2 y2) h12) hs.square,
    blurred_scaled (hc (times y1 y2) rfl) hs.square, map_shape]
  apply ofFn_congr
  intro ix hix
  rw [get_map _ _ hix, get_map _ _ (by rw [hsh y2 h12]; exact hix), get_map _ _ (by rw [hsh (times y1 y1) rfl]; exact hix),
    get_map _ _ (by rw [hsh (times y2 y2) h12]; exact hix), get_map _ _ (by rw [hsh (times y1 y2) rfl]; exact hix), hF]

theorem halved_scaled (hnd : axes.Nodup) (hlt : ∀ a ∈ axes, a < x.ndim) (hsz : ∀ a ∈ axes, 2 ≤ x.shape.getD a 0) :
    halved axes (x.map fun v => c * v) = (halved axes x).map fun v => c * v := by
  have e : (fun v : α => c * v) = fun v => c * v + 0 := by funext v; rw [add_zero]
  have e' : ∀ t : α, (fun v : α => c * v + 0 * t) = fun v => c * v + 0 := by intro t; funext v; rw [zero_mul]
  have h := poolSeq_map c 0 (halver_poolOps (α := α) hnd hlt hsz).fitting
  rw [e'] at h
  rw [e]
  exact h

theorem atLevel_scaled {cr : Bool} : ∀ (n : Nat) {r : Nat} {x : Tensor α}, MsAt g gp cr (r + n) x axes p →
    atLevel axes n (x.map fun v => c * v) = (atLevel axes n x).map fun v => c * v
  | 0, _, _, _ => rfl
  | n + 1, r, x, h => by
    have h' : MsAt g gp cr (r + n + 1) x axes p := h
    rw [atLevel, atLevel, halved_scaled h'.nodup h'.lt h'.two_le]
    exact atLevel_scaled n h'.next

theorem ssimIndex_scaled {k1 k2 t : α} (hc : c ≠ 0) (a b s u v : α) :
    ssimIndex ((c * k1) ^ 2) ((c * k2) ^ 2) t (c * a) (c * b) ((c * c) * s) ((c * c) * u) ((c * c) * v) = ssimIndex (k1 ^ 2) (k2 ^ 2) t a b s u v := by
  have h4 : (c * c) * (c * c) ≠ 0 := mul_ne_zero (mul_ne_zero hc hc) (mul_ne_zero hc hc)
  rw [ssimIndex, ssimIndex, ← mul_div_mul_left (_ * (2 * (t * (v - a * b)) + k2 ^ 2)) _ h4]
  congr 1 <;> ring

theorem csIndex_scaled {k2 t : α} (hc : c ≠ 0) (a b s u v : α) :
    csIndex ((c * k2) ^ 2) t (c * a) (c * b) ((c * c) * s) ((c * c) * u) ((c * c) * v) = csIndex (k2 ^ 2) t a b s u v := by
  rw [csIndex, csIndex, ← mul_div_mul_left (2 * (t * (v - a * b)) + k2 ^ 2) _ (mul_ne_zero hc hc)]
  congr 1 <;> ring

theorem levelScore_scaled {cr : Bool} {r : Nat} {k1 k2 t : α} (hc : c ≠ 0) (h : MsAt g gp cr r y1 axes p) (h12 : y2.shape = y1.shape)
    (hs : Scales c gp axes.length) (last : Bool) :
    levelScore (c * k1) (c * k2) t (scoreBlur g gp cr axes) axes last (y1.map fun v => c * v) (y2.map fun v => c * v) =
      levelScore k1 k2 t (scoreBlur g gp cr axes) axes last y1 y2 := by
  obtain ⟨gp', p', e, hb, h1, h2⟩ := h.scoreCall
  have hs' : Scales c gp' axes.length := by
    cases cr with
    | true => rw [h1 rfl]; intro a ha; cases ha
    | false => rw [h2 rfl]; exact hs
  rw [e, levelScore, levelScore]
  cases last with
  | true => exact congrArg (meanKept · axes) (pointMap_scaled (F := ssimIndex (k1 ^ 2) (k2 ^ 2) t) (ssimIndex_scaled hc) hb h12 hs')
  | false => exact congrArg (meanKept · axes) (pointMap_scaled (F := csIndex (k2 ^ 2) t) (csIndex_scaled hc) hb h12 hs')

end
end
end TI
