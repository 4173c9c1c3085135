import Verif.Spec.Steps
import Verif.Props.PadModes
import Verif.Proofs.Roll

/-!
# Padding in two steps: proofs
-/

set_option linter.unusedSectionVars false

namespace TI
open Tensor Spec

section
variable {α : Type} [Field α] [LinearOrder α] [IsStrictOrderedRing α]

/-! ## one signal -/

theorem replicate_steps {n : Nat} (hn : 0 < n) (b a : Nat) (u : Nat → α) (z : Int) :
    Spec.replicate (b + n + a) (fun j => Spec.replicate n u ((j : Int) - b)) z = Spec.replicate n u (z - b) := by
  simp only [Spec.replicate]
  split_ifs <;> first | omega | rfl | (congr 1; omega)

theorem constant_steps (c c' : α) {n : Nat} (b a : Nat) (u : Nat → α) (z : Int) :
    Spec.constant c c' (b + n + a) (fun j => Spec.constant c c' n u ((j : Int) - b)) z = Spec.constant c c' n u (z - b) := by
  simp only [Spec.constant]
  split_ifs <;> first | omega | rfl | (congr 1; omega)

theorem smooth_low {n : Nat} (hn : 2 ≤ n) (u : Nat → α) {z : Int} (hz : z ≤ 1) : Spec.smooth n u z = u 0 + (z : α) * (u 1 - u 0) := by
  rw [Spec.smooth, if_neg (by omega)]
  split_ifs with h1 h2
  · rfl
  · obtain rfl | rfl : z = 0 ∨ z = 1 := by omega
    · simp
    · simp
  · omega

theorem smooth_high {n : Nat} (hn : 2 ≤ n) (u : Nat → α) {z : Int} (hz : (n : Int) - 2 ≤ z) :
    Spec.smooth n u z = u (n - 1) + ((z - (n - 1 : Nat) : Int) : α) * (u (n - 1) - u (n - 2)) := by
  rw [Spec.smooth, if_neg (by omega)]
  split_ifs with h1 h2
  · omega
  · obtain rfl | rfl : z = ((n - 1 : Nat) : Int) ∨ z = ((n - 2 : Nat) : Int) := by omega
    · simp
    · have : (((n - 2 : Nat) : Int) - ((n - 1 : Nat) : Int)) = -1 := by omega
      rw [this, Int.toNat_natCast]; push_cast; ring
  · rfl

theorem smooth_steps {n : Nat} (hn : 0 < n) (b a : Nat) (u : Nat → α) (z : Int) :
    Spec.smooth (b + n + a) (fun j => Spec.smooth n u ((j : Int) - b)) z = Spec.smooth n u (z - b) := by
  rcases Nat.lt_or_ge n 2 with h1 | h2
  · obtain rfl : n = 1 := by omega
    have e : ∀ y, Spec.smooth 1 u y = u 0 := fun y => by rw [Spec.smooth, if_pos rfl]
    simp only [e]
    rw [Spec.smooth]
    split_ifs <;> ring
  have hN : 2 ≤ b + n + a := by omega
  by_cases hl : z ≤ 1
  · rw [smooth_low hN _ hl, smooth_low h2 u (z := ((0 : Nat) : Int) - b) (by omega), smooth_low h2 u (z := ((1 : Nat) : Int) - b) (by omega),
      smooth_low h2 u (by omega)]
    push_cast; ring
  by_cases hh : ((b + n + a : Nat) : Int) - 2 ≤ z
  · rw [smooth_high hN _ hh, smooth_high h2 u (z := ((b + n + a - 1 : Nat) : Int) - b) (by omega),
      smooth_high h2 u (z := ((b + n + a - 2 : Nat) : Int) - b) (by omega), smooth_high h2 u (by omega)]
    have e1 : ((b + n + a - 1 : Nat) : Int) = b + n + a - 1 := by omega
    have e2 : ((b + n + a - 2 : Nat) : Int) = b + n + a - 2 := by omega
    have e3 : ((n - 1 : Nat) : Int) = n - 1 := by omega
    rw [e1, e2, e3]
    push_cast; ring
  · rw [Spec.smooth, if_neg (by omega), if_neg (by omega), if_pos (by omega)]
    congr 1
    omega

theorem isStat_pad {st : Stat} {l : List α} {m : α} (h : IsStat st l m) (hl : l ≠ []) (b a : Nat) :
    IsStat st (List.replicate b m ++ l ++ List.replicate a m) m := by
  cases st with
  | mean =>
    have h' : m * (l.length : α) = l.sum := h
    simp only [IsStat, List.length_append, List.length_replicate, List.sum_append, List.sum_replicate, nsmul_eq_mul, ← h']
    push_cast; ring
  | maximum =>
    refine ⟨by simp [h.1], fun c hc => ?_⟩
    simp only [List.mem_append, List.mem_replicate] at hc
    rcases hc with (⟨_, rfl⟩ | hc) | ⟨_, rfl⟩
    · exact le_refl _
    · exact h.2 c hc
    · exact le_refl _
  | minimum =>
    refine ⟨by simp [h.1], fun c hc => ?_⟩
    simp only [List.mem_append, List.mem_replicate] at hc
    rcases hc with (⟨_, rfl⟩ | hc) | ⟨_, rfl⟩
    · exact le_refl _
    · exact h.2 c hc
    · exact le_refl _
  | median =>
    obtain ⟨h1, h2, h3⟩ := h
    have hpos : 0 < l.length := List.length_pos_iff.2 hl
    refine ⟨by simp [h1], ?_, ?_⟩
    · simp only [List.filter_append, List.length_append, List.length_replicate, List.filter_replicate, lt_irrefl, decide_false,
        Bool.false_eq_true, if_false, List.length_nil]
      omega
    · simp only [List.filter_append, List.length_append, List.length_replicate, List.filter_replicate, le_refl, decide_true, if_true]
      omega

theorem range_map_pad {n b a : Nat} {f u : Nat → α} {m m' : α} (h1 : ∀ j < b, f j = m) (h2 : ∀ j < n, f (b + j) = u j)
    (h3 : ∀ j < a, f (b + n + j) = m') :
    (List.range (b + n + a)).map f = List.replicate b m ++ (List.range n).map u ++ List.replicate a m' := by
  apply List.ext_getElem
  · simp; omega
  intro i hi hi'
  simp only [List.length_map, List.length_range] at hi
  simp only [List.getElem_map, List.getElem_range, List.getElem_append, List.length_append, List.length_replicate, List.length_map,
    List.length_range, List.getElem_replicate]
  split_ifs with h h'
  · exact h1 i h'
  · have := h2 (i - b) (by omega)
    rwa [show b + (i - b) = i by omega] at this
  · have := h3 (i - (b + n)) (by omega)
    rwa [show b + n + (i - (b + n)) = i by omega] at this

theorem border_steps (st : Stat) {n : Nat} (hn : 0 < n) (b a : Nat) (u : Nat → α) (z : Int) :
    Spec.border (statVal st) none none (b + n + a) (fun j => Spec.border (statVal st) none none n u ((j : Int) - b)) z =
      Spec.border (statVal st) none none n u (z - b) := by
  have hne : (List.range n).map u ≠ [] := by simp; omega
  set m := statVal st ((List.range n).map u) with hm
  have hval : ∀ y, Spec.border (statVal st) none none n u y = if y < 0 then m else if y < n then u y.toNat else m := by
    intro y
    simp [Spec.border, window, hm]
  have hlist : (List.range (b + n + a)).map (fun j => Spec.border (statVal st) none none n u (((j : Nat) : Int) - b)) =
      List.replicate b m ++ (List.range n).map u ++ List.replicate a m := by
    refine range_map_pad ?_ ?_ ?_ <;> intro j hj <;> rw [hval]
    · rw [if_pos (by omega)]
    · rw [if_neg (by omega), if_pos (by omega)]; congr 1; omega
    · rw [if_neg (by omega), if_neg (by omega)]
  have hstat : statVal st ((List.range (b + n + a)).map fun j => Spec.border (statVal st) none none n u (((j : Nat) : Int) - b)) = m := by
    rw [hlist]
    have hne' : List.replicate b m ++ (List.range n).map u ++ List.replicate a m ≠ [] := by simp [Nat.pos_iff_ne_zero.1 hn]
    exact C14_stat_unique hne' (statVal_isStat st hne') (isStat_pad (statVal_isStat st hne) hne b a)
  rw [Spec.border]
  simp only [window, Nat.sub_self, Nat.zero_add]
  rw [hstat, hval, hval]
  split_ifs <;> first | omega | rfl | (congr 1; omega)

theorem settled_steps {s : AxisPad α} (h : s.Settled) : ∃ E, s.rule? = some E ∧ (∀ {n}, 0 < n → Local E n) ∧
    ∀ {n : Nat}, 0 < n → ∀ (b a : Nat) (u : Nat → α) (z : Int), E (b + n + a) (fun j => E n u ((j : Int) - b)) z = E n u (z - b) := by
  have hr : ∀ {E}, s.rule? = some E → ∀ {n}, 0 < n → Local E n := fun hE _ hn => rule_local hE hn
  obtain ⟨b, a, m, cv, ev, sl⟩ := s
  cases m <;> simp only [AxisPad.Settled] at h
  case replicate => exact ⟨_, rfl, hr rfl, fun hn => replicate_steps hn⟩
  case smooth => exact ⟨_, rfl, hr rfl, fun hn => smooth_steps hn⟩
  case constant => exact ⟨_, rfl, hr rfl, fun _ => constant_steps _ _⟩
  case stat st => subst h; exact ⟨_, rfl, hr rfl, fun hn => border_steps st hn⟩

/-! ## one axis -/

theorem extendAxis_steps {E : Ext α} {d b b' a a' : Nat} {x : Tensor α} (hd : d < x.ndim) (hn : 0 < x.shape.getD d 0)
    (hl : ∀ {n}, 0 < n → Local E n)
    (h : ∀ {n : Nat}, 0 < n → ∀ (b a : Nat) (u : Nat → α) (z : Int), E (b + n + a) (fun j => E n u ((j : Int) - b)) z = E n u (z - b)) :
    extendAxis E d b' a' (extendAxis E d b a x) = extendAxis E d (b + b') (a + a') x := by
  have hd' : d < x.shape.length := hd
  have hs : (extendAxis E d b' a' (extendAxis E d b a x)).shape = (extendAxis E d (b + b') (a + a') x).shape := by
    simp only [extended_shape, getD_set_self _ _ _ _ hd', List.set_set]
    congr 1
    omega
  refine ext_get hs fun ix hix => ?_
  have hsz : (extendAxis E d b a x).shape.getD d 0 = b + x.shape.getD d 0 + a := getD_set_self _ _ _ _ hd'
  rw [extended_get hix, extended_get (by rw [← hs]; exact hix), hsz]
  have hlen : d < ix.length := by rw [hix.length_eq]; simpa [extended_shape] using hd'
  have e : ∀ j < b + x.shape.getD d 0 + a, (extendAxis E d b a x).get (ix.set d j) =
      E (x.shape.getD d 0) (fun i => x.get (ix.set d i)) ((j : Int) - b) := by
    intro j hj
    rw [extended_get]
    · simp only [getD_set_self _ _ _ _ hlen, List.set_set]
    · rw [extended_shape] at hix ⊢
      have := InB.set hix (d := d) hj
      simpa only [extended_shape, List.set_set, hsz] using this
  rw [hl (by omega) _ _ _ e, h hn]
  congr 1
  push_cast; ring

/-- settled rules do not see the difference between one step and two -/
theorem padStep_steps {x : Tensor α} {d : Nat} {s₁ s₂ s : AxisPad α} (h : s₁.Steps s₂ s) (hs : s.Settled) (hd : d < x.ndim)
    (hn : ¬ (s.before = 0 ∧ s.after = 0) → 0 < x.shape.getD d 0) : padStep (padStep x (d, s₁)) (d, s₂) = padStep x (d, s) := by
  by_cases hz : s.before = 0 ∧ s.after = 0
  · have hb := h.before
    have ha := h.after
    rw [padStep, padStep, padStep, if_pos hz, if_pos (show s₁.before = 0 ∧ s₁.after = 0 by omega),
      if_pos (show s₂.before = 0 ∧ s₂.after = 0 by omega)]
  obtain ⟨E, hE, hl, key⟩ := settled_steps hs
  have hr : ∀ t : AxisPad α, t.mode = s.mode → t.cv = s.cv → t.sl = s.sl → t.rule? = some E := by
    intro t hm hc hsl
    rw [← hE]
    have : s.mode ≠ .linearRamp := fun e => by simp [AxisPad.Settled, e] at hs
    simp only [AxisPad.rule?, hm, hc, hsl]
    split <;> simp_all
  have ht : ∀ (t : AxisPad α) (n : Nat), t.mode = s.mode → t.total n = t.after := by
    intro t n hm
    have hp : t.mode.isPeriodize = false := by
      rw [hm]
      revert hs
      simp only [AxisPad.Settled]
      cases s.mode <;> simp [Mode.isPeriodize]
    rw [AxisPad.total]
    split_ifs with hq hp'
    · exact hq.2.symm
    · rw [hp] at hp'; cases hp'
    · rfl
  have hE1 := hr s₁ h.mode.1 h.cv.1 h.sl.1
  have hE2 := hr s₂ h.mode.2 h.cv.2 h.sl.2
  rw [padStep_eq (o := (d, s₁)) hd hE1, padStep_eq (o := (d, s)) hd hE, padStep_eq (o := (d, s₂)) (by simpa [ndim, extended_shape] using hd) hE2,
    ht _ _ h.mode.1, ht _ _ h.mode.2, ht _ _ rfl]
  dsimp only
  rw [extendAxis_steps hd (hn hz) hl key, h.before, h.after]

/-! ## different axes -/

/-- extending the rows and then the columns gives the same corners as the other order -/
def Swaps (E : Ext α) (n : Nat) (E' : Ext α) (n' : Nat) : Prop := ∀ (M : Nat → Nat → α) (z z' : Int),
  E n (fun j => E' n' (fun i => M i j) z') z = E' n' (fun i => E n (fun j => M i j) z) z'

theorem extendAxis_swaps {E E' : Ext α} {x : Tensor α} {d d' b a b' a' : Nat} (hdd : d ≠ d')
    (hl : Local E (x.shape.getD d 0)) (hl' : Local E' (x.shape.getD d' 0))
    (h : Swaps E (x.shape.getD d 0) E' (x.shape.getD d' 0)) :
    extendAxis E d b a (extendAxis E' d' b' a' x) = extendAxis E' d' b' a' (extendAxis E d b a x) := by
  have e1 : (x.shape.set d' (b' + x.shape.getD d' 0 + a')).getD d 0 = x.shape.getD d 0 :=
    getD_set_ne _ _ _ _ _ hdd
  have e2 : (x.shape.set d (b + x.shape.getD d 0 + a)).getD d' 0 = x.shape.getD d' 0 :=
    getD_set_ne _ _ _ _ _ (Ne.symm hdd)
  simp only [extendAxis, shape_ofFn, e1, e2]
  rw [List.set_comm _ _ (Ne.symm hdd)]
  apply ofFn_congr
  intro ix hix
  have c1 : E (x.shape.getD d 0) (fun j =>
        (ofFn (x.shape.set d' (b' + x.shape.getD d' 0 + a')) fun ix =>
          E' (x.shape.getD d' 0) (fun j => x.get (ix.set d' j)) ((ix.getD d' 0 : Int) - b')).get
          (ix.set d j)) ((ix.getD d 0 : Int) - b) =
      E (x.shape.getD d 0) (fun j => E' (x.shape.getD d' 0) (fun i => x.get ((ix.set d j).set d' i))
        ((ix.getD d' 0 : Int) - b')) ((ix.getD d 0 : Int) - b) := by
    apply hl
    intro j hj
    rw [get_ofFn, getD_set_ne _ _ _ _ _ (Ne.symm hdd)]
    have h1 := InB.set (s := x.shape.set d' (b' + x.shape.getD d' 0 + a')) (d := d)
      (by rw [List.set_comm _ _ (Ne.symm hdd)]; exact hix) hj
    rwa [← e1, set_getD_self] at h1
  have c2 : E' (x.shape.getD d' 0) (fun j =>
        (ofFn (x.shape.set d (b + x.shape.getD d 0 + a)) fun ix =>
          E (x.shape.getD d 0) (fun j => x.get (ix.set d j)) ((ix.getD d 0 : Int) - b)).get
          (ix.set d' j)) ((ix.getD d' 0 : Int) - b') =
      E' (x.shape.getD d' 0) (fun i => E (x.shape.getD d 0) (fun j => x.get ((ix.set d' i).set d j))
        ((ix.getD d 0 : Int) - b)) ((ix.getD d' 0 : Int) - b') := by
    apply hl'
    intro j hj
    rw [get_ofFn, getD_set_ne _ _ _ _ _ hdd]
    have h1 := InB.set (s := x.shape.set d (b + x.shape.getD d 0 + a)) (d := d') hix hj
    rwa [← e2, set_getD_self] at h1
  rw [c1, c2, h (fun i j => x.get ((ix.set d j).set d' i))]
  congr 1
  funext i
  congr 1
  funext j
  rw [List.set_comm _ _ hdd]

/-- two settings whose rules can be exchanged -/
def Exchange (s s' : AxisPad α) : Prop := ∀ {n n' : Nat}, 0 < n → 0 < n' → ∃ E E', s.rule? = some E ∧ s'.rule? = some E' ∧ Swaps E n E' n'

theorem padStep_exchange {x : Tensor α} {o o' : Nat × AxisPad α} (hne : o.1 ≠ o'.1) (hd : o.1 < x.ndim) (hd' : o'.1 < x.ndim)
    (hn : ¬ (o.2.before = 0 ∧ o.2.after = 0) → 0 < x.shape.getD o.1 0)
    (hn' : ¬ (o'.2.before = 0 ∧ o'.2.after = 0) → 0 < x.shape.getD o'.1 0) (h : Exchange o.2 o'.2) :
    padStep (padStep x o) o' = padStep (padStep x o') o := by
  by_cases hz : o.2.before = 0 ∧ o.2.after = 0
  · have e : ∀ y : Tensor α, padStep y o = y := fun y => by rw [padStep, if_pos hz]
    rw [e, e]
  by_cases hz' : o'.2.before = 0 ∧ o'.2.after = 0
  · have e : ∀ y : Tensor α, padStep y o' = y := fun y => by rw [padStep, if_pos hz']
    rw [e, e]
  obtain ⟨E, E', hE, hE', hsw⟩ := h (hn hz) (hn' hz')
  rw [padStep_eq hd hE, padStep_eq hd' hE', padStep_eq (o := o') _ hE', padStep_eq (o := o) _ hE]
  · have e1 : (extendAxis E o.1 o.2.before (o.2.total (x.shape.getD o.1 0)) x).shape.getD o'.1 0 =
        x.shape.getD o'.1 0 := by
      rw [extendAxis, shape_ofFn, getD_set_ne _ _ _ _ _ (Ne.symm hne)]
    have e2 : (extendAxis E' o'.1 o'.2.before (o'.2.total (x.shape.getD o'.1 0)) x).shape.getD o.1 0 =
        x.shape.getD o.1 0 := by
      rw [extendAxis, shape_ofFn, getD_set_ne _ _ _ _ _ hne]
    rw [e1, e2]
    exact (extendAxis_swaps hne (rule_local hE (hn hz)) (rule_local hE' (hn' hz')) hsw).symm
  · simpa [Tensor.ndim, extendAxis] using hd
  · simpa [Tensor.ndim, extendAxis] using hd'

theorem padSeq_exchange {o : Nat × AxisPad α} : ∀ {ops : List (Nat × AxisPad α)} {x : Tensor α}, o.1 < x.ndim →
    (¬ (o.2.before = 0 ∧ o.2.after = 0) → 0 < x.shape.getD o.1 0) → (∀ q ∈ ops, q.1 < x.ndim ∧ q.1 ≠ o.1 ∧ Exchange q.2 o.2) →
    (ops.map Prod.fst).Nodup → (∀ q ∈ ops, ¬ (q.2.before = 0 ∧ q.2.after = 0) → 0 < x.shape.getD q.1 0) →
    padStep (padSeq x ops) o = padSeq (padStep x o) ops
  | [], _, _, _, _, _, _ => rfl
  | q :: ops, x, hd, hn, h, hnd, hp => by
    obtain ⟨h1, h2, h3⟩ := h q (by simp)
    rw [List.map_cons, List.nodup_cons] at hnd
    rw [padSeq_cons, padSeq_cons, padSeq_exchange (by rwa [padStep_ndim]) (by rwa [padStep_size (Ne.symm h2)])
      (fun r hr => by rw [padStep_ndim]; exact h r (by simp [hr])) hnd.2, padStep_exchange h2 h1 hd (hp q (by simp)) hn h3]
    intro r hr hz
    rw [padStep_size (fun e => hnd.1 (by rw [← e]; exact List.mem_map_of_mem hr))]
    exact hp r (by simp [hr]) hz

/-- the axes one after the other, each in two steps -/
theorem padSeq_steps : ∀ {axes : List Nat} {ss₁ ss₂ ss : List (AxisPad α)} {x : Tensor α}, ss₁.length = axes.length → ss₂.length = axes.length →
    ss.length = axes.length →
    (∀ j (h₁ : j < ss₁.length) (h₂ : j < ss₂.length) (h : j < ss.length), ss₁[j].Steps ss₂[j] ss[j] ∧ ss[j].Settled) →
    (∀ d ∈ axes, d < x.ndim) → axes.Nodup → (∀ o ∈ axes.zip ss, ¬ (o.2.before = 0 ∧ o.2.after = 0) → 0 < x.shape.getD o.1 0) →
    (∀ s ∈ ss₁.tail, ∀ t ∈ ss₂, Exchange s t) →
    padSeq (padSeq x (axes.zip ss₁)) (axes.zip ss₂) = padSeq x (axes.zip ss)
  | [], _, _, _, _, _, _, _, _, _, _, _, _ => by simp [padSeq]
  | d :: axes, s₁ :: ss₁, s₂ :: ss₂, s :: ss, x, l₁, l₂, l, h, hd, hnd, hn, hx => by
    obtain ⟨hs, hset⟩ := h 0 (by simp) (by simp) (by simp)
    simp only [List.getElem_cons_zero] at hs hset
    rw [List.nodup_cons] at hnd
    simp only [List.length_cons, Nat.add_right_cancel_iff] at l₁ l₂ l
    have hsteps : ∀ j (h₁ : j < ss₁.length) (h₂ : j < ss₂.length) (h : j < ss.length), ss₁[j].Steps ss₂[j] ss[j] ∧ ss[j].Settled := by
      intro j h1 h2 h3
      have := h (j + 1) (by simpa using h1) (by simpa using h2) (by simpa using h3)
      simpa only [List.getElem_cons_succ] using this
    have hpos : ∀ o ∈ axes.zip ss, ¬ (o.2.before = 0 ∧ o.2.after = 0) → 0 < x.shape.getD o.1 0 :=
      fun o ho => hn o (by rw [List.zip_cons_cons]; exact List.mem_cons_of_mem _ ho)
    have hpos₁ : ∀ o ∈ axes.zip ss₁, ¬ (o.2.before = 0 ∧ o.2.after = 0) → 0 < x.shape.getD o.1 0 := by
      intro o ho hz
      obtain ⟨j, hj, rfl⟩ := List.mem_iff_getElem.1 ho
      simp only [List.length_zip] at hj
      simp only [List.getElem_zip] at hz ⊢
      have hst := (hsteps j (by omega) (by omega) (by omega)).1
      refine hpos (axes[j], ss[j]) ?_ ?_
      · rw [List.mem_iff_getElem]
        exact ⟨j, by simp; omega, by simp⟩
      · have hb := hst.before
        have ha := hst.after
        dsimp only
        omega
    have hne : ∀ o ∈ axes.zip ss₁, o.1 ≠ d := fun o ho e => hnd.1 (by
      have := (List.of_mem_zip (show (o.1, o.2) ∈ axes.zip ss₁ from ho)).1
      rwa [e] at this)
    have hne' : ∀ o ∈ axes.zip ss, o.1 ≠ d := fun o ho e => hnd.1 (by
      have := (List.of_mem_zip (show (o.1, o.2) ∈ axes.zip ss from ho)).1
      rwa [e] at this)
    have hdx := hd d (by simp)
    have hn0 : ¬ (s.before = 0 ∧ s.after = 0) → 0 < x.shape.getD d 0 := hn (d, s) (by simp)
    simp only [List.zip_cons_cons, padSeq_cons]
    rw [padSeq_exchange (o := (d, s₂))]
    · rw [padStep_steps hs hset hdx hn0]
      refine padSeq_steps l₁ l₂ l hsteps (fun e he => by rw [padStep_ndim]; exact hd e (by simp [he])) hnd.2 ?_ ?_
      · intro o ho hz
        rw [padStep_size (hne' o ho)]
        exact hpos o ho hz
      · intro t ht t' ht'
        exact hx t (List.mem_of_mem_tail (by simpa using ht)) t' (by simp [ht'])
    · rwa [padStep_ndim]
    · intro hz
      have hb := hs.before
      have ha := hs.after
      have hd'' : d < x.shape.length := hdx
      have h0 := hn0 (by dsimp only at hz; omega)
      have : x.shape.getD d 0 ≤ (padStep x (d, s₁)).shape.getD d 0 := by
        rw [padStep]
        split_ifs
        · exact le_refl _
        · cases (d, s₁).2.rule? with
          | none => exact le_refl _
          | some E => simp only [extended_shape, getD_set_self _ _ _ _ hd'']; omega
      exact lt_of_lt_of_le h0 this
    · intro o ho
      have hm := List.of_mem_zip (show (o.1, o.2) ∈ axes.zip ss₁ from ho)
      exact ⟨by rw [padStep_ndim]; exact hd o.1 (by simp [hm.1]), hne o ho, hx o.2 (by simpa using hm.2) s₂ (by simp)⟩
    · rw [List.map_fst_zip (by omega)]; exact hnd.2
    · intro o ho hz
      rw [padStep_size (hne o ho)]
      exact hpos₁ o ho hz

/-! ## rules that can be exchanged -/

/-- `E` is linear once the values are measured from `c` -/
def LinFrom (c : α) (E : Ext α) (n : Nat) : Prop := IsLin (fun n u z => E n (fun j => u j + c) z - c) n

theorem LinFrom.swaps {c : α} {E E' : Ext α} {n n' : Nat} (h : LinFrom c E n) (h' : LinFrom c E' n') (hl' : Local E' n') : Swaps E n E' n' := by
  intro M z z'
  have key := lin_comm h h' (fun u v w huv => by dsimp only; rw [hl' (fun j => u j + c) (fun j => v j + c) w (fun j hj => by rw [huv j hj])])
    (fun i j => M i j - c) z z'
  simpa using key

theorem linFrom_agreeing {c : α} {s : AxisPad α} {n : Nat} (hn : 0 < n)
    (h : s.mode = .replicate ∨ s.mode = .smooth ∨ s.mode = .stat .mean ∨ s.mode = .constant ∧ s.cv = (c, c)) :
    ∃ E, s.rule? = some E ∧ LinFrom c E n := by
  obtain ⟨b, a, m, cv, ev, sl⟩ := s
  rcases h with rfl | rfl | rfl | ⟨rfl, rfl⟩
  · refine ⟨_, rfl, fun a b u v z => ?_⟩
    simp only [Spec.replicate]
    split_ifs <;> ring
  · refine ⟨_, rfl, fun a b u v z => ?_⟩
    simp only [Spec.smooth]
    split_ifs <;> ring
  · refine ⟨_, rfl, fun a b u v z => ?_⟩
    have hw : ∀ w : Option Int, ((window n w : Nat) : α) ≠ 0 := by
      intro w
      have : 0 < window n w := by
        cases w with
        | none => exact hn
        | some w => simp only [window]; omega
      exact_mod_cast (Nat.pos_iff_ne_zero.1 this)
    have hmean : ∀ (w : Option Int) (f : Nat → α), ((List.range (window n w)).map fun j => f j + c).sum / ((window n w : Nat) : α) - c =
        ((List.range (window n w)).map f).sum / ((window n w : Nat) : α) := by
      intro w f
      have : ((List.range (window n w)).map fun j => f j + c).sum = ((List.range (window n w)).map f).sum + (window n w : Nat) * c := by
        rw [List.sum_map_add]; simp
      rw [this, add_div, mul_comm, mul_div_assoc, div_self (hw w)]; ring
    simp only [Spec.border, statVal, List.length_map, List.length_range]
    split_ifs
    · rw [hmean, hmean, hmean, sum_map_lin]; ring
    · ring
    · rw [hmean _ (fun j => a * u _ + b * v _), hmean _ (fun j => u _), hmean _ (fun j => v _), sum_map_lin]; ring
  · refine ⟨_, rfl, fun a b u v z => ?_⟩
    simp only [Spec.constant]
    split_ifs <;> ring

theorem exchange_common {c : α} {s s' : AxisPad α}
    (h : s.mode = .replicate ∨ s.mode = .smooth ∨ s.mode = .stat .mean ∨ s.mode = .constant ∧ s.cv = (c, c))
    (h' : s'.mode = .replicate ∨ s'.mode = .smooth ∨ s'.mode = .stat .mean ∨ s'.mode = .constant ∧ s'.cv = (c, c)) : Exchange s s' := by
  intro n n' hn hn'
  obtain ⟨E, hE, hl⟩ := linFrom_agreeing hn h
  obtain ⟨E', hE', hl'⟩ := linFrom_agreeing hn' h'
  exact ⟨E, E', hE, hE', hl.swaps hl' (rule_local hE' hn')⟩

/-- `E` copies a sample or takes the largest one (with respect to `r`) of some samples -/
def Tops (r : α → α → Prop) (E : Ext α) (n : Nat) : Prop :=
  ∀ z : Int, ∃ P : Nat → Prop, ∀ (u : Nat → α) (v : α), r (E n u z) v ↔ ∀ j, P j → r (u j) v

theorem Tops.swaps {r : α → α → Prop} (hr : ∀ a b : α, (∀ v, r a v ↔ r b v) → a = b) {E E' : Ext α} {n n' : Nat} (h : Tops r E n)
    (h' : Tops r E' n') : Swaps E n E' n' := by
  intro M z z'
  obtain ⟨P, hP⟩ := h z
  obtain ⟨P', hP'⟩ := h' z'
  refine hr _ _ fun v => ?_
  simp only [hP, hP']
  exact ⟨fun g i hi j hj => g j hj i hi, fun g j hj i hi => g i hi j hj⟩

theorem tops_replicate (r : α → α → Prop) (n : Nat) : Tops r (Spec.replicate : Ext α) n := by
  intro z
  refine ⟨fun j => j = if z < 0 then 0 else if z < n then z.toNat else n - 1, fun u v => ?_⟩
  simp only [Spec.replicate, forall_eq]
  split_ifs <;> rfl

theorem tops_border {r : α → α → Prop} {st : Stat} (hr : ∀ (l : List α) (v : α), l ≠ [] → (r (statVal st l) v ↔ ∀ a ∈ l, r a v))
    (wb wa : Option Int) {n : Nat} (hn : 0 < n) : Tops r (Spec.border (statVal st) wb wa) n := by
  have hw : ∀ w : Option Int, 0 < window n w := by
    intro w
    cases w with
    | none => exact hn
    | some w => simp only [window]; omega
  intro z
  by_cases h1 : z < 0
  · refine ⟨fun j => j < window n wb, fun u v => ?_⟩
    rw [Spec.border, if_pos h1, hr _ _ (by simp [Nat.pos_iff_ne_zero.1 (hw wb)])]
    simp
  by_cases h2 : z < n
  · refine ⟨fun j => j = z.toNat, fun u v => ?_⟩
    simp only [Spec.border, if_neg h1, if_pos h2, forall_eq]
  · refine ⟨fun j => ∃ i < window n wa, j = n - window n wa + i, fun u v => ?_⟩
    rw [Spec.border, if_neg h1, if_neg h2, hr _ _ (by simp [Nat.pos_iff_ne_zero.1 (hw wa)])]
    constructor
    · rintro g j ⟨i, hi, rfl⟩
      exact g _ (List.mem_map_of_mem (List.mem_range.2 hi))
    · intro g a ha
      obtain ⟨i, hi, rfl⟩ := List.mem_map.1 ha
      exact g _ ⟨i, List.mem_range.1 hi, rfl⟩

theorem exchange_maximum {s s' : AxisPad α} (h : s.mode = .replicate ∨ s.mode = .stat .maximum)
    (h' : s'.mode = .replicate ∨ s'.mode = .stat .maximum) : Exchange s s' := by
  have key : ∀ t : AxisPad α, t.mode = .replicate ∨ t.mode = .stat .maximum → ∀ {n}, 0 < n →
      ∃ E, t.rule? = some E ∧ Tops (fun a b : α => a ≤ b) E n := by
    intro t ht n hn
    obtain ⟨b, a, m, cv, ev, sl⟩ := t
    rcases ht with rfl | rfl
    · exact ⟨_, rfl, tops_replicate _ _⟩
    · refine ⟨_, rfl, tops_border (fun l v hl => ?_) _ _ hn⟩
      obtain ⟨g1, g2⟩ : _ ∧ _ := statVal_isStat .maximum hl
      exact ⟨fun g a ha => le_trans (g2 a ha) g, fun g => g _ g1⟩
  intro n n' hn hn'
  obtain ⟨E, hE, hl⟩ := key s h hn
  obtain ⟨E', hE', hl'⟩ := key s' h' hn'
  exact ⟨E, E', hE, hE', hl.swaps (fun a b g => le_antisymm ((g b).2 (le_refl _)) ((g a).1 (le_refl _))) hl'⟩

theorem exchange_minimum {s s' : AxisPad α} (h : s.mode = .replicate ∨ s.mode = .stat .minimum)
    (h' : s'.mode = .replicate ∨ s'.mode = .stat .minimum) : Exchange s s' := by
  have key : ∀ t : AxisPad α, t.mode = .replicate ∨ t.mode = .stat .minimum → ∀ {n}, 0 < n →
      ∃ E, t.rule? = some E ∧ Tops (fun a b : α => b ≤ a) E n := by
    intro t ht n hn
    obtain ⟨b, a, m, cv, ev, sl⟩ := t
    rcases ht with rfl | rfl
    · exact ⟨_, rfl, tops_replicate _ _⟩
    · refine ⟨_, rfl, tops_border (fun l v hl => ?_) _ _ hn⟩
      obtain ⟨g1, g2⟩ : _ ∧ _ := statVal_isStat .minimum hl
      exact ⟨fun g a ha => le_trans g (g2 a ha), fun g => g _ g1⟩
  intro n n' hn hn'
  obtain ⟨E, hE, hl⟩ := key s h hn
  obtain ⟨E', hE', hl'⟩ := key s' h' hn'
  exact ⟨E, E', hE, hE', hl.swaps (fun a b g => le_antisymm ((g a).1 (le_refl _)) ((g b).2 (le_refl _))) hl'⟩

theorem exchange_agreeing {ss : List (AxisPad α)} (h : Agreeing ss) (h2 : 2 ≤ ss.length) {s s' t t' : AxisPad α} (hs : s ∈ ss) (hs' : s' ∈ ss)
    (ht : t.mode = s.mode ∧ t.cv = s.cv) (ht' : t'.mode = s'.mode ∧ t'.cv = s'.cv) : Exchange t t' := by
  rcases h with h | ⟨c, h⟩ | h | h
  · omega
  · exact exchange_common (by rw [ht.1, ht.2]; exact h s hs) (by rw [ht'.1, ht'.2]; exact h s' hs')
  · exact exchange_maximum (by rw [ht.1]; exact h s hs) (by rw [ht'.1]; exact h s' hs')
  · exact exchange_minimum (by rw [ht.1]; exact h s hs) (by rw [ht'.1]; exact h s' hs')

/-! ## any order -/

theorem padSeq_perm_exchange {ops ops' : List (Nat × AxisPad α)} (hp : ops.Perm ops') :
    ∀ x : Tensor α, (ops.map Prod.fst).Nodup → (∀ o ∈ ops, o.1 < x.ndim) →
    (∀ o ∈ ops, ¬ (o.2.before = 0 ∧ o.2.after = 0) → 0 < x.shape.getD o.1 0) → (∀ o ∈ ops, ∀ o' ∈ ops, Exchange o.2 o'.2) →
    padSeq x ops = padSeq x ops' := by
  induction hp with
  | nil => intros; rfl
  | cons o hp ih =>
    intro x hnd hlt hn hex
    rw [padSeq_cons, padSeq_cons]
    rw [List.map_cons, List.nodup_cons] at hnd
    refine ih _ hnd.2 ?_ ?_ (fun q hq q' hq' => hex q (by simp [hq]) q' (by simp [hq']))
    · intro q hq
      rw [padStep_ndim]
      exact hlt q (by simp [hq])
    · intro q hq
      rw [padStep_size (fun he => hnd.1 (by rw [← he]; exact List.mem_map_of_mem hq))]
      exact hn q (by simp [hq])
  | swap o o' l =>
    intro x hnd hlt hn hex
    simp only [padSeq_cons]
    rw [padStep_exchange _ (hlt _ (by simp)) (hlt _ (by simp)) (hn _ (by simp)) (hn _ (by simp)) (hex _ (by simp) _ (by simp))]
    simp only [List.map_cons, List.nodup_cons, List.mem_cons, not_or] at hnd
    exact hnd.1.1
  | trans hp hp' ih ih' =>
    intro x hnd hlt hn hex
    rw [ih x hnd hlt hn hex]
    exact ih' x ((hp.map Prod.fst).nodup_iff.1 hnd) (fun o ho => hlt o (hp.mem_iff.2 ho)) (fun o ho => hn o (hp.mem_iff.2 ho))
      (fun o ho o' ho' => hex o (hp.mem_iff.2 ho) o' (hp.mem_iff.2 ho'))

/-! ## calls -/

theorem padStep_grows (x : Tensor α) (o : Nat × AxisPad α) (d : Nat) : x.shape.getD d 0 ≤ (padStep x o).shape.getD d 0 := by
  by_cases hd : d = o.1
  · subst hd
    rw [padStep]
    split_ifs
    · exact le_refl _
    · cases o.2.rule? with
      | none => exact le_refl _
      | some E =>
        simp only [extended_shape]
        by_cases hlt : o.1 < x.shape.length
        · rw [getD_set_self _ _ _ _ hlt]; omega
        · rw [List.set_eq_of_length_le (by omega)]
  · rw [padStep_size hd]

theorem padSeq_grows : ∀ (ops : List (Nat × AxisPad α)) (x : Tensor α) (d : Nat), x.shape.getD d 0 ≤ (padSeq x ops).shape.getD d 0
  | [], _, _ => le_refl _
  | o :: ops, x, d => le_trans (padStep_grows x o d) (padSeq_grows ops (padStep x o) d)

/-- the same request for a tensor that is at least as large -/
theorem Spec.PadCall.grown {p : Padder α} {x y : Tensor α} {ax : Axes} {axes : List Nat} {ss : List (AxisPad α)} (h : PadCall p x ax axes ss)
    (hy : y.ndim = x.ndim) (hs : ∀ d, x.shape.getD d 0 ≤ y.shape.getD d 0) : PadCall p y ax axes ss where
  ndim_ne := by rw [hy]; exact h.ndim_ne
  axes_eq := by rw [hy]; exact h.axes_eq
  nodup := h.nodup
  len := h.len
  reads := h.reads
  valued := fun o ho hz => ⟨(h.valued o ho hz).1, (h.valued o ho hz).2.1, lt_of_lt_of_le (h.valued o ho hz).2.2 (hs _)⟩

end

end TI
