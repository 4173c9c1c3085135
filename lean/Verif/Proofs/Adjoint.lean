import Verif.Proofs.Energy
import Verif.Proofs.Compose
import Verif.Spec.Adjoint

/-!
# Filters on rings and between mirrors: order, composition, adjoints
-/

set_option linter.unusedSectionVars false

namespace TI
open Tensor Spec

section
variable {α : Type} [Field α] [LinearOrder α] [IsStrictOrderedRing α]

/-! ## one line -/

theorem ringAt_cast {n : Nat} (hn : 0 < n) (z : Int) : ((ringAt n z : Nat) : Int) = z % n := by
  rw [ringAt]
  exact Int.toNat_of_nonneg (Int.emod_nonneg z (by omega))

theorem ringAt_add {n : Nat} (hn : 0 < n) (z c : Int) : ringAt n ((ringAt n z : Nat) + c) = ringAt n (z + c) := by
  rw [ringAt_cast hn, ringAt, ringAt, Int.emod_add_emod]

theorem mirroredAt_eq (n : Nat) (z : Int) : mirroredAt n z = symmetric n id z := by
  simp only [symmetric, mirroredAt]
  split_ifs <;> rfl

/-- a step from a position between mirrors is a step in the same direction, or in the opposite one -/
theorem mirroredAt_add {n : Nat} (hn : 0 < n) (z : Int) :
    (∀ c, mirroredAt n ((mirroredAt n z : Nat) + c) = mirroredAt n (z + c)) ∨
      ∀ c, mirroredAt n ((mirroredAt n z : Nat) + c) = mirroredAt n (z - c) := by
  have h1 := Int.emod_nonneg z (b := (2 * n : Int)) (by omega)
  have h2 := Int.emod_lt_of_pos z (b := (2 * n : Int)) (by omega)
  have h3 := Int.emod_add_mul_ediv z (2 * n : Int)
  by_cases h : (z % (2 * n)).toNat < n
  · left
    intro c
    have e : ((mirroredAt n z : Nat) : Int) = z % (2 * n) := by
      rw [mirroredAt, if_pos h]; omega
    rw [e, mirroredAt_eq, mirroredAt_eq, ← symmetric_per n id (z % (2 * n) + c) (z / (2 * n))]
    congr 1
    linarith
  · right
    intro c
    have e : ((mirroredAt n z : Nat) : Int) = 2 * n - 1 - z % (2 * n) := by
      rw [mirroredAt, if_neg h]; omega
    rw [e, mirroredAt_eq, mirroredAt_eq, ← symmetric_mirror hn, ← symmetric_per n id _ (z / (2 * n) + 1)]
    congr 1
    linarith

/-- the filtered line is continued like the line -/
def Compatible (f : Nat → Int → Nat) (w : List α) (b n : Nat) : Prop := ∀ (v : Nat → α) (z : Int),
  ((List.range w.length).map fun j => w.getD j 0 * v (f n (((f n z + j : Nat) : Int) - b))).sum =
    ((List.range w.length).map fun j => w.getD j 0 * v (f n (z + j - b))).sum

theorem compatible_ring {n : Nat} (hn : 0 < n) (w : List α) (b : Nat) : Compatible ringAt w b n := by
  intro v z
  congr 1
  apply List.map_congr_left
  intro j _
  push_cast
  rw [add_sub_assoc, ringAt_add hn, add_sub_assoc]

theorem palindrome_getD {w : List α} (hw : w.reverse = w) : ∀ j ∈ List.range w.length, w.getD (w.length - 1 - j) 0 = w.getD j 0 := by
  intro j hj
  have hj' := List.mem_range.1 hj
  conv_rhs => rw [← hw]
  rw [List.getD_eq_getElem?_getD, List.getD_eq_getElem?_getD, List.getElem?_reverse hj']

theorem compatible_mirror {n : Nat} (hn : 0 < n) {w : List α} (hw : w.reverse = w) {r : Nat} (hr : w.length = 2 * r + 1) :
    Compatible mirroredAt w r n := by
  intro v z
  rcases mirroredAt_add hn z with h | h
  · congr 1
    apply List.map_congr_left
    intro j _
    push_cast
    rw [add_sub_assoc, h, add_sub_assoc]
  · rw [← reverse_sum w.length fun j => w.getD j 0 * v (mirroredAt n (z + j - r))]
    congr 1
    apply List.map_congr_left
    intro j hj
    have hj' := List.mem_range.1 hj
    rw [palindrome_getD hw j hj]
    push_cast
    rw [add_sub_assoc, h]
    congr 3
    omega

/-- two filters of a line are adjoint to each other -/
def AdjointLines (f : Nat → Int → Nat) (w : List α) (b : Nat) (w' : List α) (b' n : Nat) : Prop := ∀ u v : Nat → α,
  ((List.range n).map fun t => u t * ((List.range w.length).map fun j => w.getD j 0 * v (f n (((t + j : Nat) : Int) - b))).sum).sum =
    ((List.range n).map fun t => v t * ((List.range w'.length).map fun j => w'.getD j 0 * u (f n (((t + j : Nat) : Int) - b'))).sum).sum

theorem ringAt_dot {n : Nat} (hn : 0 < n) (c : Int) (u v : Nat → α) :
    ((List.range n).map fun t : Nat => u t * v (ringAt n ((t : Int) + c))).sum = ((List.range n).map fun t : Nat => v t * u (ringAt n ((t : Int) - c))).sum := by
  rw [← ringAt_sum hn (-c) fun t => u t * v (ringAt n ((t : Int) + c))]
  congr 1
  apply List.map_congr_left
  intro t ht
  rw [ringAt_add hn, neg_add_cancel_right, ringAt_self (List.mem_range.1 ht), mul_comm, ← sub_eq_add_neg]

theorem adjoint_ring {n : Nat} (hn : 0 < n) (w : List α) {b b' : Nat} (hb : b + b' = w.length - 1) : AdjointLines ringAt w b w.reverse b' n := by
  intro u v
  simp only [mul_sum_map]
  rw [sum_map_comm, sum_map_comm (List.range n), List.length_reverse,
    ← reverse_sum w.length fun j => ((List.range n).map fun t => v t * (w.reverse.getD j 0 * u (ringAt n (((t + j : Nat) : Int) - b')))).sum]
  congr 1
  apply List.map_congr_left
  intro j hj
  have hj' := List.mem_range.1 hj
  have e : w.reverse.getD (w.length - 1 - j) 0 = w.getD j 0 := by
    rw [List.getD_eq_getElem?_getD, List.getD_eq_getElem?_getD, List.getElem?_reverse (by omega)]
    congr 2
    omega
  have h := ringAt_dot hn ((j : Int) - b) (fun t => w.getD j 0 * u t) v
  simp only [e]
  refine Eq.trans ?_ (h.trans ?_)
  · congr 1
    apply List.map_congr_left
    intro t _
    push_cast
    rw [add_sub_assoc]
    ring
  · congr 1
    apply List.map_congr_left
    intro t _
    congr 4
    omega

theorem mirroredAt_dot {n : Nat} (hn : 0 < n) (c : Int) (u v : Nat → α) :
    ((List.range n).map fun t : Nat => u t * (v (mirroredAt n ((t : Int) + c)) + v (mirroredAt n ((t : Int) - c)))).sum =
      ((List.range n).map fun t : Nat => v t * (u (mirroredAt n ((t : Int) + c)) + u (mirroredAt n ((t : Int) - c)))).sum := by
  have split : ∀ F : Nat → α, ((List.range (2 * n)).map F).sum = ((List.range n).map F).sum + ((List.range n).map fun t => F (n + t)).sum := by
    intro F
    rw [two_mul, List.range_add, List.map_append, List.sum_append, List.map_map]
    rfl
  have far : ∀ t < n, ∀ c : Int, mirroredAt n (((n + (n - 1 - t) : Nat) : Int) + c) = mirroredAt n ((t : Int) - c) := by
    intro t ht c
    rw [mirroredAt_eq, mirroredAt_eq, ← symmetric_mirror hn, ← symmetric_per n id _ 1]
    congr 1
    push_cast [Nat.cast_sub (show t ≤ n - 1 by omega), Nat.cast_sub (show 1 ≤ n by omega)]
    ring
  have key : ∀ (c : Int) (u v : Nat → α), ((List.range n).map fun t : Nat => u t * (v (mirroredAt n ((t : Int) + c)) + v (mirroredAt n ((t : Int) - c)))).sum =
      ((List.range (2 * n)).map fun t : Nat => u (mirroredAt n (t : Int)) * v (mirroredAt n ((t : Int) + c))).sum := by
    intro c u v
    rw [split, ← reverse_sum n fun t => u (mirroredAt n ((n + t : Nat) : Int)) * v (mirroredAt n (((n + t : Nat) : Int) + c)), ← List.sum_map_add]
    congr 1
    apply List.map_congr_left
    intro t ht
    have ht' := List.mem_range.1 ht
    have h0 := far t ht' 0
    rw [add_zero, sub_zero, mirroredAt_self ht'] at h0
    rw [far t ht', h0, mirroredAt_self ht', mul_add]
  rw [key, key]
  have h2 := ringAt_dot (n := 2 * n) (by omega) c (fun t => u (mirroredAt n (t : Int))) fun t => v (mirroredAt n (t : Int))
  simp only [mirroredAt_ring] at h2
  rw [h2]
  have h3 := key (-c) v u
  have h4 := key c v u
  simp only [sub_neg_eq_add, ← sub_eq_add_neg] at h3
  rw [← h3, ← h4]
  congr 1
  apply List.map_congr_left
  intro t _
  rw [add_comm (u _)]

theorem adjoint_mirror {n : Nat} (hn : 0 < n) {w : List α} (hw : w.reverse = w) {r : Nat} (hr : w.length = 2 * r + 1) : AdjointLines mirroredAt w r w r n := by
  intro u v
  have two : ∀ u v : Nat → α, 2 * ((List.range n).map fun t => u t * ((List.range w.length).map fun j => w.getD j 0 * v (mirroredAt n (((t + j : Nat) : Int) - r))).sum).sum =
      ((List.range w.length).map fun j => w.getD j 0 * ((List.range n).map fun t : Nat => u t * (v (mirroredAt n ((t : Int) + ((j : Int) - r))) +
        v (mirroredAt n ((t : Int) - ((j : Int) - r))))).sum).sum := by
    intro u v
    rw [two_mul]
    simp only [mul_sum_map, mul_add]
    rw [sum_map_comm]
    simp only [List.sum_map_add]
    congr 1
    · congr 1
      apply List.map_congr_left
      intro j _
      congr 1
      apply List.map_congr_left
      intro t _
      push_cast
      rw [add_sub_assoc]
      ring
    · rw [← reverse_sum w.length fun j => ((List.range n).map fun t => u t * (w.getD j 0 * v (mirroredAt n (((t + j : Nat) : Int) - r)))).sum]
      congr 1
      apply List.map_congr_left
      intro j hj
      have hj' := List.mem_range.1 hj
      congr 1
      apply List.map_congr_left
      intro t _
      rw [palindrome_getD hw j hj]
      have e : ((t + (w.length - 1 - j) : Nat) : Int) - r = (t : Int) - ((j : Int) - r) := by omega
      rw [e]
      ring
  have h : (2 : α) ≠ 0 := two_ne_zero
  apply mul_left_cancel₀ h
  rw [two, two]
  congr 1
  apply List.map_congr_left
  intro j _
  rw [mirroredAt_dot hn]

/-! ## one axis -/

variable {f f' : Nat → Int → Nat} {a a' b b' : Nat} {w w' : List α} {x y : Tensor α}

theorem folded_nil : folded f a [] b x = x := by rw [folded, if_pos rfl]

theorem fold_inB (hf : ∀ {n : Nat}, 0 < n → ∀ z, f n z < n) {s ix : List Nat} (ha : a < s.length) (h : InB s ix) (z : Int) : InB s (ix.set a (f (s.getD a 0) z)) :=
  h.set_same (hf (by have := h.lt ha; omega) z)

/-- filters of different axes commute -/
theorem folded_comm_ne (hf : ∀ {n : Nat}, 0 < n → ∀ z, f n z < n) (hf' : ∀ {n : Nat}, 0 < n → ∀ z, f' n z < n) (ha : a < x.ndim) (ha' : a' < x.ndim)
    (hne : a ≠ a') : folded f a w b (folded f' a' w' b' x) = folded f' a' w' b' (folded f a w b x) := by
  by_cases hw : w = []
  · subst hw; rw [folded_nil, folded_nil]
  by_cases hw' : w' = []
  · subst hw'; rw [folded_nil, folded_nil]
  apply ext_get (by simp only [folded_shape])
  intro ix hix
  have hix1 : InB x.shape ix := by simpa only [folded_shape] using hix
  rw [folded_get hw (by rw [folded_shape]; exact hix1), folded_get hw' (by rw [folded_shape]; exact hix1), folded_shape, folded_shape]
  have e1 : ∀ j ∈ List.range w.length, w.getD j 0 * (folded f' a' w' b' x).get (ix.set a (f (x.shape.getD a 0) (((ix.getD a 0 + j : Nat) : Int) - b))) =
      ((List.range w'.length).map fun i => w.getD j 0 * (w'.getD i 0 * x.get ((ix.set a (f (x.shape.getD a 0) (((ix.getD a 0 + j : Nat) : Int) - b))).set a'
        (f' (x.shape.getD a' 0) (((ix.getD a' 0 + i : Nat) : Int) - b'))))).sum := by
    intro j _
    rw [folded_get hw' (fold_inB hf ha hix1 _), mul_sum_map, getD_set_ne _ _ _ _ _ hne.symm]
  have e2 : ∀ j ∈ List.range w'.length, w'.getD j 0 * (folded f a w b x).get (ix.set a' (f' (x.shape.getD a' 0) (((ix.getD a' 0 + j : Nat) : Int) - b'))) =
      ((List.range w.length).map fun i => w.getD i 0 * (w'.getD j 0 * x.get ((ix.set a (f (x.shape.getD a 0) (((ix.getD a 0 + i : Nat) : Int) - b))).set a'
        (f' (x.shape.getD a' 0) (((ix.getD a' 0 + j : Nat) : Int) - b'))))).sum := by
    intro j _
    rw [folded_get hw (fold_inB hf' ha' hix1 _), mul_sum_map, getD_set_ne _ _ _ _ _ hne]
    congr 1
    apply List.map_congr_left
    intro i _
    rw [List.set_comm _ _ hne]
    ring
  rw [List.map_congr_left e1, List.map_congr_left e2, sum_map_comm]

/-- two filters of one axis in a row read every sample through the continuation of the axis -/
theorem folded_twice (hf : ∀ {n : Nat}, 0 < n → ∀ z, f n z < n) (ha : a < x.ndim) (hn : 0 < x.shape.getD a 0) (hw : w ≠ []) (hw' : w' ≠ [])
    (hc : Compatible f w b (x.shape.getD a 0)) {ix : List Nat} (hix : InB x.shape ix) :
    (folded f a w' b' (folded f a w b x)).get ix = ((List.range w'.length).map fun i => w'.getD i 0 * ((List.range w.length).map fun j => w.getD j 0 *
      x.get (ix.set a (f (x.shape.getD a 0) ((ix.getD a 0 : Int) + i + j - b' - b)))).sum).sum := by
  rw [folded_get hw' (by rw [folded_shape]; exact hix), folded_shape]
  congr 1
  apply List.map_congr_left
  intro i _
  have hal : a < ix.length := by rw [hix.length_eq]; exact ha
  rw [folded_get hw (fold_inB hf ha hix _), getD_set_self _ _ _ _ hal]
  simp only [List.set_set]
  rw [hc (fun t => x.get (ix.set a t))]
  congr 2
  apply List.map_congr_left
  intro j _
  push_cast
  congr 4
  ring

/-- filters of one axis with the same continuation commute -/
theorem folded_comm_same (hf : ∀ {n : Nat}, 0 < n → ∀ z, f n z < n) (ha : a < x.ndim) (hn : 0 < x.shape.getD a 0)
    (hc : Compatible f w b (x.shape.getD a 0)) (hc' : Compatible f w' b' (x.shape.getD a 0)) :
    folded f a w b (folded f a w' b' x) = folded f a w' b' (folded f a w b x) := by
  by_cases hw : w = []
  · subst hw; rw [folded_nil, folded_nil]
  by_cases hw' : w' = []
  · subst hw'; rw [folded_nil, folded_nil]
  apply ext_get (by simp only [folded_shape])
  intro ix hix
  have hix1 : InB x.shape ix := by simpa only [folded_shape] using hix
  rw [folded_twice hf ha hn hw' hw hc' hix1, folded_twice hf ha hn hw hw' hc hix1]
  simp only [mul_sum_map]
  rw [sum_map_comm]
  congr 1
  apply List.map_congr_left
  intro i _
  congr 1
  apply List.map_congr_left
  intro j _
  rw [mul_left_comm]
  congr 5
  ring

/-- two filters of one axis in a row are one filter -/
theorem folded_folded (hf : ∀ {n : Nat}, 0 < n → ∀ z, f n z < n) (ha : a < x.ndim) (hn : 0 < x.shape.getD a 0) (hb : w = [] → b = 0) (hb' : w' = [] → b' = 0)
    (hc : Compatible f w b (x.shape.getD a 0)) : folded f a w' b' (folded f a w b x) = folded f a (inTurn w w') (b + b') x := by
  by_cases hw : w = []
  · rw [inTurn, if_pos hw, hb hw, hw, folded_nil, Nat.zero_add]
  by_cases hw' : w' = []
  · rw [inTurn, if_neg hw, if_pos hw', hb' hw', hw', folded_nil, Nat.add_zero]
  rw [inTurn, if_neg hw, if_neg hw']
  apply ext_get (by simp only [folded_shape])
  intro ix hix
  have hix1 : InB x.shape ix := by simpa only [folded_shape] using hix
  rw [folded_twice hf ha hn hw hw' hc hix1, folded_get (composed_ne hw) hix1, sum_composed]
  congr 1
  apply List.map_congr_left
  intro i _
  congr 2
  apply List.map_congr_left
  intro j _
  congr 4
  push_cast
  ring

/-- adjoint filters of the lines of an image are adjoint -/
theorem folded_dot {L : List (List Nat)} (hL : Lines x.shape a L) (ha : a < x.ndim) (hxy : y.shape = x.shape) (hw : w' = [] ↔ w = [])
    (hA : AdjointLines f w b w' b' (x.shape.getD a 0)) :
    (L.map fun ix => y.get ix * (folded f a w b x).get ix).sum = (L.map fun ix => x.get ix * (folded f a w' b' y).get ix).sum := by
  by_cases h0 : w = []
  · have h0' := hw.2 h0
    subst h0; subst h0'
    rw [folded_nil, folded_nil]
    congr 1
    apply List.map_congr_left
    intro ix _
    ring
  have h0' : w' ≠ [] := fun h => h0 (hw.1 h)
  rw [sum_lines ha hL.nodup hL.inB hL.set, sum_lines ha hL.nodup hL.inB hL.set]
  congr 1
  apply List.map_congr_left
  intro k hk
  obtain ⟨ix, hix, rfl⟩ := List.mem_map.1 (List.mem_dedup.1 hk)
  have hin := hL.inB ix hix
  have hixl : a < ix.length := by rw [hin.length_eq]; exact ha
  have h := hA (fun t => y.get (ix.set a t)) fun t => x.get (ix.set a t)
  refine Eq.trans ?_ (h.trans ?_)
  · congr 1
    apply List.map_congr_left
    intro t ht
    have ht' := List.mem_range.1 ht
    rw [List.set_set, folded_get h0 (hin.set_same ht'), getD_set_self _ _ _ _ hixl]
    simp only [List.set_set]
  · congr 1
    apply List.map_congr_left
    intro t ht
    have ht' := List.mem_range.1 ht
    rw [List.set_set, folded_get h0' (by rw [hxy]; exact hin.set_same ht'), getD_set_self _ _ _ _ hixl, hxy]
    simp only [List.set_set]

/-! ## all axes -/

/-- the filter of one axis -/
structure Tap (α : Type) where
  fold : Nat → Int → Nat
  axis : Nat
  kernel : List α
  before : Nat

/-- apply it -/
def Tap.run (o : Tap α) (x : Tensor α) : Tensor α := folded o.fold o.axis o.kernel o.before x

/-- apply several -/
def runTaps (x : Tensor α) (l : List (Tap α)) : Tensor α := l.foldl (fun x o => o.run x) x

theorem Tap.run_shape (o : Tap α) : (o.run x).shape = x.shape := folded_shape

theorem runTaps_shape : ∀ {l : List (Tap α)} {x : Tensor α}, (runTaps x l).shape = x.shape
  | [], _ => rfl
  | o :: l, x => by rw [show runTaps x (o :: l) = runTaps (o.run x) l from rfl, runTaps_shape, o.run_shape]

/-- the axis exists and is not empty, and the continuation leads back into it -/
structure Tap.OK (s : List Nat) (o : Tap α) : Prop where
  lt : o.axis < s.length
  pos : 0 < s.getD o.axis 0
  into : ∀ {n : Nat}, 0 < n → ∀ z, o.fold n z < n
  none : o.kernel = [] → o.before = 0

/-- the filtered image is continued like the image -/
def Tap.Keeps (s : List Nat) (o : Tap α) : Prop := Compatible o.fold o.kernel o.before (s.getD o.axis 0)

/-- the taps work on different axes, or continue their axis in the same way and so that filtered images are continued alike -/
def Tap.Agree (s : List Nat) (o o' : Tap α) : Prop := o.axis = o'.axis → o.fold = o'.fold ∧ o.Keeps s ∧ o'.Keeps s

theorem Tap.comm {o o' : Tap α} {s : List Nat} (h : o.OK s) (h' : o'.OK s) (hA : o.Agree s o') (hx : x.shape = s) : o.run (o'.run x) = o'.run (o.run x) := by
  obtain ⟨f, a, w, b⟩ := o
  obtain ⟨f', a', w', b'⟩ := o'
  subst hx
  by_cases e : a = a'
  · obtain ⟨h1, h2, h3⟩ := hA e
    simp only at h1 e
    subst h1; subst e
    exact folded_comm_same h.into h.lt h.pos h2 h3
  · exact folded_comm_ne h.into h'.into h.lt h'.lt e

theorem run_runTaps {o : Tap α} {s : List Nat} (h : o.OK s) : ∀ {l : List (Tap α)} {x : Tensor α}, (∀ o' ∈ l, o'.OK s ∧ o.Agree s o') → x.shape = s →
    o.run (runTaps x l) = runTaps (o.run x) l
  | [], _, _, _ => rfl
  | o' :: l, x, hl, hx => by
    have h' := hl o' (by simp)
    rw [show runTaps x (o' :: l) = runTaps (o'.run x) l from rfl, run_runTaps h (fun q hq => hl q (by simp [hq])) (by rw [o'.run_shape, hx]),
      Tap.comm h h'.1 h'.2 hx]
    rfl

theorem runTaps_comm {s : List Nat} {l : List (Tap α)} (hl : ∀ o ∈ l, o.OK s) : ∀ {l' : List (Tap α)} {x : Tensor α},
    (∀ o' ∈ l', o'.OK s) → (∀ o' ∈ l', ∀ o ∈ l, o'.Agree s o) → x.shape = s → runTaps (runTaps x l) l' = runTaps (runTaps x l') l
  | [], _, _, _, _ => rfl
  | o' :: l', x, h1, h2, hx => by
    rw [show ∀ z, runTaps z (o' :: l') = runTaps (o'.run z) l' from fun _ => rfl,
      run_runTaps (h1 o' (by simp)) (fun o ho => ⟨hl o ho, h2 o' (by simp) o ho⟩) hx,
      runTaps_comm hl (fun q hq => h1 q (by simp [hq])) (fun q hq => h2 q (by simp [hq])) (by rw [o'.run_shape, hx])]
    rfl

theorem runTaps_append (l l' : List (Tap α)) : runTaps x (l ++ l') = runTaps (runTaps x l) l' := by
  simp [runTaps, List.foldl_append]

/-- taps of different axes may be applied backwards -/
theorem runTaps_reverse {s : List Nat} : ∀ {l : List (Tap α)} {x : Tensor α}, (∀ o ∈ l, o.OK s) → (l.map (·.axis)).Nodup → x.shape = s →
    runTaps x l.reverse = runTaps x l
  | [], _, _, _, _ => rfl
  | o :: l, x, h, hnd, hx => by
    simp only [List.map_cons, List.nodup_cons] at hnd
    rw [List.reverse_cons, runTaps_append, runTaps_reverse (fun q hq => h q (by simp [hq])) hnd.2 hx]
    refine (run_runTaps (h o (by simp)) (fun q hq => ⟨h q (by simp [hq]), fun e => absurd (List.mem_map_of_mem (f := (·.axis)) hq) ?_⟩) hx)
    rw [show (Tap.axis q) = o.axis from e.symm]
    exact hnd.1

/-- the two taps of an axis in one -/
def Tap.join (o o' : Tap α) : Tap α := ⟨o.fold, o.axis, inTurn o.kernel o'.kernel, o.before + o'.before⟩

theorem runTaps_join {s : List Nat} : ∀ {l l' : List (Tap α)} {x : Tensor α}, l.map (·.axis) = l'.map (·.axis) → (l.map (·.axis)).Nodup →
    (∀ o ∈ l, o.OK s) → (∀ o ∈ l', o.OK s) → (∀ o ∈ l, o.Keeps s) → (∀ o ∈ l, ∀ o' ∈ l', o.axis = o'.axis → o.fold = o'.fold) → x.shape = s →
    runTaps (runTaps x l) l' = runTaps x (List.zipWith Tap.join l l')
  | [], [], _, _, _, _, _, _, _, _ => rfl
  | o :: l, o' :: l', x, he, hnd, h1, h2, h3, h4, hx => by
    simp only [List.map_cons, List.cons.injEq] at he
    simp only [List.map_cons, List.nodup_cons] at hnd
    have ho := h1 o (by simp)
    have ho' := h2 o' (by simp)
    have hs : (o.run x).shape = s := by rw [o.run_shape, hx]
    rw [show runTaps x (o :: l) = runTaps (o.run x) l from rfl, show ∀ z, runTaps z (o' :: l') = runTaps (o'.run z) l' from fun _ => rfl,
      run_runTaps ho' (fun q hq => ⟨h1 q (by simp [hq]), fun e => absurd (List.mem_map_of_mem (f := (·.axis)) hq) (by rw [← e, ← he.1]; exact hnd.1)⟩) hs,
      runTaps_join he.2 hnd.2 (fun q hq => h1 q (by simp [hq])) (fun q hq => h2 q (by simp [hq])) (fun q hq => h3 q (by simp [hq]))
        (fun q hq q' hq' => h4 q (by simp [hq]) q' (by simp [hq'])) (by rw [o'.run_shape, hs]),
      List.zipWith_cons_cons]
    refine congrArg (fun z => runTaps z _) ?_
    have ef := h4 o (by simp) o' (by simp) he.1
    have hk := h3 o (by simp)
    obtain ⟨f, a, w, b⟩ := o
    obtain ⟨f', a', w', b'⟩ := o'
    obtain ⟨rfl, _⟩ := he
    simp only at ef
    subst ef
    subst hx
    exact folded_folded ho.into ho.lt ho.pos ho.none ho'.none hk

/-- the tap with the kernel read backwards -/
def Tap.Adjoint (s : List Nat) (o o' : Tap α) : Prop := o'.axis = o.axis ∧ o'.fold = o.fold ∧ (o'.kernel = [] ↔ o.kernel = []) ∧
  AdjointLines o.fold o.kernel o.before o'.kernel o'.before (s.getD o.axis 0)

theorem runTaps_dot_rev {s : List Nat} {L : List (List Nat)} : ∀ {l l' : List (Tap α)}, List.Forall₂ (Tap.Adjoint s) l l' → ∀ {x y : Tensor α},
    (∀ o ∈ l, o.OK s) → (∀ o ∈ l, Lines s o.axis L) → x.shape = s → y.shape = s →
    (L.map fun ix => y.get ix * (runTaps x l).get ix).sum = (L.map fun ix => x.get ix * (runTaps y l'.reverse).get ix).sum
  | [], [], _, x, y, _, _, _, _ => by
    congr 1
    apply List.map_congr_left
    intro ix _
    exact mul_comm _ _
  | o :: l, o' :: l', .cons hA hl, x, y, h, hL, hx, hy => by
    rw [show runTaps x (o :: l) = runTaps (o.run x) l from rfl, List.reverse_cons, runTaps_append,
      runTaps_dot_rev hl (fun q hq => h q (by simp [hq])) (fun q hq => hL q (by simp [hq])) (by rw [o.run_shape, hx]) hy,
      show ∀ z, runTaps z [o'] = o'.run z from fun _ => rfl]
    have e : ((L.map fun ix => (o.run x).get ix * (runTaps y l'.reverse).get ix)) = L.map fun ix => (runTaps y l'.reverse).get ix * (o.run x).get ix :=
      List.map_congr_left fun ix _ => mul_comm _ _
    rw [e]
    obtain ⟨h1, h2, h3, h4⟩ := hA
    have ho := h o (by simp)
    have hLo := hL o (by simp)
    obtain ⟨f, a, w, b⟩ := o
    obtain ⟨f', a', w', b'⟩ := o'
    simp only at h1 h2 h3 h4
    subst h1; subst h2; subst hx
    exact folded_dot hLo ho.lt (by rw [runTaps_shape, hy]) h3 h4

theorem runTaps_dot {s : List Nat} {L : List (List Nat)} {l l' : List (Tap α)} (hA : List.Forall₂ (Tap.Adjoint s) l l') (h : ∀ o ∈ l, o.OK s)
    (h' : ∀ o ∈ l', o.OK s) (hnd : (l'.map (·.axis)).Nodup) (hL : ∀ o ∈ l, Lines s o.axis L) (hx : x.shape = s) (hy : y.shape = s) :
    (L.map fun ix => y.get ix * (runTaps x l).get ix).sum = (L.map fun ix => x.get ix * (runTaps y l').get ix).sum := by
  rw [runTaps_dot_rev hA h hL hx hy, runTaps_reverse h' hnd hy]

end

end TI
