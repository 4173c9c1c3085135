import Verif.Proofs.Roll
import Verif.Proofs.EdgeChange
import Verif.Spec.Axiswise
import Verif.Spec.Energy

/-!
# Sums over filtered images
-/

set_option linter.unusedSectionVars false

namespace TI
open Tensor Spec

section
variable {α : Type} [Field α] [LinearOrder α] [IsStrictOrderedRing α]

/-! ## sums over one axis -/

/-- sums over positions which fill whole lines along an axis are sums over lines -/
theorem sum_lines {s : List Nat} {a : Nat} (ha : a < s.length) {L : List (List Nat)} (hL : L.Nodup) (hin : ∀ ix ∈ L, InB s ix)
    (hset : ∀ ix ∈ L, ∀ t < s.getD a 0, ix.set a t ∈ L) (F : List Nat → α) :
    (L.map F).sum = ((L.map fun ix => ix.set a 0).dedup.map fun k => ((List.range (s.getD a 0)).map fun t => F (k.set a t)).sum).sum := by
  rw [← sum_parts (fun ix : List Nat => ix.set a 0) F (J := (L.map fun ix => ix.set a 0).dedup) (List.nodup_dedup _) (L := L)
    (fun ix hix => List.mem_dedup.2 (List.mem_map_of_mem hix))]
  congr 1
  apply List.map_congr_left
  intro k hk
  obtain ⟨ix, hix, rfl⟩ := List.mem_map.1 (List.mem_dedup.1 hk)
  have hixl : a < ix.length := by rw [(hin ix hix).length_eq]; exact ha
  have hp : (L.filter fun x => x.set a 0 = ix.set a 0).Perm ((List.range (s.getD a 0)).map fun t => (ix.set a 0).set a t) := by
    apply (List.perm_ext_iff_of_nodup (hL.filter _) _).2
    · intro u
      simp only [List.mem_filter, List.mem_map, List.mem_range, decide_eq_true_eq, List.set_set]
      constructor
      · rintro ⟨hu, e⟩
        refine ⟨u.getD a 0, (hin u hu).lt ha, ?_⟩
        have e' := congrArg (fun l : List Nat => l.set a (u.getD a 0)) e
        simp only [List.set_set, set_getD_self] at e'
        exact e'.symm
      · rintro ⟨t, ht, rfl⟩
        exact ⟨hset ix hix t ht, by rw [List.set_set]⟩
    · apply List.Nodup.map_on _ List.nodup_range
      intro t _ t' _ e
      have e' := congrArg (fun l : List Nat => l.getD a 0) e
      simp only [List.set_set] at e'
      rwa [getD_set_self _ _ _ _ hixl, getD_set_self _ _ _ _ hixl] at e'
  have := (hp.map F).sum_eq
  rw [List.map_map] at this
  exact this

/-! ## one line -/

theorem ringAt_perm {n : Nat} (hn : 0 < n) (c : Int) : ((List.range n).map fun t : Nat => ringAt n ((t : Int) + c)).Perm (List.range n) := by
  have hlt : ∀ z : Int, ringAt n z < n := by
    intro z
    have h1 := Int.emod_nonneg z (b := (n : Nat)) (by omega)
    have h2 := Int.emod_lt_of_pos z (b := (n : Nat)) (by omega)
    rw [ringAt]
    omega
  have hnd : ((List.range n).map fun t : Nat => ringAt n ((t : Int) + c)).Nodup := by
    apply List.Nodup.map_on _ List.nodup_range
    intro u hu v hv e
    have hu' := List.mem_range.1 hu
    have hv' := List.mem_range.1 hv
    rw [ringAt, ringAt] at e
    have h1 := Int.emod_nonneg ((u : Int) + c) (b := (n : Nat)) (by omega)
    have h2 := Int.emod_nonneg ((v : Int) + c) (b := (n : Nat)) (by omega)
    have e2 : ((u : Int) + c) % (n : Nat) = ((v : Int) + c) % (n : Nat) := by omega
    have e3 : (u : Int) % (n : Nat) = (v : Int) % (n : Nat) := Int.emod_add_cancel_right c |>.1 e2
    rw [Int.emod_eq_of_lt (by omega) (by omega), Int.emod_eq_of_lt (by omega) (by omega)] at e3
    omega
  refine (List.subperm_of_subset hnd ?_).perm_of_length_le (by simp)
  intro t ht
  obtain ⟨u, _, rfl⟩ := List.mem_map.1 ht
  exact List.mem_range.2 (hlt _)

theorem ringAt_sum {n : Nat} (hn : 0 < n) (c : Int) (v : Nat → α) :
    ((List.range n).map fun t : Nat => v (ringAt n ((t : Int) + c))).sum = ((List.range n).map v).sum := by
  have := ((ringAt_perm hn c).map v).sum_eq
  rwa [List.map_map] at this

theorem mirroredAt_lt {n : Nat} (hn : 0 < n) (z : Int) : mirroredAt n z < n := by
  have h1 := Int.emod_nonneg z (b := (2 * n : Int)) (by omega)
  have h2 := Int.emod_lt_of_pos z (b := (2 * n : Int)) (by omega)
  rw [mirroredAt]
  split_ifs with h <;> omega

theorem ringAt_lt {n : Nat} (hn : 0 < n) (z : Int) : ringAt n z < n := by
  have h1 := Int.emod_nonneg z (b := (n : Nat)) (by omega)
  have h2 := Int.emod_lt_of_pos z (b := (n : Nat)) (by omega)
  rw [ringAt]
  omega

theorem ringAt_self {n t : Nat} (ht : t < n) : ringAt n (t : Int) = t := by
  rw [ringAt, Int.emod_eq_of_lt (by omega) (by omega), Int.toNat_natCast]

theorem mirroredAt_self {n t : Nat} (ht : t < n) : mirroredAt n (t : Int) = t := by
  rw [mirroredAt, Int.emod_eq_of_lt (by omega) (by omega), Int.toNat_natCast, if_pos ht]

theorem symmetric_at (n : Nat) (v : Nat → α) (z : Int) : symmetric n v z = v (mirroredAt n z) := by
  simp only [symmetric, mirroredAt]
  split_ifs <;> rfl

theorem mirroredAt_ring {n : Nat} (z : Int) : mirroredAt n (ringAt (2 * n) z : Nat) = mirroredAt n z := by
  by_cases hn : n = 0
  · subst hn; simp [mirroredAt]
  have h1 := Int.emod_nonneg z (b := (2 * n : Int)) (by omega)
  have e : ((ringAt (2 * n) z : Nat) : Int) = z % (2 * n) := by
    rw [ringAt]
    push_cast
    exact Int.toNat_of_nonneg h1
  rw [mirroredAt, mirroredAt, e, Int.emod_emod_of_dvd _ (dvd_refl _)]

/-- what lies `c` positions ahead and `c` positions behind sums up to twice the signal -/
theorem mirroredAt_sum {n : Nat} (hn : 0 < n) (c : Int) (v : Nat → α) :
    ((List.range n).map fun t : Nat => v (mirroredAt n ((t : Int) + c))).sum + ((List.range n).map fun t : Nat => v (mirroredAt n ((t : Int) - c))).sum =
      2 * ((List.range n).map v).sum := by
  have split : ∀ F : Nat → α, ((List.range (2 * n)).map F).sum = ((List.range n).map F).sum + ((List.range n).map fun t => F (n + t)).sum := by
    intro F
    rw [two_mul, List.range_add, List.map_append, List.sum_append, List.map_map]
    rfl
  have hb : ((List.range n).map fun t : Nat => v (mirroredAt n ((t : Int) - c))).sum =
      ((List.range n).map fun t : Nat => v (mirroredAt n (((n + t : Nat) : Int) + c))).sum := by
    rw [← reverse_sum n fun t => v (mirroredAt n ((t : Int) - c))]
    congr 1
    apply List.map_congr_left
    intro t ht
    have ht' := List.mem_range.1 ht
    rw [← symmetric_at n v, ← symmetric_at n v, ← symmetric_mirror hn, ← symmetric_per n v _ 1]
    congr 1
    push_cast [Nat.cast_sub (show t ≤ n - 1 by omega), Nat.cast_sub (show 1 ≤ n by omega)]
    ring
  rw [hb, ← split fun t => v (mirroredAt n ((t : Int) + c))]
  have h2 := ringAt_sum (n := 2 * n) (by omega) c fun t => v (mirroredAt n (t : Int))
  simp only [mirroredAt_ring] at h2
  rw [h2, split, two_mul]
  congr 1
  · congr 1
    apply List.map_congr_left
    intro t ht
    rw [mirroredAt_self (List.mem_range.1 ht)]
  · rw [← reverse_sum n v]
    congr 1
    apply List.map_congr_left
    intro t ht
    have ht' := List.mem_range.1 ht
    rw [mirroredAt, Int.emod_eq_of_lt (by omega) (by push_cast; omega), Int.toNat_natCast, if_neg (by omega)]
    congr 1
    omega

/-- every sample contributes with the total weight -/
def Balanced (f : Nat → Int → Nat) (w : List α) (b n : Nat) : Prop := ∀ v : Nat → α,
  ((List.range n).map fun t => ((List.range w.length).map fun j => w.getD j 0 * v (f n (((t + j : Nat) : Int) - b))).sum).sum =
    w.sum * ((List.range n).map v).sum

theorem balanced_ring {n : Nat} (hn : 0 < n) (w : List α) (b : Nat) : Balanced ringAt w b n := by
  intro v
  rw [sum_map_comm]
  have e : ∀ j ∈ List.range w.length, ((List.range n).map fun t => w.getD j 0 * v (ringAt n (((t + j : Nat) : Int) - b))).sum =
      w.getD j 0 * ((List.range n).map v).sum := by
    intro j _
    rw [← mul_sum_map, ← ringAt_sum hn ((j : Int) - b) v]
    congr 2
    apply List.map_congr_left
    intro t _
    push_cast
    rw [add_sub_assoc]
  rw [List.map_congr_left e, ← sum_map_mul, map_getD_range]

theorem balanced_mirror {n : Nat} (hn : 0 < n) {w : List α} (hw : w.reverse = w) {r : Nat} (hr : w.length = 2 * r + 1) : Balanced mirroredAt w r n := by
  intro v
  rw [sum_map_comm]
  have hp : ∀ j ∈ List.range w.length, w.getD (w.length - 1 - j) 0 = w.getD j 0 := by
    intro j hj
    have hj' := List.mem_range.1 hj
    conv_rhs => rw [← hw]
    rw [List.getD_eq_getElem?_getD, List.getD_eq_getElem?_getD, List.getElem?_reverse hj']
  have e : ∀ j ∈ List.range w.length, ((List.range n).map fun t => w.getD j 0 * v (mirroredAt n (((t + j : Nat) : Int) - r))).sum +
      ((List.range n).map fun t => w.getD (w.length - 1 - j) 0 * v (mirroredAt n (((t + (w.length - 1 - j) : Nat) : Int) - r))).sum =
      w.getD j 0 * (2 * ((List.range n).map v).sum) := by
    intro j hj
    have hj' := List.mem_range.1 hj
    rw [hp j hj, ← mul_sum_map, ← mul_sum_map, ← mul_add, ← mirroredAt_sum hn ((j : Int) - r) v]
    congr 2
    · congr 1
      apply List.map_congr_left
      intro t _
      congr 2
      push_cast
      ring
    · congr 1
      apply List.map_congr_left
      intro t _
      congr 2
      omega
  have e2 := reverse_sum w.length fun j => ((List.range n).map fun t => w.getD j 0 * v (mirroredAt n (((t + j : Nat) : Int) - r))).sum
  have e3 := congrArg List.sum (List.map_congr_left e)
  rw [List.sum_map_add, e2, ← sum_map_mul, map_getD_range] at e3
  linarith

/-! ## the filter of one axis -/

/-- the filter of one axis, reading positions through `f` -/
def folded (f : Nat → Int → Nat) (a : Nat) (w : List α) (b : Nat) (x : Tensor α) : Tensor α :=
  if w = [] then x else ofFn x.shape fun ix => ((List.range w.length).map fun j =>
    w.getD j 0 * x.get (ix.set a (f (x.shape.getD a 0) (((ix.getD a 0 + j : Nat) : Int) - b)))).sum

variable {f : Nat → Int → Nat} {a b : Nat} {w : List α} {x y : Tensor α}

theorem folded_shape : (folded f a w b x).shape = x.shape := by
  rw [folded]
  split_ifs <;> rfl

theorem folded_get (hw : w ≠ []) {ix : List Nat} (h : InB x.shape ix) : (folded f a w b x).get ix =
    ((List.range w.length).map fun j => w.getD j 0 * x.get (ix.set a (f (x.shape.getD a 0) (((ix.getD a 0 + j : Nat) : Int) - b)))).sum := by
  rw [folded, if_neg hw, get_ofFn h]

theorem slide_folded {e : Nat} (hself : ∀ n t : Nat, t < n → f n (t : Int) = t) (ha : a < x.ndim) (hn : 0 < x.shape.getD a 0)
    (hk : b + e = w.length - 1) :
    slide (reindexed a (b + x.shape.getD a 0 + e) (fun t => f (x.shape.getD a 0) ((t : Int) - b)) x) ⟨a, w, 1⟩ = folded f a w b x := by
  have hal : a < x.shape.length := ha
  by_cases hw : w = []
  · subst hw
    simp only [List.length_nil, Nat.zero_sub, Nat.add_eq_zero_iff] at hk
    rw [slide, if_pos rfl, folded, if_pos rfl, hk.1, hk.2, Nat.zero_add, Nat.add_zero]
    apply ext_get (by rw [reindexed_shape, set_getD_self])
    intro ix hix
    have hix1 := hix
    rw [reindexed_shape] at hix
    rw [reindexed_shape, set_getD_self] at hix1
    have hlt := hix1.lt hal
    rw [reindexed_get hix, Int.natCast_zero, Int.sub_zero, hself _ _ hlt, set_getD_self]
  have hwl : 0 < w.length := List.length_pos_iff.2 hw
  have hsh : (slide (reindexed a (b + x.shape.getD a 0 + e) (fun t => f (x.shape.getD a 0) ((t : Int) - b)) x)
      ⟨a, w, 1⟩).shape = x.shape := by
    rw [slide_shape, if_neg hw, reindexed_shape, getD_set_self _ _ _ _ hal, List.set_set]
    simp only
    rw [windowCount_pos Nat.one_pos hwl (by omega), Nat.div_one]
    have : b + x.shape.getD a 0 + e - w.length + 1 = x.shape.getD a 0 := by omega
    rw [this, set_getD_self]
  apply ext_get (hsh.trans folded_shape.symm)
  intro ix hix
  have hix1 : InB x.shape ix := by rw [hsh] at hix; exact hix
  rw [slide_get hw hix, folded_get hw hix1]
  congr 1
  apply List.map_congr_left
  intro j hj
  have hin := slide_inB (o := ⟨a, w, 1⟩) Nat.one_pos (by rw [reindexed_ndim]; exact ha) hw hix (List.mem_range.1 hj)
  rw [reindexed_shape] at hin
  simp only at hin ⊢
  rw [reindexed_get hin, List.set_set, getD_set_self _ _ _ _ (by rw [hix1.length_eq]; exact hal), Nat.mul_one]

theorem padStep_ring {s : AxisPad α} (ha : a < x.ndim) (hm : s.mode = .circular) :
    padStep x (a, s) = reindexed a (s.before + x.shape.getD a 0 + s.after) (fun t => ringAt (x.shape.getD a 0) ((t : Int) - s.before)) x := by
  rw [padStep_circular ha hm]
  rfl

theorem padStep_symmetric {s : AxisPad α} (ha : a < x.ndim) (hm : s.mode = .symmetric) :
    padStep x (a, s) = reindexed a (s.before + x.shape.getD a 0 + s.after) (fun t => mirroredAt (x.shape.getD a 0) ((t : Int) - s.before)) x := by
  have hr : s.rule? = some Spec.symmetric := by simp [AxisPad.rule?, hm]
  have ht : s.total (x.shape.getD a 0) = s.after := by
    rw [AxisPad.total]
    split_ifs with h h'
    · exact h.2.symm
    · rw [hm] at h'; cases h'
    · rfl
  rw [padStep_eq (o := (a, s)) ha hr]
  simp only [ht]
  rw [extendAxis, reindexed]
  apply ofFn_congr
  intro ix _
  exact symmetric_at _ _ _

/-- positions which fill whole lines along an axis -/
structure Lines (s : List Nat) (a : Nat) (L : List (List Nat)) : Prop where
  nodup : L.Nodup
  inB : ∀ ix ∈ L, InB s ix
  set : ∀ ix ∈ L, ∀ t < s.getD a 0, ix.set a t ∈ L

theorem lines_all (s : List Nat) (a : Nat) : Lines s a (indices s) :=
  ⟨indices_nodup s, fun _ h => mem_indices.1 h, fun _ h _ ht => mem_indices.2 ((mem_indices.1 h).set_same ht)⟩

theorem lines_collected {s ds : List Nat} (ha : a ∈ ds) (jx : List Nat) : Lines s a (collected s ds jx) := by
  refine ⟨(indices_nodup s).filter _, fun _ h => (mem_collected.1 h).1, fun ix h t ht => ?_⟩
  obtain ⟨h1, h2⟩ := mem_collected.1 h
  exact mem_collected.2 ⟨h1.set_same ht, by rw [onKept_set ha]; exact h2⟩

/-- in a balanced filter every position has the total weight -/
theorem balanced_lines {s : List Nat} {L : List (List Nat)} (hL : Lines s a L) (ha : a < s.length) (hB : Balanced f w b (s.getD a 0))
    (u : List Nat → α) :
    (L.map fun ix => ((List.range w.length).map fun j => w.getD j 0 * u (ix.set a (f (s.getD a 0) (((ix.getD a 0 + j : Nat) : Int) - b)))).sum).sum =
      w.sum * (L.map u).sum := by
  rw [sum_lines ha hL.nodup hL.inB hL.set, sum_lines ha hL.nodup hL.inB hL.set u, mul_sum_map]
  congr 1
  apply List.map_congr_left
  intro k hk
  obtain ⟨ix, hix, rfl⟩ := List.mem_map.1 (List.mem_dedup.1 hk)
  have hixl : a < ix.length := by rw [(hL.inB ix hix).length_eq]; exact ha
  rw [← hB fun t => u ((ix.set a 0).set a t)]
  congr 1
  apply List.map_congr_left
  intro t _
  congr 1
  apply List.map_congr_left
  intro j _
  simp only [List.set_set]
  rw [getD_set_self _ _ _ _ hixl]

theorem folded_sum {L : List (List Nat)} (hL : Lines x.shape a L) (ha : a < x.ndim) (hB : Balanced f w b (x.shape.getD a 0))
    :
    (L.map (folded f a w b x).get).sum = (if w = [] then 1 else w.sum) * (L.map x.get).sum := by
  by_cases hw : w = []
  · rw [folded, if_pos hw, if_pos hw, one_mul]
  rw [if_neg hw, ← balanced_lines hL ha hB x.get]
  congr 1
  apply List.map_congr_left
  intro ix hix
  exact folded_get hw (hL.inB ix hix)

/-- Cauchy–Schwarz with weights of any sign -/
theorem weighted_sq_le : ∀ (l : List (α × α)), (l.map fun p => p.1 * p.2).sum ^ 2 ≤ (l.map fun p => |p.1|).sum * (l.map fun p => |p.1| * p.2 ^ 2).sum
  | [] => by simp
  | p :: l => by
    have ih := weighted_sq_le l
    simp only [List.map_cons, List.sum_cons]
    have hA : 0 ≤ (l.map fun p => |p.1|).sum := List.sum_nonneg (by simp only [List.mem_map]; rintro _ ⟨q, _, rfl⟩; exact abs_nonneg _)
    have hB : 0 ≤ (l.map fun p => |p.1| * p.2 ^ 2).sum :=
      List.sum_nonneg (by simp only [List.mem_map]; rintro _ ⟨q, _, rfl⟩; exact mul_nonneg (abs_nonneg _) (sq_nonneg _))
    generalize (l.map fun p => |p.1|).sum = A at *
    generalize (l.map fun p => |p.1| * p.2 ^ 2).sum = B at *
    generalize (l.map fun p => p.1 * p.2).sum = C at *
    obtain ⟨w, u⟩ := p
    simp only
    have h1 : |2 * u * C| ≤ B + A * u ^ 2 := by
      apply abs_le_of_sq_le_sq _ (add_nonneg hB (mul_nonneg hA (sq_nonneg u)))
      nlinarith [sq_nonneg (B - A * u ^ 2), mul_le_mul_of_nonneg_right ih (sq_nonneg u)]
    have h2 : w * (2 * u * C) ≤ |w| * (B + A * u ^ 2) := by
      calc w * (2 * u * C) ≤ |w * (2 * u * C)| := le_abs_self _
        _ = |w| * |2 * u * C| := abs_mul _ _
        _ ≤ _ := mul_le_mul_of_nonneg_left h1 (abs_nonneg w)
    have h3 : |w| * |w| = w * w := abs_mul_abs_self w
    nlinarith

theorem getD_map_abs (w : List α) (j : Nat) : (w.map abs).getD j 0 = |w.getD j 0| := by
  rw [List.getD_eq_getElem?_getD, List.getD_eq_getElem?_getD, List.getElem?_map]
  cases w[j]? <;> simp

theorem tap_sq_le (w : List α) (g : Nat → α) : ((List.range w.length).map fun j => w.getD j 0 * g j).sum ^ 2 ≤
    (w.map abs).sum * ((List.range w.length).map fun j => (w.map abs).getD j 0 * g j ^ 2).sum := by
  have h := weighted_sq_le ((List.range w.length).map fun j => (w.getD j 0, g j))
  simp only [List.map_map, Function.comp_def] at h
  have e1 : ((List.range w.length).map fun j => |w.getD j 0|).sum = (w.map abs).sum := by
    conv_rhs => rw [← map_getD_range w, List.map_map]
    rfl
  rw [e1] at h
  refine h.trans (le_of_eq ?_)
  congr 2
  apply List.map_congr_left
  intro j hj
  rw [getD_map_abs]

theorem tap_abs_le (w : List α) (g : Nat → α) : |((List.range w.length).map fun j => w.getD j 0 * g j).sum| ≤
    ((List.range w.length).map fun j => (w.map abs).getD j 0 * |g j|).sum := by
  have gen : ∀ L : List Nat, (∀ j ∈ L, j < w.length) → |(L.map fun j => w.getD j 0 * g j).sum| ≤ (L.map fun j => (w.map abs).getD j 0 * |g j|).sum := by
    intro L
    induction L with
    | nil => simp
    | cons j L ih =>
      intro h
      simp only [List.map_cons, List.sum_cons]
      refine (abs_add_le _ _).trans (add_le_add (le_of_eq ?_) (ih fun k hk => h k (by simp [hk])))
      rw [abs_mul, getD_map_abs]
  exact gen _ fun j hj => List.mem_range.1 hj

/-- sums of squares of combinations of two filtered images -/
theorem folded_energy {L : List (List Nat)} (hL : Lines x.shape a L) (ha : a < x.ndim) (hxy : y.shape = x.shape)
    (hB : Balanced f (w.map abs) b (x.shape.getD a 0)) (c d : α) :
    (L.map fun ix => (c * (folded f a w b x).get ix + d * (folded f a w b y).get ix) ^ 2).sum ≤
      (if w = [] then 1 else (w.map abs).sum) ^ 2 * (L.map fun ix => (c * x.get ix + d * y.get ix) ^ 2).sum := by
  by_cases hw : w = []
  · rw [folded, folded, if_pos hw, if_pos hw, if_pos hw, one_pow, one_mul]
  rw [if_neg hw, sq, mul_assoc, ← balanced_lines hL ha hB, mul_sum_map]
  apply List.sum_le_sum
  intro ix hix
  have hin := hL.inB ix hix
  rw [folded_get hw hin, folded_get hw (by rw [hxy]; exact hin), hxy, mul_sum_map, mul_sum_map, ← List.sum_map_add, List.length_map]
  refine le_trans (le_of_eq ?_) (tap_sq_le w fun j =>
    c * x.get (ix.set a (f (x.shape.getD a 0) (((ix.getD a 0 + j : Nat) : Int) - b))) + d * y.get (ix.set a (f (x.shape.getD a 0) (((ix.getD a 0 + j : Nat) : Int) - b))))
  congr 2
  apply List.map_congr_left
  intro j _
  ring

/-- sums of absolute values -/
theorem folded_abs {L : List (List Nat)} (hL : Lines x.shape a L) (ha : a < x.ndim) (hxy : y.shape = x.shape)
    (hB : Balanced f (w.map abs) b (x.shape.getD a 0)) (c d : α) :
    (L.map fun ix => |c * (folded f a w b x).get ix + d * (folded f a w b y).get ix|).sum ≤
      (if w = [] then 1 else (w.map abs).sum) * (L.map fun ix => |c * x.get ix + d * y.get ix|).sum := by
  by_cases hw : w = []
  · rw [folded, folded, if_pos hw, if_pos hw, if_pos hw, one_mul]
  rw [if_neg hw, ← balanced_lines hL ha hB]
  apply List.sum_le_sum
  intro ix hix
  have hin := hL.inB ix hix
  rw [folded_get hw hin, folded_get hw (by rw [hxy]; exact hin), hxy, mul_sum_map, mul_sum_map, ← List.sum_map_add, List.length_map]
  refine le_trans (le_of_eq ?_) (tap_abs_le w fun j =>
    c * x.get (ix.set a (f (x.shape.getD a 0) (((ix.getD a 0 + j : Nat) : Int) - b))) + d * y.get (ix.set a (f (x.shape.getD a 0) (((ix.getD a 0 + j : Nat) : Int) - b))))
  congr 2
  apply List.map_congr_left
  intro j _
  ring

/-! ## all axes -/

/-- one axis of a fair filter -/
structure FairAxis (x : Tensor α) (q : PoolOp α × (Nat × AxisPad α)) : Prop where
  axis : q.1.axis = q.2.1
  stride : q.1.stride = 1
  fair : Fair q.2.2.mode q.1.kernel
  before : q.2.2.before = (q.1.kernel.length - 1) - (q.1.kernel.length - 1) / 2
  widths : q.2.2.before + q.2.2.after = q.1.kernel.length - 1
  lt : q.2.1 < x.ndim
  pos : 0 < x.shape.getD q.2.1 0



/-- what a fair axis does -/
theorem fair_step {q : PoolOp α × (Nat × AxisPad α)} (h : FairAxis x q) : ∃ f : Nat → Int → Nat,
    (∀ y : Tensor α, y.shape = x.shape → sameStep y q = folded f q.2.1 q.1.kernel q.2.2.before y) ∧
    Balanced f q.1.kernel q.2.2.before (x.shape.getD q.2.1 0) ∧ Balanced f (q.1.kernel.map abs) q.2.2.before (x.shape.getD q.2.1 0) := by
  obtain ⟨⟨a, w, t⟩, b, s⟩ := q
  obtain ⟨h1, h2, h3, h4, h5, h6, h7⟩ := h
  simp only at h1 h2 h3 h4 h5 h6 h7
  subst h1
  subst h2
  rcases h3 with hm | ⟨hm, hr, ho⟩
  · refine ⟨ringAt, ?_, balanced_ring h7 _ _, balanced_ring h7 _ _⟩
    intro y hy
    rw [← hy] at h7
    have h6' : a < y.ndim := by rw [ndim, hy]; exact h6
    rw [sameStep]
    simp only
    rw [padStep_ring h6' hm]
    exact slide_folded (f := ringAt) (fun n t ht => ringAt_self ht) h6' h7 h5
  · refine ⟨mirroredAt, ?_, ?_, ?_⟩
    · intro y hy
      rw [← hy] at h7
      have h6' : a < y.ndim := by rw [ndim, hy]; exact h6
      rw [sameStep]
      simp only
      rw [padStep_symmetric h6' hm]
      exact slide_folded (f := mirroredAt) (fun n t ht => mirroredAt_self ht) h6' h7 h5
    · rcases ho with rfl | ho
      · intro v; simp
      · have e : s.before = w.length / 2 := by omega
        simp only [e]
        exact balanced_mirror h7 hr (by omega)
    · rcases ho with rfl | ho
      · intro v; simp
      · have e : s.before = w.length / 2 := by omega
        simp only [e]
        exact balanced_mirror h7 (by rw [← List.map_reverse, hr]) (by rw [List.length_map]; omega)

theorem FairAxis.congr {q : PoolOp α × (Nat × AxisPad α)} (h : FairAxis x q) (hy : y.shape = x.shape) : FairAxis y q :=
  ⟨h.axis, h.stride, h.fair, h.before, h.widths, by rw [ndim, hy]; exact h.lt, by rw [hy]; exact h.pos⟩

theorem fair_shape : ∀ {l : List (PoolOp α × (Nat × AxisPad α))} {x : Tensor α}, (∀ q ∈ l, FairAxis x q) → (sameEach x l).shape = x.shape
  | [], x, _ => rfl
  | q :: l, x, h => by
    obtain ⟨f, e, _, _⟩ := fair_step (h q (by simp))
    have es : (sameStep x q).shape = x.shape := by rw [e x rfl, folded_shape]
    rw [show sameEach x (q :: l) = sameEach (sameStep x q) l from rfl, fair_shape fun r hr => (h r (by simp [hr])).congr es, es]

theorem fair_sum {L : List (List Nat)} : ∀ {l : List (PoolOp α × (Nat × AxisPad α))} {x : Tensor α}, (∀ q ∈ l, FairAxis x q) →
    (∀ q ∈ l, Lines x.shape q.2.1 L) → (L.map (sameEach x l).get).sum = totalWeight (l.map Prod.fst) * (L.map x.get).sum
  | [], x, _, _ => by simp [sameEach, totalWeight]
  | q :: l, x, h, hL => by
    obtain ⟨f, e, hB, _⟩ := fair_step (h q (by simp))
    have es : (sameStep x q).shape = x.shape := by rw [e x rfl, folded_shape]
    rw [show sameEach x (q :: l) = sameEach (sameStep x q) l from rfl, fair_sum (fun r hr => (h r (by simp [hr])).congr es)
      (fun r hr => by rw [es]; exact hL r (by simp [hr])), e x rfl, folded_sum (hL q (by simp)) (h q (by simp)).lt hB, totalWeight, totalWeight,
      List.map_cons, List.map_cons, List.prod_cons]
    ring

theorem gain_nonneg (ops : List (PoolOp α)) : 0 ≤ gain ops := by
  rw [gain]
  apply List.prod_nonneg
  intro v hv
  obtain ⟨o, _, rfl⟩ := List.mem_map.1 hv
  split_ifs
  · exact zero_le_one
  · apply List.sum_nonneg
    intro u hu
    obtain ⟨z, _, rfl⟩ := List.mem_map.1 hu
    exact abs_nonneg z

theorem gain_cons (o : PoolOp α) (ops : List (PoolOp α)) : gain (o :: ops) = (if o.kernel = [] then 1 else (o.kernel.map abs).sum) * gain ops := by
  rw [gain, gain, List.map_cons, List.prod_cons]

theorem fair_energy {L : List (List Nat)} (c d : α) : ∀ {l : List (PoolOp α × (Nat × AxisPad α))} {x y : Tensor α}, (∀ q ∈ l, FairAxis x q) →
    (∀ q ∈ l, Lines x.shape q.2.1 L) → y.shape = x.shape →
    (L.map fun ix => (c * (sameEach x l).get ix + d * (sameEach y l).get ix) ^ 2).sum ≤
      gain (l.map Prod.fst) ^ 2 * (L.map fun ix => (c * x.get ix + d * y.get ix) ^ 2).sum
  | [], x, y, _, _, _ => by simp [sameEach, gain]
  | q :: l, x, y, h, hL, hy => by
    obtain ⟨f, e, _, hB⟩ := fair_step (h q (by simp))
    have es : (sameStep x q).shape = x.shape := by rw [e x rfl, folded_shape]
    have es' : (sameStep y q).shape = x.shape := by rw [e y hy, folded_shape, hy]
    rw [show sameEach x (q :: l) = sameEach (sameStep x q) l from rfl, show sameEach y (q :: l) = sameEach (sameStep y q) l from rfl]
    refine (fair_energy c d (fun r hr => (h r (by simp [hr])).congr es) (fun r hr => by rw [es]; exact hL r (by simp [hr])) (es'.trans es.symm)).trans ?_
    rw [List.map_cons, gain_cons, mul_pow, mul_comm _ (gain _ ^ 2), mul_assoc, e x rfl, e y hy]
    exact mul_le_mul_of_nonneg_left (folded_energy (hL q (by simp)) (h q (by simp)).lt hy hB c d) (sq_nonneg _)

theorem fair_abs {L : List (List Nat)} (c d : α) : ∀ {l : List (PoolOp α × (Nat × AxisPad α))} {x y : Tensor α}, (∀ q ∈ l, FairAxis x q) →
    (∀ q ∈ l, Lines x.shape q.2.1 L) → y.shape = x.shape →
    (L.map fun ix => |c * (sameEach x l).get ix + d * (sameEach y l).get ix|).sum ≤
      gain (l.map Prod.fst) * (L.map fun ix => |c * x.get ix + d * y.get ix|).sum
  | [], x, y, _, _, _ => by simp [sameEach, gain]
  | q :: l, x, y, h, hL, hy => by
    obtain ⟨f, e, _, hB⟩ := fair_step (h q (by simp))
    have es : (sameStep x q).shape = x.shape := by rw [e x rfl, folded_shape]
    have es' : (sameStep y q).shape = x.shape := by rw [e y hy, folded_shape, hy]
    rw [show sameEach x (q :: l) = sameEach (sameStep x q) l from rfl, show sameEach y (q :: l) = sameEach (sameStep y q) l from rfl]
    refine (fair_abs c d (fun r hr => (h r (by simp [hr])).congr es) (fun r hr => by rw [es]; exact hL r (by simp [hr])) (es'.trans es.symm)).trans ?_
    rw [List.map_cons, gain_cons, mul_comm _ (gain _), mul_assoc, e x rfl, e y hy]
    exact mul_le_mul_of_nonneg_left (folded_abs (hL q (by simp)) (h q (by simp)).lt hy hB c d) (gain_nonneg _)

theorem gain_one {ops : List (PoolOp α)} (h : ∀ o ∈ ops, o.kernel ≠ [] → o.kernel.sum = 1 ∧ ∀ v ∈ o.kernel, 0 ≤ v) : gain ops = 1 := by
  rw [gain]
  apply List.prod_eq_one
  intro v hv
  obtain ⟨o, ho, rfl⟩ := List.mem_map.1 hv
  split_ifs with he
  · rfl
  · rw [← (h o ho he).1]
    congr 1
    conv_rhs => rw [← List.map_id o.kernel]
    apply List.map_congr_left
    intro u hu
    exact abs_of_nonneg ((h o ho he).2 u hu)

end
end TI
