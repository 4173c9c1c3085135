import Verif.Proofs.PoolLaws
import Verif.Proofs.Flip
import Verif.Proofs.FlipMetrics
import Verif.Spec.Roll

/-!
# Moving an image around a ring
-/

set_option linter.unusedSectionVars false

namespace TI
open Tensor Spec

section
variable {α : Type} [Zero α] {a m : Nat} {φ : Nat → Nat} {x : Tensor α} {ix : List Nat}

theorem reindexed_shape : (reindexed a m φ x).shape = x.shape.set a m := rfl

theorem reindexed_ndim : (reindexed a m φ x).ndim = x.ndim := by simp [ndim, reindexed_shape]

theorem reindexed_get (h : InB (x.shape.set a m) ix) : (reindexed a m φ x).get ix = x.get (ix.set a (φ (ix.getD a 0))) := get_ofFn h

theorem reindexed_size {k : Nat} (hk : k ≠ a) : (reindexed a m φ x).shape.getD k 0 = x.shape.getD k 0 := by
  rw [reindexed_shape, getD_set_ne _ _ _ _ _ hk]

theorem reindex_inB (ha : a < x.ndim) (h : InB (x.shape.set a m) ix) (hφ : ∀ t < m, φ t < x.shape.getD a 0) : InB x.shape (ix.set a (φ (ix.getD a 0))) := by
  have hlt := h.lt (k := a) (by simpa [ndim] using ha)
  rw [getD_set_self _ _ _ _ (by simpa [ndim] using ha)] at hlt
  have := h.set (hφ _ hlt)
  rwa [set_getD_self] at this

/-- moving around the ring is a renaming of positions -/
theorem rolled_eq (a d : Nat) (x : Tensor α) : rolled a d x = reindexed a (x.shape.getD a 0) (fun t => (t + d) % x.shape.getD a 0) x := by
  rw [reindexed, set_getD_self]
  rfl

theorem rolled_shape (a d : Nat) (x : Tensor α) : (rolled a d x).shape = x.shape := rfl

theorem rolled_get {d : Nat} (h : InB x.shape ix) : (rolled a d x).get ix = x.get (ix.set a ((ix.getD a 0 + d) % x.shape.getD a 0)) := get_ofFn h

theorem roll_inB {s : List Nat} {d : Nat} (h : InB s ix) : InB s (ix.set a ((ix.getD a 0 + d) % s.getD a 0)) := by
  by_cases ha : a < s.length
  · have hlt := h.lt ha
    exact h.set_same (Nat.mod_lt _ (by omega))
  · rw [List.set_eq_of_length_le (by rw [h.length_eq]; omega)]
    exact h

end

section
variable {α : Type} [Field α] [LinearOrder α] [IsStrictOrderedRing α] {a m : Nat} {φ : Nat → Nat} {x : Tensor α}

theorem padStep_reindexed {o : Nat × AxisPad α} (ha : a < x.ndim) (hφ : ∀ t < m, φ t < x.shape.getD a 0) (hne : o.1 ≠ a)
    (hn : ¬ (o.2.before = 0 ∧ o.2.after = 0) → 0 < x.shape.getD o.1 0) :
    padStep (reindexed a m φ x) o = reindexed a m φ (padStep x o) := by
  by_cases hz : o.2.before = 0 ∧ o.2.after = 0
  · simp only [padStep, if_pos hz]
  cases hr : o.2.rule? with
  | none => simp only [padStep, if_neg hz, hr]
  | some E =>
    simp only [padStep, if_neg hz, hr, reindexed_size hne]
    have hsh : (extendAxis E o.1 o.2.before (o.2.total (x.shape.getD o.1 0)) (reindexed a m φ x)).shape =
      (reindexed a m φ (extendAxis E o.1 o.2.before (o.2.total (x.shape.getD o.1 0)) x)).shape := by
      rw [extended_shape, reindexed_shape, reindexed_shape, extended_shape, getD_set_ne _ _ _ _ _ hne, List.set_comm _ _ hne]
    apply ext_get hsh
    intro ix hix
    have hix1 := hix
    rw [hsh, reindexed_shape] at hix1
    have hin := reindex_inB (x := extendAxis E o.1 o.2.before (o.2.total (x.shape.getD o.1 0)) x) (φ := φ)
      (by rw [ndim, extended_shape, List.length_set]; exact ha) hix1
      (by rw [extended_shape, getD_set_ne _ _ _ _ _ (Ne.symm hne)]; exact hφ)
    rw [reindexed_get hix1, extended_get hix, extended_get hin, reindexed_size hne, getD_set_ne _ _ _ _ _ hne]
    apply rule_local hr (hn hz)
    intro j hj
    have hin' : InB (x.shape.set a m) (ix.set o.1 j) := by
      have h0 := hix
      rw [extended_shape, reindexed_shape] at h0
      have := h0.set (d := o.1) hj
      rwa [← getD_set_ne x.shape a o.1 m 0 hne, set_getD_self] at this
    rw [reindexed_get hin', getD_set_ne _ _ _ _ _ (Ne.symm hne), List.set_comm _ _ hne]

theorem slide_reindexed {o : PoolOp α} (ha : a < x.ndim) (hφ : ∀ t < m, φ t < x.shape.getD a 0) (hne : o.axis ≠ a)
    (ho : o.kernel ≠ [] → o.axis < x.ndim ∧ 0 < o.stride) : slide (reindexed a m φ x) o = reindexed a m φ (slide x o) := by
  by_cases hk : o.kernel = []
  · simp [slide, hk]
  obtain ⟨hoa, hos⟩ := ho hk
  have hsh : (slide (reindexed a m φ x) o).shape = (reindexed a m φ (slide x o)).shape := by
    rw [reindexed_shape, slide_shape, if_neg hk, slide_shape, if_neg hk, reindexed_shape, getD_set_ne _ _ _ _ _ hne, List.set_comm _ _ hne]
  apply ext_get hsh
  intro ix hix
  have hix1 := hix
  rw [hsh, reindexed_shape] at hix1
  have hin := reindex_inB (x := slide x o) (φ := φ) (by rw [slide_ndim]; exact ha) hix1
    (by rw [slide_shape, if_neg hk, getD_set_ne _ _ _ _ _ (Ne.symm hne)]; exact hφ)
  rw [reindexed_get hix1, slide_get hk hix, slide_get hk hin]
  congr 1
  apply List.map_congr_left
  intro j hj
  have := slide_inB hos (by rw [reindexed_ndim]; exact hoa) hk hix (List.mem_range.1 hj)
  rw [reindexed_shape] at this
  rw [reindexed_get this, getD_set_ne _ _ _ _ _ hne, getD_set_ne _ _ _ _ _ (Ne.symm hne), List.set_comm _ _ hne]

theorem padStep_size {o : Nat × AxisPad α} {k : Nat} (hk : k ≠ o.1) : (padStep x o).shape.getD k 0 = x.shape.getD k 0 := by
  rw [padStep]
  split_ifs
  · rfl
  · cases o.2.rule? with
    | none => rfl
    | some E => exact getD_set_ne _ _ _ _ _ hk

theorem padStep_ndim (x : Tensor α) (o : Nat × AxisPad α) : (padStep x o).ndim = x.ndim := by
  rw [padStep]
  split_ifs
  · rfl
  · cases o.2.rule? with
    | none => rfl
    | some E => simp [ndim, extended_shape]

theorem padSeq_reindexed : ∀ {ops : List (Nat × AxisPad α)} {x : Tensor α}, a < x.ndim → (∀ t < m, φ t < x.shape.getD a 0) → (∀ o ∈ ops, o.1 ≠ a) →
    (ops.map Prod.fst).Nodup → (∀ o ∈ ops, 0 < x.shape.getD o.1 0) → padSeq (reindexed a m φ x) ops = reindexed a m φ (padSeq x ops)
  | [], _, _, _, _, _, _ => rfl
  | o :: ops, x, ha, hφ, hne, hnd, hn => by
    simp only [List.map_cons, List.nodup_cons] at hnd
    rw [padSeq_cons, padSeq_cons, padStep_reindexed ha hφ (hne o (by simp)) fun _ => hn o (by simp)]
    apply padSeq_reindexed (by rw [padStep_ndim]; exact ha) (by rw [padStep_size (Ne.symm (hne o (by simp)))]; exact hφ) (fun q hq => hne q (by simp [hq]))
      hnd.2
    intro q hq
    rw [padStep_size fun e => hnd.1 (e ▸ List.mem_map_of_mem hq)]
    exact hn q (by simp [hq])

theorem slide_size {o : PoolOp α} {k : Nat} (hk : k ≠ o.axis) : (slide x o).shape.getD k 0 = x.shape.getD k 0 := by
  rw [slide_shape]
  split_ifs
  · rfl
  · exact getD_set_ne _ _ _ _ _ hk

theorem poolSeq_reindexed : ∀ {ops : List (PoolOp α)} {x : Tensor α}, a < x.ndim → (∀ t < m, φ t < x.shape.getD a 0) → (∀ o ∈ ops, o.axis ≠ a) →
    (∀ o ∈ ops, o.kernel ≠ [] → o.axis < x.ndim ∧ 0 < o.stride) → poolSeq (reindexed a m φ x) ops = reindexed a m φ (poolSeq x ops)
  | [], _, _, _, _, _ => rfl
  | o :: ops, x, ha, hφ, hne, ho => by
    show poolSeq (slide (reindexed a m φ x) o) ops = reindexed a m φ (poolSeq (slide x o) ops)
    rw [slide_reindexed ha hφ (hne o (by simp)) (ho o (by simp))]
    apply poolSeq_reindexed (by rw [slide_ndim]; exact ha) (by rw [slide_size (Ne.symm (hne o (by simp)))]; exact hφ) (fun q hq => hne q (by simp [hq]))
    intro q hq
    rw [slide_ndim]
    exact ho q (by simp [hq])

/-- circular padding is a renaming of positions -/
theorem padStep_circular {s : AxisPad α} (ha : a < x.ndim) (hm : s.mode = .circular) :
    padStep x (a, s) = reindexed a (s.before + x.shape.getD a 0 + s.after) (fun t => (((t : Int) - s.before) % (x.shape.getD a 0 : Nat)).toNat) x := by
  have hr : s.rule? = some Spec.circular := by simp [AxisPad.rule?, hm]
  have ht : s.total (x.shape.getD a 0) = s.after := by
    rw [AxisPad.total]
    split_ifs with h h'
    · exact h.2.symm
    · rw [hm] at h'; cases h'
    · rfl
  rw [padStep_eq (o := (a, s)) ha hr]
  simp only [ht]
  rfl

/-- the filter of one axis, on a ring -/
def Spec.ring (a : Nat) (w : List α) (b : Nat) (x : Tensor α) : Tensor α :=
  if w = [] then x else ofFn x.shape fun ix => ((List.range w.length).map fun j =>
    w.getD j 0 * x.get (ix.set a ((((ix.getD a 0 + j : Nat) : Int) - b) % (x.shape.getD a 0 : Nat)).toNat)).sum

theorem ring_shape {w : List α} {b : Nat} : (ring a w b x).shape = x.shape := by
  rw [Spec.ring]
  split_ifs <;> rfl

theorem ring_get {w : List α} {b : Nat} (hw : w ≠ []) {ix : List Nat} (h : InB x.shape ix) : (ring a w b x).get ix =
    ((List.range w.length).map fun j =>
    w.getD j 0 * x.get (ix.set a ((((ix.getD a 0 + j : Nat) : Int) - b) % (x.shape.getD a 0 : Nat)).toNat)).sum := by
  rw [Spec.ring, if_neg hw, get_ofFn h]

theorem slide_ring {w : List α} {b e : Nat} (ha : a < x.ndim) (hn : 0 < x.shape.getD a 0) (hk : b + e = w.length - 1) :
    slide (reindexed a (b + x.shape.getD a 0 + e) (fun t => (((t : Int) - b) % (x.shape.getD a 0 : Nat)).toNat) x) ⟨a, w, 1⟩ = ring a w b x := by
  have hal : a < x.shape.length := ha
  by_cases hw : w = []
  · subst hw
    simp only [List.length_nil, Nat.zero_sub, Nat.add_eq_zero_iff] at hk
    rw [slide, if_pos rfl, Spec.ring, if_pos rfl, hk.1, hk.2, Nat.zero_add, Nat.add_zero]
    apply ext_get (by rw [reindexed_shape, set_getD_self])
    intro ix hix
    have hix1 := hix
    rw [reindexed_shape] at hix
    rw [reindexed_shape, set_getD_self] at hix1
    have hlt := hix1.lt hal
    have e : (((ix.getD a 0 : Nat) : Int) - ((0 : Nat) : Int)) % (x.shape.getD a 0 : Nat) = (ix.getD a 0 : Nat) := by
      rw [Int.natCast_zero, Int.sub_zero, Int.emod_eq_of_lt (by omega) (by omega)]
    rw [reindexed_get hix, e, Int.toNat_natCast, set_getD_self]
  have hwl : 0 < w.length := List.length_pos_iff.2 hw
  have hsh : (slide (reindexed a (b + x.shape.getD a 0 + e) (fun t => (((t : Int) - b) % (x.shape.getD a 0 : Nat)).toNat) x)
      ⟨a, w, 1⟩).shape = x.shape := by
    rw [slide_shape, if_neg hw, reindexed_shape, getD_set_self _ _ _ _ hal, List.set_set]
    simp only
    rw [windowCount_pos Nat.one_pos hwl (by omega), Nat.div_one]
    have : b + x.shape.getD a 0 + e - w.length + 1 = x.shape.getD a 0 := by omega
    rw [this, set_getD_self]
  apply ext_get (hsh.trans ring_shape.symm)
  intro ix hix
  have hix1 : InB x.shape ix := by rw [hsh] at hix; exact hix
  rw [slide_get hw hix, ring_get hw hix1]
  congr 1
  apply List.map_congr_left
  intro j hj
  have hin := slide_inB (o := ⟨a, w, 1⟩) Nat.one_pos (by rw [reindexed_ndim]; exact ha) hw hix (List.mem_range.1 hj)
  rw [reindexed_shape] at hin
  simp only at hin ⊢
  rw [reindexed_get hin, List.set_set, getD_set_self _ _ _ _ (by rw [hix1.length_eq]; exact hal), Nat.mul_one]

theorem ring_arith {n : Nat} (hn : 0 < n) (t j b d : Nat) :
    (((((t + j : Nat) : Int) - b) % (n : Nat)).toNat + d) % n = (((((t + d) % n + j : Nat) : Int) - b) % (n : Nat)).toNat := by
  have hn' : (n : Int) ≠ 0 := by omega
  apply Int.ofNat.inj
  show ((((((t + j : Nat) : Int) - b) % (n : Nat)).toNat + d) % n : Nat) = (((((((t + d) % n + j : Nat) : Int) - b) % (n : Nat)).toNat : Nat) : Int)
  push_cast
  rw [Int.toNat_of_nonneg (Int.emod_nonneg _ hn'), Int.toNat_of_nonneg (Int.emod_nonneg _ hn'), Int.emod_add_emod, add_sub_assoc (((t : Int) + d) % n),
    Int.emod_add_emod]
  congr 1
  ring

theorem ring_inB {s ix : List Nat} (ha : a < s.length) (h : InB s ix) (z : Int) : InB s (ix.set a (z % (s.getD a 0 : Nat)).toNat) := by
  have hlt := h.lt ha
  apply h.set_same
  have h1 := Int.emod_nonneg z (b := (s.getD a 0 : Nat)) (by omega)
  have h2 := Int.emod_lt_of_pos z (b := (s.getD a 0 : Nat)) (by omega)
  omega

theorem ring_rolled {w : List α} {b d : Nat} (ha : a < x.ndim) : ring a w b (rolled a d x) = rolled a d (ring a w b x) := by
  by_cases hw : w = []
  · simp [Spec.ring, hw]
  apply ext_get (show (ring a w b (rolled a d x)).shape = (rolled a d (ring a w b x)).shape by rw [rolled_shape, ring_shape, ring_shape, rolled_shape])
  intro ix hix
  have hix1 : InB x.shape ix := by rw [ring_shape] at hix; exact hix
  have hlt := hix1.lt (k := a) ha
  have hl : a < ix.length := by rw [hix1.length_eq]; exact ha
  have hn : 0 < x.shape.getD a 0 := by omega
  rw [rolled_get (x := ring a w b x) (by rw [ring_shape]; exact hix1), ring_shape, ring_get hw (show InB (rolled a d x).shape ix from hix1),
    ring_get hw (roll_inB hix1)]
  congr 1
  apply List.map_congr_left
  intro j _
  rw [rolled_shape, rolled_get (ring_inB ha hix1 _), List.set_set, List.set_set, getD_set_self _ _ _ _ hl, getD_set_self _ _ _ _ hl, ring_arith hn]

theorem roll_lt {n d : Nat} : ∀ t < n, (t + d) % n < n := fun _ ht => Nat.mod_lt _ (by omega)

theorem padSeq_size : ∀ {ops : List (Nat × AxisPad α)} {x : Tensor α}, (∀ o ∈ ops, o.1 ≠ a) → (padSeq x ops).shape.getD a 0 = x.shape.getD a 0
  | [], _, _ => rfl
  | o :: ops, x, h => by rw [padSeq_cons, padSeq_size fun q hq => h q (by simp [hq]), padStep_size (Ne.symm (h o (by simp)))]

theorem padSeq_ndim' : ∀ (ops : List (Nat × AxisPad α)) (x : Tensor α), (padSeq x ops).ndim = x.ndim
  | [], _ => rfl
  | o :: ops, x => by rw [padSeq_cons, padSeq_ndim', padStep_ndim]

theorem poolSeq_size : ∀ {ops : List (PoolOp α)} {x : Tensor α}, (∀ o ∈ ops, o.axis ≠ a) → (poolSeq x ops).shape.getD a 0 = x.shape.getD a 0
  | [], _, _ => rfl
  | o :: ops, x, h => by
    show (poolSeq (slide x o) ops).shape.getD a 0 = _
    rw [poolSeq_size fun q hq => h q (by simp [hq]), slide_size (Ne.symm (h o (by simp)))]

theorem padSeq_rolled {d : Nat} {ops : List (Nat × AxisPad α)} (ha : a < x.ndim) (hne : ∀ o ∈ ops, o.1 ≠ a) (hnd : (ops.map Prod.fst).Nodup)
    (hn : ∀ o ∈ ops, 0 < x.shape.getD o.1 0) : padSeq (rolled a d x) ops = rolled a d (padSeq x ops) := by
  rw [rolled_eq, padSeq_reindexed ha roll_lt hne hnd hn, rolled_eq, padSeq_size hne]

theorem poolSeq_rolled {d : Nat} {ops : List (PoolOp α)} (ha : a < x.ndim) (hne : ∀ o ∈ ops, o.axis ≠ a)
    (ho : ∀ o ∈ ops, o.kernel ≠ [] → o.axis < x.ndim ∧ 0 < o.stride) : poolSeq (rolled a d x) ops = rolled a d (poolSeq x ops) := by
  rw [rolled_eq, poolSeq_reindexed ha roll_lt hne ho, rolled_eq, poolSeq_size hne]

/-- circular padding and filtering of one axis among others -/
theorem around_ring {P₁ P₂ : List (Nat × AxisPad α)} {O₁ O₂ : List (PoolOp α)} {s : AxisPad α} {w : List α} (ha : a < x.ndim)
    (hn : 0 < x.shape.getD a 0) (hm : s.mode = .circular) (hk : s.before + s.after = w.length - 1) (hP₁ : ∀ o ∈ P₁, o.1 ≠ a)
    (hP₂ : ∀ o ∈ P₂, o.1 ≠ a) (hnd : (P₁.map Prod.fst ++ P₂.map Prod.fst).Nodup) (hpos : ∀ o ∈ P₂, 0 < x.shape.getD o.1 0)
    (hO₁ : ∀ o ∈ O₁, o.axis ≠ a) (ho : ∀ o ∈ O₁, o.kernel ≠ [] → o.axis < x.ndim ∧ 0 < o.stride) :
    poolSeq (padSeq x (P₁ ++ (a, s) :: P₂)) (O₁ ++ ⟨a, w, 1⟩ :: O₂) = poolSeq (ring a w s.before (poolSeq (padSeq (padSeq x P₁) P₂) O₁)) O₂ := by
  have hφ : ∀ t < s.before + x.shape.getD a 0 + s.after, (((t : Int) - s.before) % (x.shape.getD a 0 : Nat)).toNat < x.shape.getD a 0 := by
    intro t _
    have h1 := Int.emod_nonneg ((t : Int) - s.before) (b := (x.shape.getD a 0 : Nat)) (by omega)
    have h2 := Int.emod_lt_of_pos ((t : Int) - s.before) (b := (x.shape.getD a 0 : Nat)) (by omega)
    omega
  have hnd' := List.nodup_append.1 hnd
  have e1 : padSeq x (P₁ ++ (a, s) :: P₂) = reindexed a (s.before + x.shape.getD a 0 + s.after)
      (fun t => (((t : Int) - s.before) % (x.shape.getD a 0 : Nat)).toNat) (padSeq (padSeq x P₁) P₂) := by
    rw [padSeq_append, padSeq_cons, padStep_circular (by rw [padSeq_ndim']; exact ha) hm, padSeq_size hP₁]
    apply padSeq_reindexed (by rw [padSeq_ndim']; exact ha) (by rw [padSeq_size hP₁]; exact hφ) hP₂ hnd'.2.1
    intro o ho
    rw [padSeq_size]
    · exact hpos o ho
    · intro q hq e
      exact hnd'.2.2 q.1 (List.mem_map_of_mem hq) o.1 (List.mem_map_of_mem ho) e
  have hsz : (padSeq (padSeq x P₁) P₂).shape.getD a 0 = x.shape.getD a 0 := by rw [padSeq_size hP₂, padSeq_size hP₁]
  have e2 : poolSeq (padSeq x (P₁ ++ (a, s) :: P₂)) O₁ = reindexed a (s.before + x.shape.getD a 0 + s.after)
      (fun t => (((t : Int) - s.before) % (x.shape.getD a 0 : Nat)).toNat) (poolSeq (padSeq (padSeq x P₁) P₂) O₁) := by
    rw [e1]
    exact poolSeq_reindexed (by rw [padSeq_ndim', padSeq_ndim']; exact ha) (by rw [hsz]; exact hφ) hO₁ (by rw [padSeq_ndim', padSeq_ndim']; exact ho)
  have hsz' : (poolSeq (padSeq (padSeq x P₁) P₂) O₁).shape.getD a 0 = x.shape.getD a 0 := by rw [poolSeq_size hO₁, hsz]
  have e3 := slide_ring (x := poolSeq (padSeq (padSeq x P₁) P₂) O₁) (a := a) (w := w) (b := s.before) (e := s.after)
    (by rw [poolSeq_ndim, padSeq_ndim', padSeq_ndim']; exact ha) (by rw [hsz']; exact hn) hk
  rw [hsz'] at e3
  have e4 : poolSeq (padSeq x (P₁ ++ (a, s) :: P₂)) (O₁ ++ ⟨a, w, 1⟩ :: O₂) =
      poolSeq (slide (poolSeq (padSeq x (P₁ ++ (a, s) :: P₂)) O₁) ⟨a, w, 1⟩) O₂ := by simp [poolSeq, List.foldl_append]
  rw [e4, e2, e3]

/-- … and moving the image around that axis -/
theorem around_rolled {P₁ P₂ : List (Nat × AxisPad α)} {O₁ O₂ : List (PoolOp α)} {s : AxisPad α} {w : List α} {d : Nat} (ha : a < x.ndim)
    (hn : 0 < x.shape.getD a 0) (hm : s.mode = .circular) (hk : s.before + s.after = w.length - 1) (hP₁ : ∀ o ∈ P₁, o.1 ≠ a)
    (hP₂ : ∀ o ∈ P₂, o.1 ≠ a) (hnd : (P₁.map Prod.fst ++ P₂.map Prod.fst).Nodup) (hpos : ∀ o ∈ P₁ ++ P₂, 0 < x.shape.getD o.1 0)
    (hO₁ : ∀ o ∈ O₁, o.axis ≠ a) (hO₂ : ∀ o ∈ O₂, o.axis ≠ a) (ho : ∀ o ∈ O₁ ++ O₂, o.kernel ≠ [] → o.axis < x.ndim ∧ 0 < o.stride) :
    poolSeq (padSeq (rolled a d x) (P₁ ++ (a, s) :: P₂)) (O₁ ++ ⟨a, w, 1⟩ :: O₂) =
      rolled a d (poolSeq (padSeq x (P₁ ++ (a, s) :: P₂)) (O₁ ++ ⟨a, w, 1⟩ :: O₂)) := by
  have hnd' := List.nodup_append.1 hnd
  have ho₁ : ∀ o ∈ O₁, o.kernel ≠ [] → o.axis < x.ndim ∧ 0 < o.stride := fun o h => ho o (by simp [h])
  have hp₂ : ∀ o ∈ P₂, 0 < x.shape.getD o.1 0 := fun o h => hpos o (by simp [h])
  rw [around_ring (x := rolled a d x) ha hn hm hk hP₁ hP₂ hnd hp₂ hO₁ ho₁, around_ring ha hn hm hk hP₁ hP₂ hnd hp₂ hO₁ ho₁,
    padSeq_rolled ha hP₁ hnd'.1 (fun o h => hpos o (by simp [h])), padSeq_rolled (by rw [padSeq_ndim']; exact ha) hP₂ hnd'.2.1,
    poolSeq_rolled (by rw [padSeq_ndim', padSeq_ndim']; exact ha) hO₁ (by rw [padSeq_ndim', padSeq_ndim']; exact ho₁),
    ring_rolled (by rw [poolSeq_ndim, padSeq_ndim', padSeq_ndim']; exact ha), poolSeq_rolled _ hO₂]
  · intro o h
    rw [ndim, ring_shape, ← ndim, poolSeq_ndim, padSeq_ndim', padSeq_ndim']
    exact ho o (by simp [h])
  · rw [ndim, ring_shape, ← ndim, poolSeq_ndim, padSeq_ndim', padSeq_ndim']; exact ha
  · intro o h
    rw [padSeq_size fun q hq e => hnd'.2.2 q.1 (List.mem_map_of_mem hq) o.1 (List.mem_map_of_mem h) e]
    exact hp₂ o h

/-! ## sums -/

theorem perm_indices {s : List Nat} {f : List Nat → List Nat} (h : ∀ ix, InB s ix → InB s (f ix))
    (hi : ∀ ix jx, InB s ix → InB s jx → f ix = f jx → ix = jx) : ((indices s).map f).Perm (indices s) := by
  have hnd : ((indices s).map f).Nodup := by
    apply List.Nodup.map_on _ (indices_nodup s)
    intro u hu v hv e
    exact hi u v (mem_indices.1 hu) (mem_indices.1 hv) e
  refine (List.subperm_of_subset hnd ?_).perm_of_length_le (by simp)
  intro ix hix
  obtain ⟨jx, hj, rfl⟩ := List.mem_map.1 hix
  exact mem_indices.2 (h jx (mem_indices.1 hj))

theorem ring_inj {s ix jx : List Nat} {a : Nat} (ha : a < s.length) (hix : InB s ix) (hjx : InB s jx) (c : Int)
    (e : ix.set a ((((ix.getD a 0 : Nat) : Int) + c) % (s.getD a 0 : Nat)).toNat = jx.set a ((((jx.getD a 0 : Nat) : Int) + c) % (s.getD a 0 : Nat)).toNat) :
    ix = jx := by
  have hl : ix.length = s.length := hix.length_eq
  have hl' : jx.length = s.length := hjx.length_eq
  have h1 := hix.lt ha
  have h2 := hjx.lt ha
  apply list_ext_getD (by rw [hl, hl'])
  intro k hk
  have e' := congrArg (fun l : List Nat => l.getD k 0) e
  beta_reduce at e'
  by_cases hka : k = a
  · subst hka
    rw [getD_set_self _ _ _ _ hk, getD_set_self _ _ _ _ (by omega)] at e'
    have hn : ((s.getD k 0 : Nat) : Int) ≠ 0 := by omega
    have e2 : (((ix.getD k 0 : Nat) : Int) + c) % (s.getD k 0 : Nat) = (((jx.getD k 0 : Nat) : Int) + c) % (s.getD k 0 : Nat) := by
      have g1 := Int.emod_nonneg (((ix.getD k 0 : Nat) : Int) + c) hn
      have g2 := Int.emod_nonneg (((jx.getD k 0 : Nat) : Int) + c) hn
      omega
    have e3 : ((ix.getD k 0 : Nat) : Int) % (s.getD k 0 : Nat) = ((jx.getD k 0 : Nat) : Int) % (s.getD k 0 : Nat) := Int.emod_add_cancel_right c |>.1 e2
    rw [Int.emod_eq_of_lt (by omega) (by omega), Int.emod_eq_of_lt (by omega) (by omega)] at e3
    omega
  · rwa [getD_set_ne _ _ _ _ _ hka, getD_set_ne _ _ _ _ _ hka] at e'

/-- the filter on a ring multiplies the sum of all samples by the sum of the weights -/
theorem ring_sum {w : List α} {b : Nat} (ha : a < x.ndim) : (ring a w b x).data.sum = (if w = [] then 1 else w.sum) * x.data.sum := by
  by_cases hw : w = []
  · rw [Spec.ring, if_pos hw, if_pos hw, one_mul]
  rw [if_neg hw, data_eq_map_get, ring_shape, List.map_congr_left fun ix hix => ring_get hw (mem_indices.1 hix), sum_map_comm]
  have e : ∀ j ∈ List.range w.length, ((indices x.shape).map fun ix =>
      w.getD j 0 * x.get (ix.set a ((((ix.getD a 0 + j : Nat) : Int) - b) % (x.shape.getD a 0 : Nat)).toNat)).sum = w.getD j 0 * x.data.sum := by
    intro j _
    rw [← mul_sum_map, data_eq_map_get]
    congr 1
    have hp := perm_indices (s := x.shape) (f := fun ix => ix.set a ((((ix.getD a 0 + j : Nat) : Int) - b) % (x.shape.getD a 0 : Nat)).toNat)
      (fun ix hix => ring_inB ha hix _) (by
        intro ix jx hix hjx e
        apply ring_inj ha hix hjx ((j : Int) - b)
        simpa [add_sub_assoc] using e)
    have := (hp.map x.get).sum_eq
    rw [List.map_map] at this
    exact this
  rw [List.map_congr_left e, ← sum_map_mul, map_getD_range]

/-! ## reductions and maps -/

theorem roll_inj {s ix jx : List Nat} {a d : Nat} (hix : InB s ix) (hjx : InB s jx)
    (e : ix.set a ((ix.getD a 0 + d) % s.getD a 0) = jx.set a ((jx.getD a 0 + d) % s.getD a 0)) : ix = jx := by
  by_cases ha : a < s.length
  · refine ring_inj ha hix hjx (d : Int) ?_
    have h : ∀ t : Nat, ((((t : Nat) : Int) + d) % (s.getD a 0 : Nat)).toNat = (t + d) % s.getD a 0 := by
      intro t
      rw [← Int.natCast_add, ← Int.natCast_emod, Int.toNat_natCast]
    rw [h, h]
    exact e
  · rwa [List.set_eq_of_length_le (by rw [hix.length_eq]; omega), List.set_eq_of_length_le (by rw [hjx.length_eq]; omega)] at e

theorem collected_roll {s ds : List Nat} {a d : Nat} (ha : a ∈ ds) (jx : List Nat) :
    ((collected s ds jx).map fun ix => ix.set a ((ix.getD a 0 + d) % s.getD a 0)).Perm (collected s ds jx) := by
  have hnd : (collected s ds jx).Nodup := (indices_nodup s).filter _
  have hnd' : ((collected s ds jx).map fun ix => ix.set a ((ix.getD a 0 + d) % s.getD a 0)).Nodup := by
    apply List.Nodup.map_on _ hnd
    intro u hu v hv e
    exact roll_inj (mem_collected.1 hu).1 (mem_collected.1 hv).1 e
  refine (List.subperm_of_subset hnd' ?_).perm_of_length_le (by simp)
  intro ix hix
  obtain ⟨kx, hk, rfl⟩ := List.mem_map.1 hix
  obtain ⟨h1, h2⟩ := mem_collected.1 hk
  exact mem_collected.2 ⟨roll_inB h1, by rw [onKept_set ha]; exact h2⟩

theorem rolled_collected {ds : List Nat} {d : Nat} (ha : a ∈ ds) (jx : List Nat) :
    ((collected x.shape ds jx).map (rolled a d x).get).Perm ((collected x.shape ds jx).map x.get) := by
  have e : (collected x.shape ds jx).map (rolled a d x).get =
      ((collected x.shape ds jx).map fun ix => ix.set a ((ix.getD a 0 + d) % x.shape.getD a 0)).map x.get := by
    rw [List.map_map]
    apply List.map_congr_left
    intro ix hix
    exact rolled_get (mem_collected.1 hix).1
  rw [e]
  exact (collected_roll ha jx).map _

theorem meanOver_roll {raxes : List Nat} {d : Nat} (ha : a ∈ reducedAxes x.ndim raxes) : meanOver (rolled a d x) raxes = meanOver x raxes := by
  rw [meanOver, meanOver, rolled_shape, show (rolled a d x).ndim = x.ndim from rfl]
  apply ofFn_congr
  intro jx _
  exact mean_perm (rolled_collected ha jx)

theorem times_roll {y : Tensor α} {d : Nat} (h : y.shape = x.shape) : times (rolled a d x) (rolled a d y) = rolled a d (times x y) := by
  apply ext_get (show (times (rolled a d x) (rolled a d y)).shape = (rolled a d (times x y)).shape from rfl)
  intro ix hix
  have hix' : InB x.shape ix := hix
  rw [rolled_get (x := times x y) hix', times, times, get_ofFn (show InB (rolled a d x).shape ix from hix'), rolled_get hix',
    rolled_get (show InB y.shape ix by rw [h]; exact hix'), h]
  rw [show (ofFn x.shape fun ix => x.get ix * y.get ix).shape = x.shape from rfl, get_ofFn (roll_inB hix')]

/-- a map made of blurred images is moved with the images -/
theorem pointMap_roll {b : Tensor α → Tensor α} {y1 y2 : Tensor α} {d : Nat} (F : α → α → α → α → α → α) (h12 : y2.shape = y1.shape)
    (hsh : ∀ x, x.shape = y1.shape → (b x).shape = (b y1).shape)
    (hb : ∀ x, x.shape = y1.shape → b (rolled a d x) = rolled a d (b x)) :
    pointMap F b (rolled a d y1) (rolled a d y2) = rolled a d (pointMap F b y1 y2) := by
  have e1 := hb y1 rfl
  have e2 := hb y2 h12
  have e3 := hb (times y1 y1) rfl
  have e4 := hb (times y2 y2) h12
  have e5 := hb (times y1 y2) rfl
  rw [pointMap, e1, e2, times_roll rfl, times_roll rfl, times_roll h12, e3, e4, e5]
  have e : (pointMap F b y1 y2).shape = (b y1).shape := rfl
  rw [rolled_shape, show rolled a d (pointMap F b y1 y2) = ofFn (pointMap F b y1 y2).shape _ from rfl, e]
  apply ofFn_congr
  intro ix hix'
  have s2 := hsh y2 h12
  have s3 := hsh (times y1 y1) rfl
  have s4 := hsh (times y2 y2) h12
  have s5 := hsh (times y1 y2) rfl
  rw [rolled_get hix', rolled_get (x := b y2) (by rw [s2]; exact hix'), rolled_get (x := b (times y1 y1)) (by rw [s3]; exact hix'),
    rolled_get (x := b (times y2 y2)) (by rw [s4]; exact hix'), rolled_get (x := b (times y1 y2)) (by rw [s5]; exact hix'), s2, s3, s4, s5,
    pointMap, get_ofFn (roll_inB hix')]

theorem squaredError_roll {y : Tensor α} {d : Nat} (h : x.shape = y.shape) :
    squaredError (rolled a d x) (rolled a d y) = rolled a d (squaredError x y) := by
  rw [squaredError, show rolled a d (squaredError x y) = ofFn x.shape _ from rfl, rolled_shape]
  apply ofFn_congr
  intro ix hix
  have e : (squaredError x y).shape = x.shape := rfl
  rw [rolled_get hix, rolled_get (by rw [← h]; exact hix), ← h, e, squaredError, get_ofFn (roll_inB hix)]

end

end TI
