import Verif.Spec.Compose
import Verif.Proofs.PoolOps

/-!
# Two poolings in a row: one axis, all axes
-/

set_option linter.unusedSectionVars false

namespace TI
open Tensor Spec

variable {α : Type} [Field α]

theorem composed_length (w₁ : List α) (s : Nat) (w₂ : List α) :
    (composed w₁ s w₂).length = (w₂.length - 1) * s + w₁.length := by simp [composed]

theorem composed_ne {w₁ w₂ : List α} {s : Nat} (h₁ : w₁ ≠ []) : composed w₁ s w₂ ≠ [] := by
  rw [← List.length_pos_iff, composed_length]
  have := List.length_pos_iff.2 h₁
  omega

/-- only the stretch from `p` to `p + q` counts -/
theorem sum_stretch (p q r : Nat) (w : List α) (hw : w.length = q) (f : Nat → α) :
    ((List.range (p + q + r)).map fun j => (if p ≤ j then w.getD (j - p) 0 else 0) * f j).sum =
      ((List.range q).map fun a => w.getD a 0 * f (p + a)).sum := by
  rw [List.range_add, List.range_add, List.map_append, List.map_append, List.sum_append, List.sum_append]
  have h1 : ((List.range p).map fun j => (if p ≤ j then w.getD (j - p) 0 else 0) * f j).sum = 0 := by
    apply List.sum_eq_zero
    intro z hz
    obtain ⟨j, hj, rfl⟩ := List.mem_map.1 hz
    rw [if_neg (by have := List.mem_range.1 hj; omega), zero_mul]
  have h3 : (((List.range r).map (fun x => p + q + x)).map fun j => (if p ≤ j then w.getD (j - p) 0 else 0) * f j).sum = 0 := by
    apply List.sum_eq_zero
    intro z hz
    obtain ⟨j, hj, rfl⟩ := List.mem_map.1 hz
    obtain ⟨i, hi, rfl⟩ := List.mem_map.1 hj
    rw [if_pos (by omega), show w.getD (p + q + i - p) 0 = 0 by rw [List.getD_eq_getElem?_getD, List.getElem?_eq_none (by omega)]; rfl, zero_mul]
  rw [h1, h3, zero_add, add_zero, List.map_map]
  congr 1
  apply List.map_congr_left
  intro a _
  simp

theorem sum_composed (w₁ : List α) (s : Nat) (w₂ : List α) (f : Nat → α) :
    ((List.range (composed w₁ s w₂).length).map fun j => (composed w₁ s w₂).getD j 0 * f j).sum =
      ((List.range w₂.length).map fun b => w₂.getD b 0 *
        ((List.range w₁.length).map fun a => w₁.getD a 0 * f (b * s + a)).sum).sum := by
  have e : ((List.range (composed w₁ s w₂).length).map fun j => (composed w₁ s w₂).getD j 0 * f j) =
      (List.range (composed w₁ s w₂).length).map fun j =>
        ((List.range w₂.length).map fun b => w₂.getD b 0 * ((if b * s ≤ j then w₁.getD (j - b * s) 0 else 0) * f j)).sum := by
    apply List.map_congr_left
    intro j hj
    rw [List.mem_range, composed_length] at hj
    rw [show (composed w₁ s w₂).getD j 0 = ((List.range w₂.length).map fun b => w₂.getD b 0 * if b * s ≤ j then w₁.getD (j - b * s) 0 else 0).sum by
      simp [composed, hj], sum_map_mul]
    simp only [mul_assoc]
  rw [e, sum_map_comm]
  congr 1
  apply List.map_congr_left
  intro b hb
  have hb := List.mem_range.1 hb
  rw [← mul_sum_map]
  congr 1
  have hle : b * s ≤ (w₂.length - 1) * s := Nat.mul_le_mul_right _ (by omega)
  rw [composed_length, show (w₂.length - 1) * s + w₁.length = b * s + w₁.length + ((w₂.length - 1) * s - b * s) by omega]
  exact sum_stretch _ _ _ _ rfl f

/-- the windows of the two poolings together -/
theorem windowCount_composed {n k₁ s₁ k₂ s₂ : Nat} (h₁ : 0 < s₁) (h₂ : 0 < s₂) (hk₁ : 0 < k₁) (hk₂ : 0 < k₂) (hn : k₁ ≤ n)
    (hn₂ : k₂ ≤ windowCount n k₁ s₁ 1) :
    (k₂ - 1) * s₁ + k₁ ≤ n ∧
      windowCount (windowCount n k₁ s₁ 1) k₂ s₂ 1 = windowCount n ((k₂ - 1) * s₁ + k₁) (s₁ * s₂) 1 := by
  have hw := windowCount_pos h₁ hk₁ hn
  have hq : (k₂ - 1) * s₁ ≤ n - k₁ := by
    rw [hw] at hn₂
    exact (Nat.le_div_iff_mul_le h₁).1 (by omega)
  refine ⟨by omega, ?_⟩
  rw [windowCount_pos h₂ hk₂ hn₂, windowCount_pos (Nat.mul_pos h₁ h₂) (by omega) (by omega), hw, ← Nat.div_div_eq_div_mul]
  congr 2
  rw [show n - ((k₂ - 1) * s₁ + k₁) = n - k₁ - s₁ * (k₂ - 1) by rw [Nat.mul_comm s₁]; omega, Nat.sub_mul_div_of_le]
  · omega
  · rw [Nat.mul_comm]; exact hq

theorem slide_slide {x : Tensor α} {a : Nat} {w₁ w₂ : List α} {s₁ s₂ : Nat} (ha : a < x.ndim) (h₁ : 0 < s₁) (h₂ : 0 < s₂)
    (hw₁ : w₁ ≠ []) (hw₂ : w₂ ≠ []) (hn : w₁.length ≤ x.shape.getD a 0)
    (hn₂ : w₂.length ≤ windowCount (x.shape.getD a 0) w₁.length s₁ 1) :
    slide (slide x ⟨a, w₁, s₁⟩) ⟨a, w₂, s₂⟩ = slide x ⟨a, composed w₁ s₁ w₂, s₁ * s₂⟩ := by
  have hc := windowCount_composed h₁ h₂ (List.length_pos_iff.2 hw₁) (List.length_pos_iff.2 hw₂) hn hn₂
  have ha' : a < x.shape.length := ha
  have hsh : (slide (slide x ⟨a, w₁, s₁⟩) ⟨a, w₂, s₂⟩).shape = (slide x ⟨a, composed w₁ s₁ w₂, s₁ * s₂⟩).shape := by
    rw [slide_shape, slide_shape, slide_shape]
    simp only [if_neg hw₁, if_neg hw₂, if_neg (composed_ne hw₁), List.set_set]
    rw [getD_set_self _ _ _ _ ha', hc.2, composed_length]
  apply ext_get hsh
  intro ix hix
  have hal : a < ix.length := by
    have := hix.length_eq
    rw [slide_shape, slide_shape] at this
    simp only [if_neg hw₁, if_neg hw₂, List.length_set] at this
    omega
  rw [slide_get hw₂ hix, slide_get (composed_ne hw₁) (hsh ▸ hix)]
  simp only
  rw [sum_composed w₁ s₁ w₂ fun j => x.get (ix.set a (ix.getD a 0 * (s₁ * s₂) + j))]
  congr 1
  apply List.map_congr_left
  intro b hb
  have hb := List.mem_range.1 hb
  rw [slide_get hw₁ (slide_inB h₂ (by rw [slide_ndim]; exact ha) hw₂ hix hb)]
  simp only [List.set_set, getD_set_self _ _ _ _ hal]
  congr 2
  apply List.map_congr_left
  intro i _
  congr 3
  ring

/-- pooling of one more axis can be moved past the others -/
theorem slide_poolSeq_comm {o : PoolOp α} (hs : o.kernel ≠ [] → 0 < o.stride) : ∀ {ops : List (PoolOp α)} {x : Tensor α},
    (o.kernel ≠ [] → o.axis < x.ndim) → (∀ p ∈ ops, p.kernel ≠ [] → p.axis < x.ndim ∧ 0 < p.stride) → (∀ p ∈ ops, p.axis ≠ o.axis) →
    slide (poolSeq x ops) o = poolSeq (slide x o) ops
  | [], _, _, _, _ => rfl
  | p :: ops, x, ha, hops, hne => by
    show slide (poolSeq (slide x p) ops) o = poolSeq (slide (slide x o) p) ops
    rw [slide_poolSeq_comm hs (by rw [slide_ndim]; exact ha) (by
      intro q hq hk
      rw [slide_ndim]
      exact hops q (by simp [hq]) hk) (fun q hq => hne q (by simp [hq])),
      slide_comm (hne p (by simp)) (fun hk => (hops p (by simp) hk).2) hs (fun hk => (hops p (by simp) hk).1) ha]

/-- one axis pooled twice -/
structure Spec.Twice (α : Type) where
  axis : Nat
  w₁ : List α
  s₁ : Nat
  w₂ : List α
  s₂ : Nat

namespace Spec.Twice

def first (t : Twice α) : PoolOp α := ⟨t.axis, t.w₁, t.s₁⟩
def second (t : Twice α) : PoolOp α := ⟨t.axis, t.w₂, t.s₂⟩
def both (t : Twice α) : PoolOp α := ⟨t.axis, composed t.w₁ t.s₁ t.w₂, t.s₁ * t.s₂⟩

/-- both windows fit -/
structure Fits (x : Tensor α) (t : Twice α) : Prop where
  axis : t.axis < x.ndim
  w₁ : t.w₁ ≠ []
  w₂ : t.w₂ ≠ []
  s₁ : 0 < t.s₁
  s₂ : 0 < t.s₂
  fits₁ : t.w₁.length ≤ x.shape.getD t.axis 0
  fits₂ : t.w₂.length ≤ windowCount (x.shape.getD t.axis 0) t.w₁.length t.s₁ 1

end Spec.Twice

theorem poolSeq_twice : ∀ {l : List (Twice α)} {x : Tensor α}, (l.map (·.axis)).Nodup → (∀ t ∈ l, t.Fits x) →
    poolSeq (poolSeq x (l.map Twice.first)) (l.map Twice.second) = poolSeq x (l.map Twice.both)
  | [], _, _, _ => rfl
  | t :: l, x, hnd, hf => by
    have ht := hf t (by simp)
    have hnd' := List.nodup_cons.1 (show (t.axis :: l.map (·.axis)).Nodup from hnd)
    have hne : ∀ u ∈ l, u.axis ≠ t.axis := by
      intro u hu e
      exact hnd'.1 (List.mem_map.2 ⟨u, hu, e⟩)
    have e : slide (slide x t.first) t.second = slide x t.both :=
      slide_slide ht.axis ht.s₁ ht.s₂ ht.w₁ ht.w₂ ht.fits₁ ht.fits₂
    show poolSeq (slide (poolSeq (slide x t.first) (l.map Twice.first)) t.second) (l.map Twice.second) =
      poolSeq (slide x t.both) (l.map Twice.both)
    rw [slide_poolSeq_comm (fun _ => ht.s₂) (by rw [slide_ndim]; exact fun _ => ht.axis) (by
      intro p hp _
      obtain ⟨u, hu, rfl⟩ := List.mem_map.1 hp
      rw [slide_ndim]
      exact ⟨(hf u (by simp [hu])).axis, (hf u (by simp [hu])).s₁⟩) (by
      intro p hp
      obtain ⟨u, hu, rfl⟩ := List.mem_map.1 hp
      exact hne u hu), e]
    apply poolSeq_twice hnd'.2
    intro u hu
    have hu' := hf u (by simp [hu])
    have hsz : (slide x t.both).shape.getD u.axis 0 = x.shape.getD u.axis 0 := by
      rw [slide_shape]
      split_ifs
      · rfl
      · exact getD_set_ne _ _ _ _ _ (hne u hu)
    exact ⟨by rw [slide_ndim]; exact hu'.axis, hu'.w₁, hu'.w₂, hu'.s₁, hu'.s₂, by rw [hsz]; exact hu'.fits₁, by rw [hsz]; exact hu'.fits₂⟩

end TI
