import Verif.Spec.Pool
import Verif.Proofs.TensorLemmas
import Verif.Proofs.ConvLike
import Mathlib.Algebra.BigOperators.Group.List.Basic
import Mathlib.Algebra.BigOperators.Ring.List
import Mathlib.Tactic.Ring
import Mathlib.Tactic.Linarith

/-!
# Laws of sliding windows
-/

set_option linter.unusedSectionVars false

namespace TI
open Tensor Spec

section lists
variable {β γ : Type}

theorem sum_map_comm {α : Type} [AddCommMonoid α] (l : List β) (m : List γ) (f : β → γ → α) :
    (l.map fun a => (m.map fun b => f a b).sum).sum = (m.map fun b => (l.map fun a => f a b).sum).sum := by
  induction l with
  | nil => simp
  | cons a l ih =>
    simp only [List.map_cons, List.sum_cons, ih]
    rw [← List.sum_map_add]

theorem sum_flatMap {α : Type} [AddCommMonoid α] (l : List β) (f : β → List γ) (g : γ → α) :
    ((l.flatMap f).map g).sum = (l.map fun b => ((f b).map g).sum).sum := by
  induction l with
  | nil => simp
  | cons a l ih => simp [List.flatMap_cons, ih]

theorem mul_sum_map {α : Type} [Semiring α] (l : List β) (c : α) (f : β → α) :
    c * (l.map f).sum = (l.map fun b => c * f b).sum := by
  induction l with
  | nil => simp
  | cons a l ih => simp [mul_add, ih]

theorem sum_map_mul {α : Type} [Semiring α] (l : List β) (c : α) (f : β → α) :
    (l.map f).sum * c = (l.map fun b => f b * c).sum := by
  induction l with
  | nil => simp
  | cons a l ih => simp [add_mul, ih]

end lists

variable {α : Type} [Field α]

theorem windowCount_pos {n k s : Nat} (hs : 0 < s) (hk : 0 < k) (hn : k ≤ n) :
    windowCount n k s 1 = (n - k) / s + 1 := by
  rw [windowCount_eq hs, if_pos (by omega)]
  congr 2
  omega

/-- a position inside the last window -/
theorem window_lt {n k s t j : Nat} (hs : 0 < s) (ht : t < windowCount n k s 1) (hj : j < k) : t * s + j < n := by
  rw [windowCount_eq hs] at ht
  split_ifs at ht with h
  · have := (Nat.le_div_iff_mul_le hs).1 (Nat.lt_succ_iff.1 ht)
    omega
  · omega

theorem slide_shape (x : Tensor α) (o : PoolOp α) : (slide x o).shape =
    if o.kernel = [] then x.shape
    else x.shape.set o.axis (windowCount (x.shape.getD o.axis 0) o.kernel.length o.stride 1) := by
  rw [slide]
  split_ifs <;> rfl

theorem slide_ndim (x : Tensor α) (o : PoolOp α) : (slide x o).ndim = x.ndim := by
  rw [ndim, slide_shape, ndim]
  split_ifs <;> simp

theorem slide_get {x : Tensor α} {o : PoolOp α} (hk : o.kernel ≠ []) {ix : List Nat} (h : InB (slide x o).shape ix) :
    (slide x o).get ix = ((List.range o.kernel.length).map fun j =>
      o.kernel.getD j 0 * x.get (ix.set o.axis (ix.getD o.axis 0 * o.stride + j))).sum := by
  rw [slide_shape, if_neg hk] at h
  rw [slide, if_neg hk, get_ofFn h]

/-- positions read are inside -/
theorem slide_inB {x : Tensor α} {o : PoolOp α} (hs : 0 < o.stride) (ha : o.axis < x.ndim) (hk : o.kernel ≠ []) {ix : List Nat}
    (h : InB (slide x o).shape ix) {j : Nat} (hj : j < o.kernel.length) :
    InB x.shape (ix.set o.axis (ix.getD o.axis 0 * o.stride + j)) := by
  rw [slide_shape, if_neg hk] at h
  have hlt := h.lt (k := o.axis) (by simpa [ndim] using ha)
  rw [getD_set_self _ _ _ _ (by simpa [ndim] using ha)] at hlt
  have := h.set (i := ix.getD o.axis 0 * o.stride + j) (m := x.shape.getD o.axis 0) (window_lt hs hlt hj)
  rwa [set_getD_self] at this

/-- pooling two different axes: the order does not matter -/
theorem slide_comm {x : Tensor α} {o p : PoolOp α} (hop : o.axis ≠ p.axis)
    (ho : o.kernel ≠ [] → 0 < o.stride) (hp : p.kernel ≠ [] → 0 < p.stride)
    (hao : o.kernel ≠ [] → o.axis < x.ndim) (hap : p.kernel ≠ [] → p.axis < x.ndim) :
    slide (slide x o) p = slide (slide x p) o := by
  by_cases hko : o.kernel = []
  · simp [slide, hko]
  by_cases hkp : p.kernel = []
  · simp [slide, hkp]
  have hsh : (slide (slide x o) p).shape = (slide (slide x p) o).shape := by
    simp only [slide_shape, if_neg hko, if_neg hkp]
    rw [getD_set_ne _ _ _ _ _ hop, getD_set_ne _ _ _ _ _ (Ne.symm hop), List.set_comm _ _ hop]
  apply ext_get hsh
  intro ix hix
  rw [slide_get hkp hix, slide_get hko (hsh ▸ hix)]
  have e1 : ∀ j, j < p.kernel.length → (slide x o).get (ix.set p.axis (ix.getD p.axis 0 * p.stride + j)) =
      ((List.range o.kernel.length).map fun i => o.kernel.getD i 0 *
        x.get ((ix.set p.axis (ix.getD p.axis 0 * p.stride + j)).set o.axis (ix.getD o.axis 0 * o.stride + i))).sum := by
    intro j hj
    rw [slide_get hko (slide_inB (hp hkp) (by rw [slide_ndim]; exact hap hkp) hkp hix hj)]
    simp only [getD_set_ne _ _ _ _ _ hop]
  have e2 : ∀ i, i < o.kernel.length → (slide x p).get (ix.set o.axis (ix.getD o.axis 0 * o.stride + i)) =
      ((List.range p.kernel.length).map fun j => p.kernel.getD j 0 *
        x.get ((ix.set o.axis (ix.getD o.axis 0 * o.stride + i)).set p.axis (ix.getD p.axis 0 * p.stride + j))).sum := by
    intro i hi
    rw [slide_get hkp (slide_inB (ho hko) (by rw [slide_ndim]; exact hao hko) hko (hsh ▸ hix) hi)]
    simp only [getD_set_ne _ _ _ _ _ (Ne.symm hop)]
  have l1 : ((List.range p.kernel.length).map fun j => p.kernel.getD j 0 *
      (slide x o).get (ix.set p.axis (ix.getD p.axis 0 * p.stride + j))) =
      (List.range p.kernel.length).map fun j => ((List.range o.kernel.length).map fun i => p.kernel.getD j 0 * (o.kernel.getD i 0 *
        x.get ((ix.set p.axis (ix.getD p.axis 0 * p.stride + j)).set o.axis (ix.getD o.axis 0 * o.stride + i)))).sum := by
    apply List.map_congr_left
    intro j hj
    rw [e1 j (List.mem_range.1 hj), mul_sum_map]
  have l2 : ((List.range o.kernel.length).map fun i => o.kernel.getD i 0 *
      (slide x p).get (ix.set o.axis (ix.getD o.axis 0 * o.stride + i))) =
      (List.range o.kernel.length).map fun i => ((List.range p.kernel.length).map fun j => p.kernel.getD j 0 * (o.kernel.getD i 0 *
        x.get ((ix.set p.axis (ix.getD p.axis 0 * p.stride + j)).set o.axis (ix.getD o.axis 0 * o.stride + i)))).sum := by
    apply List.map_congr_left
    intro i hi
    rw [e2 i (List.mem_range.1 hi), mul_sum_map]
    congr 1
    apply List.map_congr_left
    intro j _
    rw [List.set_comm _ _ hop]
    ring
  rw [l1, l2, sum_map_comm]

/-- the conditions under which every axis can be pooled, for distinct axes -/
structure Spec.PoolOps (x : Tensor α) (ops : List (PoolOp α)) : Prop where
  nodup : (ops.map (·.axis)).Nodup
  axis : ∀ o ∈ ops, o.kernel ≠ [] → o.axis < x.ndim
  stride : ∀ o ∈ ops, o.kernel ≠ [] → 0 < o.stride
  fits : ∀ o ∈ ops, o.kernel ≠ [] → o.kernel.length ≤ x.shape.getD o.axis 0

theorem Spec.PoolOps.tail {x : Tensor α} {o : PoolOp α} {ops : List (PoolOp α)} (h : PoolOps x (o :: ops)) :
    PoolOps (slide x o) ops where
  nodup := (List.nodup_cons.1 h.nodup).2
  axis := fun p hp hk => by rw [slide_ndim]; exact h.axis p (by simp [hp]) hk
  stride := fun p hp hk => h.stride p (by simp [hp]) hk
  fits := fun p hp hk => by
    have hne : p.axis ≠ o.axis := by
      have := (List.nodup_cons.1 h.nodup).1
      intro e
      exact this (List.mem_map.2 ⟨p, hp, e⟩)
    rw [slide_shape]
    split_ifs
    · exact h.fits p (by simp [hp]) hk
    · rw [getD_set_ne _ _ _ _ _ hne]
      exact h.fits p (by simp [hp]) hk

theorem Spec.PoolOps.fitting : ∀ {ops : List (PoolOp α)} {x : Tensor α}, PoolOps x ops → Fitting x ops
  | [], _, _ => trivial
  | o :: _, _, h => ⟨fun hk => ⟨h.axis o (by simp) hk, h.stride o (by simp) hk, h.fits o (by simp) hk⟩, h.tail.fitting⟩

theorem Spec.PoolOps.perm {x : Tensor α} {ops ops' : List (PoolOp α)} (h : PoolOps x ops) (hp : ops.Perm ops') :
    PoolOps x ops' where
  nodup := (hp.map _).nodup_iff.1 h.nodup
  axis := fun o ho => h.axis o (hp.mem_iff.2 ho)
  stride := fun o ho => h.stride o (hp.mem_iff.2 ho)
  fits := fun o ho => h.fits o (hp.mem_iff.2 ho)

theorem poolSeq_perm {ops ops' : List (PoolOp α)} (hp : ops.Perm ops') : ∀ {x : Tensor α}, PoolOps x ops →
    poolSeq x ops = poolSeq x ops' := by
  induction hp with
  | nil => intros; rfl
  | cons o _ ih => intro x h; exact ih h.tail
  | swap o p ops =>
    intro x h
    have hne : p.axis ≠ o.axis := by
      have := h.nodup
      simp only [List.map_cons, List.nodup_cons, List.mem_cons, not_or] at this
      exact this.1.1
    change poolSeq (slide (slide x p) o) ops = poolSeq (slide (slide x o) p) ops
    rw [slide_comm hne (h.stride p (by simp)) (h.stride o (by simp)) (h.axis p (by simp)) (h.axis o (by simp))]
  | trans h1 h2 ih1 ih2 => intro x h; rw [ih1 h, ih2 (h.perm h1)]

theorem poolSeq_ndim : ∀ (ops : List (PoolOp α)) (x : Tensor α), (poolSeq x ops).ndim = x.ndim
  | [], _ => rfl
  | o :: ops, x => by
    change (poolSeq (slide x o) ops).ndim = _
    rw [poolSeq_ndim ops, slide_ndim]

/-- sizes: pooled axes have one entry per window, all others are unchanged -/
theorem poolSeq_shape {ops : List (PoolOp α)} : ∀ {x : Tensor α}, PoolOps x ops → ∀ k, (poolSeq x ops).shape.getD k 0 =
    match ops.find? (fun o => o.axis = k ∧ o.kernel ≠ []) with
    | some o => windowCount (x.shape.getD k 0) o.kernel.length o.stride 1
    | none => x.shape.getD k 0 := by
  induction ops with
  | nil => intro x _ k; simp [poolSeq]
  | cons o ops ih =>
    intro x h k
    change (poolSeq (slide x o) ops).shape.getD k 0 = _
    rw [ih h.tail k, slide_shape]
    by_cases hk : o.kernel = []
    · simp [hk]
    · by_cases hok : o.axis = k
      · subst hok
        have hnone : ops.find? (fun p => p.axis = o.axis ∧ p.kernel ≠ []) = none := by
          rw [List.find?_eq_none]
          intro p hp
          have := (List.nodup_cons.1 h.nodup).1
          simp only [decide_eq_true_eq, not_and]
          intro e
          exact absurd (List.mem_map.2 ⟨p, hp, e⟩) this
        rw [hnone]
        simp only [if_neg hk]
        rw [getD_set_self _ _ _ _ (h.axis o (by simp) hk)]
        simp [hk]
      · simp only [if_neg hk, getD_set_ne _ _ _ _ _ (Ne.symm hok)]
        simp [hok]

/-! ## n-dimensional correlation -/

theorem corrSource_nil_left (ix j : List Nat) : corrSource ([] : List (PoolOp α)) ix j = ix := by simp [corrSource]

theorem setAll_length (ops : List (PoolOp α × Nat)) (f : PoolOp α × Nat → Nat) (ix : List Nat) :
    (ops.foldl (fun jx p => jx.set p.1.axis (f p)) ix).length = ix.length := by
  induction ops generalizing ix with
  | nil => rfl
  | cons p ops ih => simp [ih]

theorem setAll_set (ops : List (PoolOp α × Nat)) (f : PoolOp α × Nat → Nat) (ix : List Nat) {a v : Nat} (h : ∀ p ∈ ops, p.1.axis ≠ a) :
    (ops.foldl (fun jx p => jx.set p.1.axis (f p)) ix).set a v = ops.foldl (fun jx p => jx.set p.1.axis (f p)) (ix.set a v) := by
  induction ops generalizing ix with
  | nil => rfl
  | cons p ops ih =>
    rw [List.foldl_cons, List.foldl_cons, ih _ (fun q hq => h q (by simp [hq])), List.set_comm _ _ (h p (by simp))]

theorem setAll_getD (ops : List (PoolOp α × Nat)) (f : PoolOp α × Nat → Nat) (ix : List Nat) {a : Nat} (h : ∀ p ∈ ops, p.1.axis ≠ a) :
    (ops.foldl (fun jx p => jx.set p.1.axis (f p)) ix).getD a 0 = ix.getD a 0 := by
  induction ops generalizing ix with
  | nil => rfl
  | cons p ops ih =>
    rw [List.foldl_cons, ih _ (fun q hq => h q (by simp [hq])), getD_set_ne _ _ _ _ _ (Ne.symm (h p (by simp)))]

theorem zip_axis_ne {o : PoolOp α} {ops : List (PoolOp α)} (h : ((o :: ops).map (·.axis)).Nodup) (j : List Nat) :
    ∀ p ∈ ops.zip j, p.1.axis ≠ o.axis := by
  intro p hp e
  have := (List.nodup_cons.1 h).1
  have hm : p.1 ∈ ops := (List.of_mem_zip (show (p.1, p.2) ∈ ops.zip j from hp)).1
  exact this (List.mem_map.2 ⟨p.1, hm, e⟩)

theorem corrSource_congr {ops : List (PoolOp α)} {ix ix' j : List Nat} (h : ∀ o ∈ ops, ix.getD o.axis 0 = ix'.getD o.axis 0) (z : List Nat) :
    (ops.zip j).foldl (fun jx p => jx.set p.1.axis (ix.getD p.1.axis 0 * p.1.stride + p.2)) z =
      (ops.zip j).foldl (fun jx p => jx.set p.1.axis (ix'.getD p.1.axis 0 * p.1.stride + p.2)) z := by
  apply List.foldl_ext
  intro a p hp
  have hm : p.1 ∈ ops := (List.of_mem_zip (show (p.1, p.2) ∈ ops.zip j from hp)).1
  rw [h _ hm]

/-- reading through one more axis -/
theorem corrSource_cons {o : PoolOp α} {ops : List (PoolOp α)} (h : ((o :: ops).map (·.axis)).Nodup) (ix j : List Nat) (i : Nat) :
    (corrSource ops ix j).set o.axis ((corrSource ops ix j).getD o.axis 0 * o.stride + i) = corrSource (o :: ops) ix (i :: j) := by
  rw [corrSource, setAll_getD _ _ _ (zip_axis_ne h j), setAll_set _ _ _ (zip_axis_ne h j), corrSource, List.zip_cons_cons, List.foldl_cons]

theorem setAll_ops {ops : List (PoolOp α)} {f : PoolOp α → Nat} {s : List Nat} {a v : Nat} (h : ∀ p ∈ ops, p.axis ≠ a) :
    (ops.foldl (fun t p => t.set p.axis (f p)) s).set a v = ops.foldl (fun t p => t.set p.axis (f p)) (s.set a v) := by
  induction ops generalizing s with
  | nil => rfl
  | cons p ops ih =>
    rw [List.foldl_cons, List.foldl_cons, ih (fun q hq => h q (by simp [hq])), List.set_comm _ _ (h p (by simp))]

theorem corrNd_shape_cons {x : Tensor α} {o : PoolOp α} {ops : List (PoolOp α)} (h : ((o :: ops).map (·.axis)).Nodup) (hk : o.kernel ≠ []) :
    (corrNd x (o :: ops)).shape = (corrNd (slide x o) ops).shape := by
  have hne : ∀ p ∈ ops, p.axis ≠ o.axis := by
    intro p hp e
    exact (List.nodup_cons.1 h).1 (List.mem_map.2 ⟨p, hp, e⟩)
  change List.foldl _ _ _ = List.foldl _ _ _
  rw [List.foldl_cons, slide_shape, if_neg hk]
  apply List.foldl_ext
  intro s p hp
  rw [getD_set_ne _ _ _ _ _ (hne p hp)]

/-- positions read by the correlation are inside -/
theorem corrSource_inB : ∀ {ops : List (PoolOp α)} {x : Tensor α}, PoolOps x ops → (∀ o ∈ ops, o.kernel ≠ []) →
    ∀ {ix j : List Nat}, InB (corrNd x ops).shape ix → InB (ops.map fun o => o.kernel.length) j → InB x.shape (corrSource ops ix j)
  | [], x, _, _, ix, [], hix, _ => hix
  | o :: ops, x, h, hne, ix, i :: j, hix, hj => by
    have hk := hne o (by simp)
    rw [corrNd_shape_cons h.nodup hk] at hix
    rw [← corrSource_cons h.nodup]
    exact slide_inB (h.stride o (by simp) hk) (h.axis o (by simp) hk) hk
      (corrSource_inB h.tail (fun p hp => hne p (by simp [hp])) hix hj.2) hj.1

/-- pooling one axis after the other is correlation with the outer product of the kernels -/
theorem poolSeq_eq_corrNd : ∀ {ops : List (PoolOp α)} {x : Tensor α}, PoolOps x ops → (∀ o ∈ ops, o.kernel ≠ []) →
    poolSeq x ops = corrNd x ops
  | [], x, _, _ => by
    change x = ofFn x.shape _
    conv_lhs => rw [eq_ofFn_get x]
    apply ofFn_congr
    intro ix _
    simp [indices, corrWeight, corrSource]
  | o :: ops, x, h, hne => by
    have hk := hne o (by simp)
    have hne' : ∀ p ∈ ops, p.kernel ≠ [] := fun p hp => hne p (by simp [hp])
    change poolSeq (slide x o) ops = _
    rw [poolSeq_eq_corrNd h.tail hne']
    apply ext_get (corrNd_shape_cons h.nodup hk).symm
    intro ix hix
    have hix' : InB (corrNd x (o :: ops)).shape ix := by rw [corrNd_shape_cons h.nodup hk]; exact hix
    have e1 : (corrNd (slide x o) ops).get ix = _ := get_ofFn hix
    have e2 : (corrNd x (o :: ops)).get ix = _ := get_ofFn hix'
    rw [e1, e2, List.map_cons, indices, sum_flatMap]
    have l1 : ((indices (ops.map fun o => o.kernel.length)).map fun j => corrWeight ops j * (slide x o).get (corrSource ops ix j)) =
        (indices (ops.map fun o => o.kernel.length)).map fun j => ((List.range o.kernel.length).map fun i =>
          corrWeight (o :: ops) (i :: j) * x.get (corrSource (o :: ops) ix (i :: j))).sum := by
      apply List.map_congr_left
      intro j hj
      rw [slide_get hk (corrSource_inB h.tail hne' hix (mem_indices.1 hj)), mul_sum_map]
      congr 1
      apply List.map_congr_left
      intro i _
      rw [corrSource_cons h.nodup, corrWeight, corrWeight, List.zipWith_cons_cons, List.prod_cons]
      ring
    rw [l1, sum_map_comm]
    congr 1
    apply List.map_congr_left
    intro i _
    rw [List.map_map]
    rfl

end TI
