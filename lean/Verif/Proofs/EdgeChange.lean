import Verif.Spec.EdgeChange
import Verif.Proofs.EdgeSym
import Verif.Proofs.Order
import Verif.Proofs.Shift
import Verif.Proofs.Reduce

/-!
# Edges of changed images
-/

set_option linter.unusedSectionVars false

namespace TI
open Tensor Spec

variable {α : Type} [Field α] [LinearOrder α] [IsStrictOrderedRing α] {x y : Tensor α} {a b δ : α} {g : Given (List α)} {gp : PadArgs α}
  {ax : Axes} {axes : List Nat}

/-! ## linearity -/

theorem setting_linear {q : PoolArgs α} {shape : List Nat} {i : Nat} (h : (gp.entry i).Linear) : (sameSetting q gp shape axes i).Linear := by
  have e : (sameSetting q gp shape axes i).mode = (gp.entry i).mode ∧ (sameSetting q gp shape axes i).cv = (gp.entry i).cv ∧
    (sameSetting q gp shape axes i).ev = (gp.entry i).ev := ⟨rfl, rfl, rfl⟩
  rw [AxisPad.Linear] at h ⊢
  rw [e.1, e.2.1, e.2.2]
  exact h

theorem filtered_lincomb (hc : SameCall (PoolArgs.filter g) gp x ax axes) (hl : ∀ i < axes.length, (gp.entry i).Linear) (hs : y.shape = x.shape) :
    filtered g gp (lincomb a x b y) axes = lincomb a (filtered g gp x axes) b (filtered g gp y axes) := by
  have hnd : ((sameOps (PoolArgs.filter g) gp x.shape axes).map Prod.fst).Nodup := by rw [sameOps_fst]; exact hc.nodup
  rw [filtered, filtered, filtered, show (lincomb a x b y).shape = x.shape from rfl, hs, padSeq_lincomb hs.symm hnd hc.lt,
    poolSeq_lincomb _ hc.poolOps]
  · exact padSeq_shape_congr hc.opsOK hnd hc.lt hs.symm
  · intro o ho
    obtain ⟨i, hi, rfl⟩ := sameOps_mem ho
    exact hc.pos _ (getD_mem_lt hi)
  · intro o ho
    obtain ⟨i, hi, rfl⟩ := sameOps_mem ho
    exact setting_linear (hl i hi)

/-! ## distance, for weights of any sign -/

theorem absSum_nonneg (w : List α) : 0 ≤ absSum w := by
  rw [absSum]
  split_ifs
  · exact zero_le_one
  · exact List.sum_nonneg (by simp only [List.mem_map]; rintro _ ⟨v, _, rfl⟩; exact abs_nonneg v)

theorem abs_weighted_le (w : List α) (u : Nat → α) (hu : ∀ j < w.length, |u j| ≤ δ) :
    |((List.range w.length).map fun j => w.getD j 0 * u j).sum| ≤ δ * (w.map fun v => |v|).sum := by
  induction w generalizing u with
  | nil => simp
  | cons v w ih =>
    rw [List.length_cons, List.range_succ_eq_map, List.map_cons, List.sum_cons, List.map_map, List.map_cons, List.sum_cons, mul_add]
    refine (abs_add_le _ _).trans (add_le_add ?_ ?_)
    · rw [abs_mul, mul_comm]
      exact mul_le_mul_of_nonneg_right (hu 0 (by simp)) (abs_nonneg _)
    · have := ih (fun j => u (j + 1)) fun j hj => hu (j + 1) (by simpa using hj)
      simpa [Function.comp_def] using this

theorem slide_close {o : PoolOp α} (ho : o.kernel ≠ [] → o.axis < x.ndim ∧ 0 < o.stride) (h : Close δ x y) :
    Close (δ * absSum o.kernel) (slide x o) (slide y o) := by
  by_cases hk : o.kernel = []
  · simpa [slide, hk, absSum] using h
  have hsh : (slide y o).shape = (slide x o).shape := by simp only [slide_shape, h.1]
  refine ⟨hsh, fun ix hix => ?_⟩
  rw [slide_get hk hix, slide_get hk (by rw [hsh]; exact hix), absSum, if_neg hk]
  have e : ∀ u v : Nat → α, ((List.range o.kernel.length).map fun j => o.kernel.getD j 0 * u j).sum -
      ((List.range o.kernel.length).map fun j => o.kernel.getD j 0 * v j).sum =
      ((List.range o.kernel.length).map fun j => o.kernel.getD j 0 * (u j - v j)).sum := by
    intro u v
    rw [sub_eq_iff_eq_add, ← List.sum_map_add]
    congr 1
    apply List.map_congr_left
    intro j _
    ring
  rw [e]
  exact abs_weighted_le _ _ fun j hj => h.2 _ (slide_inB (ho hk).2 (ho hk).1 hk hix hj)

theorem poolSeq_close_signed : ∀ {ops : List (PoolOp α)} {x y : Tensor α} {δ : α}, Fitting x ops → Close δ x y →
    Close (δ * absWeight ops) (poolSeq x ops) (poolSeq y ops)
  | [], _, _, _, _, h => by simpa [absWeight, poolSeq] using h
  | o :: ops, x, y, δ, hf, h => by
    have hf' : _ ∧ _ := hf
    have := poolSeq_close_signed (ops := ops) hf'.2 (slide_close (fun hk => ⟨(hf'.1 hk).1, (hf'.1 hk).2.1⟩) h)
    rw [mul_assoc] at this
    simpa [absWeight, poolSeq] using this

theorem setting_rises {q : PoolArgs α} {shape : List Nat} {i : Nat} (h : (gp.entry i).Rises (gp.entry i)) :
    (sameSetting q gp shape axes i).Rises (sameSetting q gp shape axes i) := by
  refine ⟨rfl, rfl, ?_⟩
  have := h.fill
  have e : (sameSetting q gp shape axes i).mode = (gp.entry i).mode ∧ (sameSetting q gp shape axes i).cv = (gp.entry i).cv ∧
    (sameSetting q gp shape axes i).ev = (gp.entry i).ev := ⟨rfl, rfl, rfl⟩
  rw [e.1, e.2.1, e.2.2]
  exact this

theorem same_close {q : PoolArgs α} (hc : SameCall q gp x ax axes) (hr : ∀ i < axes.length, (gp.entry i).Rises (gp.entry i)) (hδ : 0 ≤ δ)
    (h : Close δ x y) : Close (δ * absWeight (q.ops axes)) (poolSeq (padSeq x (sameOps q gp x.shape axes)) (q.ops axes))
      (poolSeq (padSeq y (sameOps q gp y.shape axes)) (q.ops axes)) := by
  refine poolSeq_close_signed hc.poolOps.fitting ?_
  rw [h.1]
  apply padSeq_close hδ (by rw [sameOps_fst]; exact hc.nodup) _ _ _ h
  · exact hc.lt
  · intro o ho _
    obtain ⟨i, hi, rfl⟩ := sameOps_mem ho
    exact setting_rises (hr i hi)
  · intro o ho hz
    have hv := (hc.valued o ho hz).1
    obtain ⟨i, hi, rfl⟩ := sameOps_mem ho
    exact ⟨hv, hc.pos _ (getD_mem_lt hi)⟩

/-! ## a mean is the mean of the means of its parts -/

theorem sum_parts {β κ : Type} [DecidableEq κ] (key : β → κ) (u : β → α) {J : List κ} (hJ : J.Nodup) : ∀ {L : List β}, (∀ x ∈ L, key x ∈ J) →
    (J.map fun j => ((L.filter fun x => key x = j).map u).sum).sum = (L.map u).sum
  | [], _ => by simp
  | x :: L, h => by
    have ih := sum_parts key u hJ (L := L) fun z hz => h z (by simp [hz])
    rw [List.map_cons, List.sum_cons, ← ih]
    have e : ∀ j, (((x :: L).filter fun z => key z = j).map u).sum = (if j = key x then u x else 0) + ((L.filter fun z => key z = j).map u).sum := by
      intro j
      by_cases hj : key x = j
      · simp [hj]
      · rw [if_neg fun e : j = key x => hj e.symm, zero_add]
        simp [hj]
    simp only [e]
    rw [List.sum_map_add]
    congr 1
    have hx := h x (by simp)
    clear e ih h
    induction J with
    | nil => simp at hx
    | cons j J ihJ =>
      rw [List.map_cons, List.sum_cons]
      rw [List.nodup_cons] at hJ
      by_cases hj : j = key x
      · subst hj
        have : (J.map fun i => if i = key x then u x else 0).sum = 0 := by
          apply List.sum_eq_zero
          intro b hb
          obtain ⟨i, hi, rfl⟩ := List.mem_map.1 hb
          exact if_neg fun e : i = key x => hJ.1 (e ▸ hi)
        rw [this, if_pos rfl, add_zero]
      · rw [if_neg hj, zero_add]
        exact ihJ hJ.2 ((List.mem_cons.1 hx).resolve_left fun e => hj e.symm)

theorem mean_of_means (S ds : List Nat) (u : List Nat → α) :
    Spec.mean ((indices (onKept ds S)).map fun jx => Spec.mean ((collected S ds jx).map u)) = Spec.mean ((indices S).map u) := by
  have hl : ∀ jx ∈ indices (onKept ds S), (collected S ds jx).length = (((List.range S.length).filter fun k => k ∈ ds).map fun k => S.getD k 0).prod :=
    fun jx hjx => collected_length (mem_indices.1 hjx)
  set P := (((List.range S.length).filter fun k => k ∈ ds).map fun k => S.getD k 0).prod with hP
  have hsum := sum_parts (onKept ds) u (indices_nodup (onKept ds S)) (L := indices S) fun ix hix => mem_indices.2 (onKept_inB (mem_indices.1 hix))
  have hcnt := sum_parts (α := α) (onKept ds) (fun _ => 1) (indices_nodup (onKept ds S)) (L := indices S)
    fun ix hix => mem_indices.2 (onKept_inB (mem_indices.1 hix))
  have e1 : ((indices (onKept ds S)).map fun jx => Spec.mean ((collected S ds jx).map u)) =
      (indices (onKept ds S)).map fun jx => ((P : α))⁻¹ * ((collected S ds jx).map u).sum := by
    apply List.map_congr_left
    intro jx hjx
    rw [Spec.mean, List.length_map, hl jx hjx, div_eq_inv_mul]
  have e2 : ((indices S).length : α) = (indices (onKept ds S)).length * P := by
    have : ((indices (onKept ds S)).map fun jx => (((indices S).filter fun ix => onKept ds ix = jx).map fun _ => (1 : α)).sum) =
        (indices (onKept ds S)).map fun _ => (P : α) := by
      apply List.map_congr_left
      intro jx hjx
      have := hl jx hjx
      rw [collected] at this
      simp [this]
    rw [this] at hcnt
    simpa using hcnt.symm
  rw [e1, Spec.mean, Spec.mean, List.sum_map_mul_left, List.length_map, List.length_map, e2]
  simp only [collected]
  rw [hsum, mul_comm ((indices (onKept ds S)).length : α), ← div_div, div_eq_inv_mul ((indices S).map u).sum]

/-! ## components -/

section
variable [FloorRing α] {w : List α} {k : Nat}

theorem entry_uniform (hu : gp.Uniform) (i : Nat) : gp.entry i = { gp.entry 0 with before := (gp.entry i).before, after := (gp.entry i).after } := by
  simp only [PadArgs.entry, uniform_entry hu i, uniform_one hu.2.1 _ i, uniform_one hu.2.2.1 _ i, uniform_one hu.2.2.2 _ i]

theorem edgeResponse_lincomb (h : EdgeSetup g gp x ax axes) (hl : (gp.entry 0).Linear) (hs : y.shape = x.shape) (hk : k ∈ axes) :
    edgeResponse w g gp (lincomb a x b y) axes k = lincomb a (edgeResponse w g gp x axes k) b (edgeResponse w g gp y axes k) := by
  have hc := h.edgeCall w hk
  have hl' : ∀ i, (gp.entry i).Linear := by
    intro i
    rw [entry_uniform h.uniform i]
    exact hl
  rw [edgeResponse, filtered_lincomb hc.edge (fun i _ => hl' i) hs, filtered_lincomb hc.smooth (fun i _ => hl' i)]
  · rfl
  · rw [h.edge_shape w hk, (h.congr hs).edge_shape w hk, hs]

theorem edgeResponse_close (h : EdgeSetup g gp x ax axes) (hr : (gp.entry 0).Rises (gp.entry 0)) (hδ : 0 ≤ δ) (hxy : Close δ x y) (hk : k ∈ axes) :
    Close (δ * edgeGain w g axes.length) (edgeResponse w g gp x axes k) (edgeResponse w g gp y axes k) := by
  have hc := h.edgeCall w hk
  have hr' : ∀ i, (gp.entry i).Rises (gp.entry i) := by
    intro i
    rw [entry_uniform h.uniform i]
    exact ⟨rfl, rfl, hr.fill⟩
  have h1 := same_close hc.edge (fun i _ => hr' i) hδ hxy
  have e1 : absWeight ((PoolArgs.filter (.one w)).ops [k]) = absSum w := by
    simp [absWeight, PoolArgs.ops, PoolArgs.op, PoolArgs.filter, Given.entry, List.range_succ]
  rw [e1] at h1
  have h2 := same_close hc.smooth (fun i _ => hr' i) (mul_nonneg hδ (absSum_nonneg w)) h1
  have e2 : absWeight ((PoolArgs.filter g).ops (axes.filter fun b => b ≠ k)) = ((List.range (axes.length - 1)).map fun i => absSum (g.entry [] i)).prod := by
    simp only [absWeight, PoolArgs.ops, List.map_map, filter_ne_length h.nodup hk]
    rfl
  rw [e2, mul_assoc] at h2
  exact h2

end

end TI
