import Verif.Proofs.Axiswise
import Verif.Proofs.EdgeChange

/-!
# Blends of images
-/

set_option linter.unusedSectionVars false

namespace TI
open Tensor Spec

variable {α : Type} [Field α] [LinearOrder α] [IsStrictOrderedRing α] {x y : Tensor α} {a b : α} {g : Given (List α)} {gp : PadArgs α}
  {ax : Axes} {axes : List Nat}

theorem padStep_blend (hab : a + b = 1) (hs : x.shape = y.shape) {o : Nat × AxisPad α} (ha : o.1 < x.ndim)
    (hl : ¬ (o.2.before = 0 ∧ o.2.after = 0) → o.2.Affine ∧ 0 < x.shape.getD o.1 0) :
    padStep (lincomb a x b y) o = lincomb a (padStep x o) b (padStep y o) := by
  by_cases hz : o.2.before = 0 ∧ o.2.after = 0
  · simp [padStep, hz]
  obtain ⟨hl, hn⟩ := hl hz
  obtain ⟨E, E₀, c, hE, hloc, hlin, hform⟩ := affine_parts hl hn
  rw [padStep_eq (x := lincomb a x b y) ha hE, padStep_eq ha hE, padStep_eq (x := y) (by simpa [ndim, hs] using ha) hE]
  have e : (lincomb a x b y).shape = x.shape := rfl
  simp only [extendAxis, e, ← hs]
  rw [lincomb]
  apply ofFn_congr
  intro ix hix
  rw [get_ofFn hix, get_ofFn hix]
  set z : Int := (ix.getD o.1 0 : Int) - o.2.before
  have h1 : E (x.shape.getD o.1 0) (fun j => (ofFn x.shape fun ix => a * x.get ix + b * y.get ix).get (ix.set o.1 j)) z = E (x.shape.getD o.1 0) (fun j => a * x.get (ix.set o.1 j) + b * y.get (ix.set o.1 j)) z := by
    apply hloc
    intro j hj
    have hin : InB x.shape (ix.set o.1 j) := by
      have := hix.set (i := j) (m := x.shape.getD o.1 0) hj
      rwa [set_getD_self] at this
    exact get_ofFn hin
  rw [h1, hform, hform, hform, hlin]
  linear_combination (-c z) * hab

theorem padSeq_blend (hab : a + b = 1) : ∀ {ops : List (Nat × AxisPad α)} {x y : Tensor α}, x.shape = y.shape → (ops.map Prod.fst).Nodup →
    (∀ o ∈ ops, o.1 < x.ndim) → (∀ o ∈ ops, ¬ (o.2.before = 0 ∧ o.2.after = 0) → o.2.Affine ∧ 0 < x.shape.getD o.1 0) →
    padSeq (lincomb a x b y) ops = lincomb a (padSeq x ops) b (padSeq y ops)
  | [], _, _, _, _, _, _ => rfl
  | o :: ops, x, y, hs, hnd, ha, hl => by
    rw [padSeq_cons, padSeq_cons, padSeq_cons, padStep_blend hab hs (ha o (by simp)) (hl o (by simp))]
    have hsx := padStep_shape (x := x) (o := o) (fun h => (hl o (by simp) h).1.rule)
    have hsy := padStep_shape (x := y) (o := o) (fun h => (hl o (by simp) h).1.rule)
    rw [List.map_cons, List.nodup_cons] at hnd
    have hne : ∀ q ∈ ops, q.1 ≠ o.1 := fun q hq e => hnd.1 (List.mem_map.2 ⟨q, hq, e⟩)
    apply padSeq_blend hab (by rw [hsx, hsy, hs]) hnd.2
    · intro q hq
      simpa [ndim, hsx] using ha q (by simp [hq])
    · intro q hq hz
      rw [hsx, getD_set_ne _ _ _ _ _ (hne q hq)]
      exact hl q (by simp [hq]) hz

theorem setting_affine {q : PoolArgs α} {shape : List Nat} {i : Nat} (h : (gp.entry i).Affine) : (sameSetting q gp shape axes i).Affine := by
  have e : (sameSetting q gp shape axes i).mode = (gp.entry i).mode := rfl
  rw [AxisPad.Affine] at h ⊢
  rw [e]
  exact h

/-- same padding and pooling -/
theorem same_blend {q : PoolArgs α} (hab : a + b = 1) (hc : SameCall q gp x ax axes) (hl : ∀ i < axes.length, (gp.entry i).Affine) (hs : y.shape = x.shape) :
    poolSeq (padSeq (lincomb a x b y) (sameOps q gp x.shape axes)) (q.ops axes) =
      lincomb a (poolSeq (padSeq x (sameOps q gp x.shape axes)) (q.ops axes)) b (poolSeq (padSeq y (sameOps q gp x.shape axes)) (q.ops axes)) := by
  have hnd : ((sameOps q gp x.shape axes).map Prod.fst).Nodup := by rw [sameOps_fst]; exact hc.nodup
  rw [padSeq_blend hab hs.symm hnd hc.lt, poolSeq_lincomb _ hc.poolOps]
  · exact padSeq_shape_congr hc.opsOK hnd hc.lt hs.symm
  · intro o ho _
    obtain ⟨i, hi, rfl⟩ := sameOps_mem ho
    exact ⟨setting_affine (hl i hi), hc.pos _ (getD_mem_lt hi)⟩

theorem filtered_blend (hab : a + b = 1) (hc : SameCall (PoolArgs.filter g) gp x ax axes) (hl : ∀ i < axes.length, (gp.entry i).Affine) (hs : y.shape = x.shape) :
    filtered g gp (lincomb a x b y) axes = lincomb a (filtered g gp x axes) b (filtered g gp y axes) := by
  rw [filtered, filtered, filtered, show (lincomb a x b y).shape = x.shape from rfl, hs]
  exact same_blend hab hc hl hs

section
variable [FloorRing α] {w : List α} {k : Nat}

theorem edgeResponse_blend (hab : a + b = 1) (h : EdgeSetup g gp x ax axes) (hl : (gp.entry 0).Affine) (hs : y.shape = x.shape) (hk : k ∈ axes) :
    edgeResponse w g gp (lincomb a x b y) axes k = lincomb a (edgeResponse w g gp x axes k) b (edgeResponse w g gp y axes k) := by
  have hc := h.edgeCall w hk
  have hl' : ∀ i, (gp.entry i).Affine := by
    intro i
    rw [entry_uniform h.uniform i]
    exact hl
  rw [edgeResponse, filtered_blend hab hc.edge (fun i _ => hl' i) hs, filtered_blend hab hc.smooth (fun i _ => hl' i)]
  · rfl
  · rw [h.edge_shape w hk, (h.congr hs).edge_shape w hk, hs]

end

end TI
