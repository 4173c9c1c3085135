import Verif.Props.EdgeGaussWeights
import Verif.Props.GaussLimit

/-!
# Wide and narrow Gaussian gradient filters (C165)
-/

set_option linter.unusedSectionVars false

namespace TI
open Tensor Spec Filter Topology Polynomial

variable {E : Type} {F : Filter E}

theorem bell_wide {σ : E → ℝ} (hσ : Tendsto (fun e => |σ e|) F atTop) (t : ℝ) : Tendsto (fun e => bell (σ e) t) F (𝓝 1) := by
  have h2 : Tendsto (fun e => 2 * σ e ^ 2) F atTop := by
    have := (tendsto_pow_atTop (α := ℝ) two_ne_zero).comp hσ
    refine (this.const_mul_atTop two_pos).congr fun e => ?_
    simp
  have := (h2.const_div_atTop (-(t ^ 2))).rexp
  rwa [Real.exp_zero] at this

theorem iterate_bellPoly_wide {σ : E → ℝ} (hσ : Tendsto (fun e => |σ e|) F atTop) (t : ℝ) :
    ∀ m k : Nat, Tendsto (fun e => (derivative^[k] (bellPoly (σ e) m)).eval t) F (𝓝 ((derivative^[k] (if m = 0 then 1 else 0 : ℝ[X])).eval t))
  | 0, k => tendsto_const_nhds
  | m + 1, k => by
    have ih := iterate_bellPoly_wide hσ t m
    have e : ∀ e, (derivative^[k] (bellPoly (σ e) (m + 1))).eval t = (derivative^[k + 1] (bellPoly (σ e) m)).eval t -
        1 / σ e ^ 2 * (t * (derivative^[k] (bellPoly (σ e) m)).eval t + (k : ℝ) * (derivative^[k - 1] (bellPoly (σ e) m)).eval t) := by
      intro e
      rw [bellPoly, iterate_derivative_sub, ← Function.iterate_succ_apply, iterate_derivative_C_mul, mul_comm X, iterate_derivative_mul_X]
      simp [nsmul_eq_mul, mul_comm t]
    have hv : Tendsto (fun e => 1 / σ e ^ 2) F (𝓝 0) := by
      have := (tendsto_pow_atTop (α := ℝ) two_ne_zero).comp hσ
      refine (this.const_div_atTop 1).congr fun e => ?_
      simp
    have hk1 : (derivative^[k + 1] (if m = 0 then 1 else 0 : ℝ[X])).eval t = 0 := by
      rw [Function.iterate_succ_apply]
      split_ifs <;> simp
    have h1 := ih (k + 1)
    rw [hk1] at h1
    have := h1.sub (hv.mul (((ih k).const_mul t).add ((ih (k - 1)).const_mul (k : ℝ))))
    simp only [e]
    simpa using this

/-- derivatives of wide Gaussians vanish -/
theorem gaussWeights_wide_order {σ : E → ℝ} (hσ : Tendsto (fun e => |σ e|) F atTop) {order : Nat} (ho : order ≠ 0) {k j : Nat} (hj : j < k) :
    Tendsto (fun e => (gaussWeights k (σ e) order).getD j 0) F (𝓝 0) := by
  have e : ∀ e, (gaussWeights k (σ e) order).getD j 0 = (derivative^[0] (bellPoly (σ e) order)).eval (samplePoint k j) * bell (σ e) (samplePoint k j) /
      ((List.range (2 * (k / 2) + 1)).map fun i : Nat => bell (σ e) (samplePoint k i)).sum := by
    intro e
    have := bellDeriv_eq order (σ e) (samplePoint k j)
    rw [bellDeriv] at this
    rw [Function.iterate_zero, id, ← this, gaussWeights, if_neg ho]
    simp [hj]
  simp only [e]
  have hs := tendsto_list_sum (F := F) (List.range (2 * (k / 2) + 1)) (f := fun i e => bell (σ e) (samplePoint k i)) (a := fun _ => 1) fun i _ => bell_wide hσ _
  have h1 := ((iterate_bellPoly_wide hσ (samplePoint k j) order 0).mul (bell_wide hσ (samplePoint k j))).div hs (by simp; positivity)
  simpa [ho, Pi.div_def] using h1

/-- neither is the replacement of kernels of any concern then -/
theorem usedKernel_wide {σ : E → ℝ} (hσ : Tendsto (fun e => |σ e|) F atTop) {order : Nat} (ho : order ≠ 0) {k j : Nat} (hj : j < k) :
    Tendsto (fun e => (usedKernel (gaussWeights k (σ e) order)).getD j 0) F (𝓝 0) := by
  refine (gaussWeights_wide_order hσ ho hj).congr' ?_
  by_cases hk : k = 3
  · subst hk
    filter_upwards [(gaussWeights_wide_order hσ ho (k := 3) (j := 2) (by decide)).eventually (gt_mem_nhds one_pos)] with e he
    obtain ⟨a, b, c, hw⟩ : ∃ a b c, gaussWeights 3 (σ e) order = [a, b, c] := List.length_eq_three.1 (gaussWeights_length ..)
    rw [hw] at he ⊢
    have hc : c < 1 := he
    rw [usedKernel, if_neg, if_neg]
    · rintro ⟨-, -, h, -⟩
      linarith
    · rintro ⟨-, -, h, -⟩
      linarith
  · exact Eventually.of_forall fun e => by
      show (gaussWeights k (σ e) order).getD j 0 = (usedKernel (gaussWeights k (σ e) order)).getD j 0
      rw [usedKernel_of_length (w := gaussWeights k (σ e) order) (by rw [gaussWeights_length]; exact hk)]

/-- first derivatives of narrow Gaussians vanish at the sample points -/
theorem usedKernel_narrow {σ : E → ℝ} (hσ : Tendsto σ F (𝓝 0)) (hnz : ∀ e, σ e ≠ 0) {k j : Nat} (hj : j < k) :
    Tendsto (fun e => (usedKernel (gaussWeights k (σ e) 1)).getD j 0) F (𝓝 0) := by
  simp only [C164_kept]
  have hget : ∀ e, (gaussWeights k (σ e) 1).getD j 0 = -(samplePoint k j / σ e ^ 2) * bell (σ e) (samplePoint k j) / ((List.range (2 * (k / 2) + 1)).map fun i : Nat => bell (σ e) (samplePoint k i)).sum := by
    intro e
    have := bellDeriv_eq 1 (σ e) (samplePoint k j)
    rw [bellDeriv] at this
    rw [← bellPoly_one, ← this, gaussWeights, if_neg one_ne_zero]
    simp [hj]
  by_cases ht : samplePoint k j = 0
  · have : ∀ e, (gaussWeights k (σ e) 1).getD j 0 = 0 := fun e => by rw [hget, ht]; simp
    simp only [this]
    exact tendsto_const_nhds
  · set t := samplePoint k j with htd
    have hmid : ∀ e, 1 ≤ ((List.range (2 * (k / 2) + 1)).map fun i : Nat => bell (σ e) (samplePoint k i)).sum := fun e => by
      refine List.single_le_sum (fun a ha => ?_) _ (List.mem_map.2 ⟨k / 2, List.mem_range.2 (by omega), ?_⟩)
      · obtain ⟨i, -, rfl⟩ := List.mem_map.1 ha
        exact (bell_pos _ _).le
      · simp [bell, samplePoint]
    have hu : Tendsto (fun e => t ^ 2 / (2 * σ e ^ 2)) F atTop := by
      have h2 : Tendsto (fun e => 2 * σ e ^ 2) F (𝓝[>] 0) := by
        refine tendsto_nhdsWithin_iff.2 ⟨?_, Eventually.of_forall fun e => ?_⟩
        · have := (hσ.pow 2).const_mul 2
          simpa using this
        · have := hnz e
          show 0 < 2 * σ e ^ 2
          positivity
      have := (tendsto_inv_nhdsGT_zero.comp h2).const_mul_atTop (r := t ^ 2) (by positivity)
      exact this.congr fun e => (div_eq_mul_inv _ _).symm
    have hb := ((Real.tendsto_pow_mul_exp_neg_atTop_nhds_zero 1).comp hu).const_mul |2 / t|
    rw [mul_zero] at hb
    refine squeeze_zero_norm (fun e => ?_) hb
    rw [hget, Real.norm_eq_abs, abs_div, abs_of_pos (lt_of_lt_of_le one_pos (hmid e))]
    refine (div_le_self (abs_nonneg _) (hmid e)).trans (le_of_eq ?_)
    have hs := hnz e
    have e1 : bell (σ e) t = Real.exp (-(t ^ 2 / (2 * σ e ^ 2))) := by rw [bell, neg_div]
    have e2 : -(t / σ e ^ 2) * bell (σ e) t = -(2 / t * ((t ^ 2 / (2 * σ e ^ 2)) ^ 1 * Real.exp (-(t ^ 2 / (2 * σ e ^ 2))))) := by
      rw [e1]
      field_simp
    rw [e2, abs_neg, abs_mul, abs_of_nonneg (a := _ ^ 1 * _) (by positivity)]
    rfl

variable {x : Tensor ℝ} {m ek : Nat} {size : Given Nat} {sigma : E → Given ℝ} {es : E → ℝ} {eks : Option Nat} {esi : E → Option ℝ} {gp : PadArgs ℝ} {ps : EdgePadders ℝ} {ax : Axes} {axes : List Nat}

/-- components of Gaussian gradient filters whose edge kernels tend to zero, while the smoothing kernels converge -/
theorem grad_vanishes [F.NeBot] (hm0 : 0 < m) (hs : size.Fits m) (hg : ∀ e, (sigma e).Fits m) (hnz : ∀ e, ∀ s ∈ (sigma e).values, s ≠ 0) (hes : ∀ e, es e ≠ 0) (normalize : Bool) {order : Nat}
    (hek : eks = some ek ∨ (eks = none ∧ size = .one ek)) (hek0 : ek ≠ 0) (hesi : ∀ e, esi e = some (es e) ∨ (esi e = none ∧ sigma e = .one (es e)))
    {L : Nat → List ℝ} (hlen : ∀ k, (L k).length = k)
    (hlim : ∀ i < axes.length - 1, ∀ j < size.entry 0 i, Tendsto (fun e => (gaussWeights (size.entry 0 i) ((sigma e).entry 1 i) 0).getD j 0) F (𝓝 ((L (size.entry 0 i)).getD j 0)))
    (hzero : ∀ j < ek, Tendsto (fun e => (usedKernel (gaussWeights ek (es e) order)).getD j 0) F (𝓝 0)) (hps : HoldsBoth ps gp)
    (h : ∀ e, EdgeSetup (gradKernels normalize m size (sigma e)) gp x ax axes) (hlin : (gp.entry 0).Linear) (hm : ∀ e, (size.isMany || (sigma e).isMany) = true → axes.length - 1 = m) :
    ∃ f : E → EdgeFilter ℝ, (∀ e, EdgeFilter.gaussianGrad (size.toPy pyNat) ((sigma e).toPy Py.leaf) (eks.map fun n : Nat => (n : Int)) (esi e) normalize order = .ok (f e)) ∧
      ∀ junk, ∃ cs : Nat → E → Tensor ℝ, (∀ e, ((f e).allComponents ps junk x ax).2 = .ok (axes.map fun k => cs k e)) ∧
        ∀ k ∈ axes, (∀ e, (cs k e).shape = x.shape) ∧ ∀ ix, InB x.shape ix → Tendsto (fun e => (cs k e).get ix) F (𝓝 0) := by
  choose f h1 h2 using fun e => gaussianGrad_built hm0 hs (hg e) (hnz e) ek (hes e) normalize order eks (esi e) hek (hesi e)
  refine ⟨f, h1, fun junk => ⟨fun k e => edgeResponse (usedKernel (gaussWeights ek (es e) order)) (gradKernels normalize m size (sigma e)) gp x axes k, fun e => ?_, fun k hk => ⟨fun e => (h e).response_shape _ hk, fun ix hix => ?_⟩⟩⟩
  · obtain ⟨ps', e', -⟩ := C75_components (g := gradKernels normalize m size (sigma e)) (h2 e) hps (h e) (fun hh => hm e (by rwa [gradKernels_isMany] at hh)) junk
    rw [e']
  · obtain ⟨e0⟩ : Nonempty E := F.nonempty_of_neBot
    have hent : ∀ e, ∀ i < axes.length - 1, (gradKernels normalize m size (sigma e)).entry [] i = gaussWeights (size.entry 0 i) ((sigma e).entry 1 i) 0 :=
      fun e i hi => gradKernels_entry (hg e) (hnz e) fun hh => hm e hh ▸ hi
    let w' : Option E → List ℝ := fun o => o.elim (List.replicate ek 0) fun e => usedKernel (gaussWeights ek (es e) order)
    let g' : Option E → Given (List ℝ) := fun o => o.elim (size.map L) fun e => gradKernels normalize m size (sigma e)
    have hset : EdgeSetup (size.map L) gp x ax axes := { h e0 with
      fits := fun hh => by
        cases size with
        | one k => trivial
        | many l =>
          have : l.length = m := hs
          show (l.map L).length = _
          rw [List.length_map, this, hm e0 (by simp [Given.isMany])] }
    have hset' : ∀ o, EdgeSetup (g' o) gp x ax axes := fun o => by
      cases o with
      | none => exact hset
      | some e => exact h e
    have hav : ∀ i, (size.map L).entry [] i = L (size.entry 0 i) := fun i => by
      have := given_entry_map L size 0 i
      rwa [List.length_eq_zero_iff.1 (hlen 0)] at this
    have hw : Weights (Tends F) 1 (.one (some 1)) (fun _ => ek) fun o => PoolArgs.filter (.one (w' o)) := by
      refine ⟨fun _ => rfl, fun o i _ => ?_, fun i _ j hj => ?_⟩
      · cases o with
        | none => exact List.length_replicate
        | some e => exact (usedKernel_length _).trans (gaussWeights_length ..)
      · show Tendsto (fun e => (usedKernel (gaussWeights ek (es e) order)).getD j 0) F (𝓝 ((List.replicate ek (0 : ℝ)).getD j 0))
        have e : (List.replicate ek (0 : ℝ)).getD j 0 = 0 := by simp [hj]
        rw [e]
        exact hzero j hj
    have hgw : Weights (Tends F) (axes.length - 1) (.one (some 1)) (fun i => size.entry 0 i) fun o => PoolArgs.filter (g' o) := by
      refine ⟨fun _ => rfl, fun o i hi => ?_, fun i hi j hj => ?_⟩
      · cases o with
        | none =>
          show ((size.map L).entry [] i).length = _
          rw [hav, hlen]
        | some e =>
          show ((gradKernels normalize m size (sigma e)).entry [] i).length = _
          rw [hent e i hi, gaussWeights_length]
      · show Tendsto (fun e => ((gradKernels normalize m size (sigma e)).entry [] i).getD j 0) F (𝓝 (((size.map L).entry [] i).getD j 0))
        simp only [hent _ i hi, hav]
        exact hlim i hi j hj
    have hfam := Weights.response (x := fun _ => x) (w := w') (g := g') arithmetic_tends ⟨fun _ => rfl, fun ix _ => arithmetic_tends.const _⟩ none hset' hlin.affine hw hgw hk
    have hT : Tendsto (fun e => (edgeResponse (usedKernel (gaussWeights ek (es e) order)) (gradKernels normalize m size (sigma e)) gp x axes k).get ix) F
        (𝓝 ((edgeResponse (List.replicate ek 0) (size.map L) gp x axes k).get ix)) := hfam.entry ix hix
    have hz := edgeResponse_multiple hset hlin (v := List.replicate ek 0) (by simp [hek0]) 0 hk
    rw [List.map_replicate, mul_zero] at hz
    rw [hz, get_map _ _ (by rw [hset.response_shape _ hk]; exact hix), zero_mul] at hT
    exact hT

/-- magnitudes of such filters -/
theorem grad_magnitude_vanishes [F.NeBot] (hm0 : 0 < m) (hs : size.Fits m) (hg : ∀ e, (sigma e).Fits m) (hnz : ∀ e, ∀ s ∈ (sigma e).values, s ≠ 0) (hes : ∀ e, es e ≠ 0) (normalize : Bool) {order : Nat}
    (hek : eks = some ek ∨ (eks = none ∧ size = .one ek)) (hek0 : ek ≠ 0) (hesi : ∀ e, esi e = some (es e) ∨ (esi e = none ∧ sigma e = .one (es e)))
    {L : Nat → List ℝ} (hlen : ∀ k, (L k).length = k)
    (hlim : ∀ i < axes.length - 1, ∀ j < size.entry 0 i, Tendsto (fun e => (gaussWeights (size.entry 0 i) ((sigma e).entry 1 i) 0).getD j 0) F (𝓝 ((L (size.entry 0 i)).getD j 0)))
    (hzero : ∀ j < ek, Tendsto (fun e => (usedKernel (gaussWeights ek (es e) order)).getD j 0) F (𝓝 0)) (hps : HoldsBoth ps gp)
    (h : ∀ e, EdgeSetup (gradKernels normalize m size (sigma e)) gp x ax axes) (hlin : (gp.entry 0).Linear) (hm : ∀ e, (size.isMany || (sigma e).isMany) = true → axes.length - 1 = m)
    (epsilon : ℝ) {p : Nat} (hp : p ≠ 0) :
    ∃ f : E → EdgeFilter ℝ, (∀ e, EdgeFilter.gaussianGrad (size.toPy pyNat) ((sigma e).toPy Py.leaf) (eks.map fun n : Nat => (n : Int)) (esi e) normalize order = .ok (f e)) ∧
      ∀ junk, ∃ z : E → Tensor ℝ, (∀ e, ((f e).magnitude (nthRoot p) ps junk x ax epsilon p).2 = .ok (z e)) ∧
        (∀ e, (z e).shape = x.shape) ∧ ∀ ix, InB x.shape ix → Tendsto (fun e => (z e).get ix) F (𝓝 (nthRoot p epsilon)) := by
  obtain ⟨f, h1, h3⟩ := grad_vanishes (F := F) hm0 hs hg hnz hes normalize hek hek0 hesi hlen hlim hzero hps h hlin hm
  refine ⟨f, h1, fun junk => ?_⟩
  obtain ⟨cs, hcs, hl0⟩ := h3 junk
  have hrun : ∀ e, ∃ z, ((f e).magnitude (nthRoot p) ps junk x ax epsilon p).2 = .ok z ∧ z.shape = x.shape ∧ ∀ ix, InB x.shape ix →
      z.get ix = if p = 1 then (axes.map fun k => (cs k e).get ix).sum + epsilon else nthRoot p ((axes.map fun k => (cs k e).get ix ^ p).sum + epsilon) := by
    intro e
    obtain ⟨f', q1, q2⟩ := gaussianGrad_built hm0 hs (hg e) (hnz e) ek (hes e) normalize order eks (esi e) hek (hesi e)
    rw [h1 e, Except.ok.injEq] at q1
    subst q1
    obtain ⟨ps', z, cs', e1, e2, e3, e4⟩ := C75_magnitude (g := gradKernels normalize m size (sigma e)) q2 hps (h e) (fun hh => hm e (by rwa [gradKernels_isMany] at hh)) (nthRoot p) epsilon hp
      (.inr (.inl fun hnil => hek0 (by rw [← gaussWeights_length ek (es e) order, hnil]; rfl))) junk
    have := hcs e
    rw [e2, Except.ok.injEq] at this
    subst this
    refine ⟨z, by rw [e1], e3, fun ix hix => ?_⟩
    have := e4 ix hix
    simpa only [List.map_map, Function.comp_def] using this
  choose z hz hzs hzg using hrun
  refine ⟨z, hz, hzs, fun ix hix => ?_⟩
  simp only [hzg _ ix hix]
  by_cases hp1 : p = 1
  · simp only [hp1, if_true]
    have := (tendsto_list_sum (F := F) axes (f := fun k e => (cs k e).get ix) (a := fun _ => 0) fun k hk => (hl0 k hk).2 ix hix).add_const epsilon
    simpa [nthRoot] using this
  · simp only [hp1, if_false]
    have := (tendsto_list_sum (F := F) axes (f := fun k e => (cs k e).get ix ^ p) (a := fun _ => 0) fun k hk => by
      have := ((hl0 k hk).2 ix hix).pow p
      rwa [zero_pow hp] at this).add_const epsilon
    have h0 : ((axes.map fun _ => (0 : ℝ)).sum + epsilon) = epsilon := by simp
    rw [h0] at this
    exact this.rpow_const (.inr (by positivity))

/-- **C165.** As all sigmas of a `GaussianGrad` of order one or more grow, its components tend to zero at every position, for all sizes of the kernels, with and without `normalize`, with a linear padder. -/
theorem C165_components [F.NeBot] (hm0 : 0 < m) (hs : size.Fits m) (hg : ∀ e, (sigma e).Fits m) (hnz : ∀ e, ∀ s ∈ (sigma e).values, s ≠ 0) (hes : ∀ e, es e ≠ 0) (normalize : Bool) {order : Nat} (ho : order ≠ 0)
    (hek : eks = some ek ∨ (eks = none ∧ size = .one ek)) (hek0 : ek ≠ 0) (hesi : ∀ e, esi e = some (es e) ∨ (esi e = none ∧ sigma e = .one (es e)))
    (hσ : ∀ i < axes.length - 1, Tendsto (fun e => |(sigma e).entry 1 i|) F atTop) (hsm : Tendsto (fun e => |es e|) F atTop) (hps : HoldsBoth ps gp)
    (h : ∀ e, EdgeSetup (gradKernels normalize m size (sigma e)) gp x ax axes) (hlin : (gp.entry 0).Linear) (hm : ∀ e, (size.isMany || (sigma e).isMany) = true → axes.length - 1 = m) :
    ∃ f : E → EdgeFilter ℝ, (∀ e, EdgeFilter.gaussianGrad (size.toPy pyNat) ((sigma e).toPy Py.leaf) (eks.map fun n : Nat => (n : Int)) (esi e) normalize order = .ok (f e)) ∧
      ∀ junk, ∃ cs : Nat → E → Tensor ℝ, (∀ e, ((f e).allComponents ps junk x ax).2 = .ok (axes.map fun k => cs k e)) ∧
        ∀ k ∈ axes, (∀ e, (cs k e).shape = x.shape) ∧ ∀ ix, InB x.shape ix → Tendsto (fun e => (cs k e).get ix) F (𝓝 0) :=
  grad_vanishes hm0 hs hg hnz hes normalize hek hek0 hesi (fun k => by simp [avgKernel]) (fun i hi j hj => gaussWeights_wide (hσ i hi) hj) (fun j hj => usedKernel_wide hsm ho hj) hps h hlin hm

/-- **C165** for the magnitude: it tends to the root of `epsilon`. -/
theorem C165_magnitude [F.NeBot] (hm0 : 0 < m) (hs : size.Fits m) (hg : ∀ e, (sigma e).Fits m) (hnz : ∀ e, ∀ s ∈ (sigma e).values, s ≠ 0) (hes : ∀ e, es e ≠ 0) (normalize : Bool) {order : Nat} (ho : order ≠ 0)
    (hek : eks = some ek ∨ (eks = none ∧ size = .one ek)) (hek0 : ek ≠ 0) (hesi : ∀ e, esi e = some (es e) ∨ (esi e = none ∧ sigma e = .one (es e)))
    (hσ : ∀ i < axes.length - 1, Tendsto (fun e => |(sigma e).entry 1 i|) F atTop) (hsm : Tendsto (fun e => |es e|) F atTop) (hps : HoldsBoth ps gp)
    (h : ∀ e, EdgeSetup (gradKernels normalize m size (sigma e)) gp x ax axes) (hlin : (gp.entry 0).Linear) (hm : ∀ e, (size.isMany || (sigma e).isMany) = true → axes.length - 1 = m)
    (epsilon : ℝ) {p : Nat} (hp : p ≠ 0) :
    ∃ f : E → EdgeFilter ℝ, (∀ e, EdgeFilter.gaussianGrad (size.toPy pyNat) ((sigma e).toPy Py.leaf) (eks.map fun n : Nat => (n : Int)) (esi e) normalize order = .ok (f e)) ∧
      ∀ junk, ∃ z : E → Tensor ℝ, (∀ e, ((f e).magnitude (nthRoot p) ps junk x ax epsilon p).2 = .ok (z e)) ∧
        (∀ e, (z e).shape = x.shape) ∧ ∀ ix, InB x.shape ix → Tendsto (fun e => (z e).get ix) F (𝓝 (nthRoot p epsilon)) :=
  grad_magnitude_vanishes hm0 hs hg hnz hes normalize hek hek0 hesi (fun k => by simp [avgKernel]) (fun i hi j hj => gaussWeights_wide (hσ i hi) hj) (fun j hj => usedKernel_wide hsm ho hj) hps h hlin hm
    epsilon hp

/-- **C165.** As all sigmas of a `GaussianGrad` of order one tend to zero, its components tend to zero as well, and not to differences of pixels. -/
theorem C165_narrow [F.NeBot] (hm0 : 0 < m) (hs : size.Fits m) (hg : ∀ e, (sigma e).Fits m) (hnz : ∀ e, ∀ s ∈ (sigma e).values, s ≠ 0) (hes : ∀ e, es e ≠ 0) (normalize : Bool)
    (hek : eks = some ek ∨ (eks = none ∧ size = .one ek)) (hek0 : ek ≠ 0) (hesi : ∀ e, esi e = some (es e) ∨ (esi e = none ∧ sigma e = .one (es e)))
    (hσ : ∀ i < axes.length - 1, Tendsto (fun e => (sigma e).entry 1 i) F (𝓝 0)) (hsm : Tendsto es F (𝓝 0)) (hps : HoldsBoth ps gp)
    (h : ∀ e, EdgeSetup (gradKernels normalize m size (sigma e)) gp x ax axes) (hlin : (gp.entry 0).Linear) (hm : ∀ e, (size.isMany || (sigma e).isMany) = true → axes.length - 1 = m) :
    ∃ f : E → EdgeFilter ℝ, (∀ e, EdgeFilter.gaussianGrad (size.toPy pyNat) ((sigma e).toPy Py.leaf) (eks.map fun n : Nat => (n : Int)) (esi e) normalize 1 = .ok (f e)) ∧
      ∀ junk, ∃ cs : Nat → E → Tensor ℝ, (∀ e, ((f e).allComponents ps junk x ax).2 = .ok (axes.map fun k => cs k e)) ∧
        ∀ k ∈ axes, (∀ e, (cs k e).shape = x.shape) ∧ ∀ ix, InB x.shape ix → Tendsto (fun e => (cs k e).get ix) F (𝓝 0) :=
  grad_vanishes hm0 hs hg hnz hes normalize hek hek0 hesi (fun k => by simp [spike]) (fun i hi j hj => gaussWeights_narrow (hσ i hi) (fun e => hnz e _ (entry_mem (hg e) 1 fun hh => hm e (by simp [hh]) ▸ hi)) hj) (fun j hj => usedKernel_narrow hsm hes hj) hps h hlin hm

/-- **C165** for the magnitude: it tends to the root of `epsilon`. -/
theorem C165_narrow_magnitude [F.NeBot] (hm0 : 0 < m) (hs : size.Fits m) (hg : ∀ e, (sigma e).Fits m) (hnz : ∀ e, ∀ s ∈ (sigma e).values, s ≠ 0) (hes : ∀ e, es e ≠ 0) (normalize : Bool)
    (hek : eks = some ek ∨ (eks = none ∧ size = .one ek)) (hek0 : ek ≠ 0) (hesi : ∀ e, esi e = some (es e) ∨ (esi e = none ∧ sigma e = .one (es e)))
    (hσ : ∀ i < axes.length - 1, Tendsto (fun e => (sigma e).entry 1 i) F (𝓝 0)) (hsm : Tendsto es F (𝓝 0)) (hps : HoldsBoth ps gp)
    (h : ∀ e, EdgeSetup (gradKernels normalize m size (sigma e)) gp x ax axes) (hlin : (gp.entry 0).Linear) (hm : ∀ e, (size.isMany || (sigma e).isMany) = true → axes.length - 1 = m)
    (epsilon : ℝ) {p : Nat} (hp : p ≠ 0) :
    ∃ f : E → EdgeFilter ℝ, (∀ e, EdgeFilter.gaussianGrad (size.toPy pyNat) ((sigma e).toPy Py.leaf) (eks.map fun n : Nat => (n : Int)) (esi e) normalize 1 = .ok (f e)) ∧
      ∀ junk, ∃ z : E → Tensor ℝ, (∀ e, ((f e).magnitude (nthRoot p) ps junk x ax epsilon p).2 = .ok (z e)) ∧
        (∀ e, (z e).shape = x.shape) ∧ ∀ ix, InB x.shape ix → Tendsto (fun e => (z e).get ix) F (𝓝 (nthRoot p epsilon)) :=
  grad_magnitude_vanishes hm0 hs hg hnz hes normalize hek hek0 hesi (fun k => by simp [spike]) (fun i hi j hj => gaussWeights_narrow (hσ i hi) (fun e => hnz e _ (entry_mem (hg e) 1 fun hh => hm e (by simp [hh]) ▸ hi)) hj) (fun j hj => usedKernel_narrow hsm hes hj) hps h hlin hm
    epsilon hp

/-- **C165**, order two: there the edge kernels do not vanish for small sigmas.  The middle one of three weights, as it is used, falls below every bound. -/
theorem C165_second_order {σ : E → ℝ} (hσ : Tendsto σ F (𝓝 0)) (hnz : ∀ e, σ e ≠ 0) : Tendsto (fun e => (usedKernel (gaussWeights 3 (σ e) 2)).getD 1 0) F atBot := by
  have h2 : Tendsto (fun e => σ e ^ 2) F (𝓝[>] 0) := by
    refine tendsto_nhdsWithin_iff.2 ⟨?_, Eventually.of_forall fun e => ?_⟩
    · have := hσ.pow 2
      simpa using this
    · have := hnz e
      show 0 < σ e ^ 2
      positivity
  have hinv := tendsto_inv_nhdsGT_zero.comp h2
  have hdiv : Tendsto (fun e => -(1 / 3) * (σ e ^ 2)⁻¹) F atBot := hinv.const_mul_atTop_of_neg (by norm_num)
  have hle : ∀ e, (gaussWeights 3 (σ e) 2).getD 1 0 ≤ -(1 / 3) * (σ e ^ 2)⁻¹ := fun e => by
    rw [gaussWeights_three]
    show -(1 / σ e ^ 2) / (1 + 2 * bell (σ e) 1) ≤ _
    have hb : 0 < bell (σ e) 1 := bell_pos _ _
    have hb1 : bell (σ e) 1 ≤ 1 := by
      rw [bell, Real.exp_le_one_iff, neg_div]
      have : (0 : ℝ) ≤ 1 ^ 2 / (2 * σ e ^ 2) := by positivity
      linarith
    have hp : 0 ≤ (σ e ^ 2)⁻¹ := by positivity
    rw [div_le_iff₀ (by linarith), one_div]
    nlinarith
  have hw := tendsto_atBot_mono hle hdiv
  refine hw.congr' ?_
  filter_upwards [hw.eventually_le_atBot (-3)] with e he
  obtain ⟨a, b, c, h3⟩ : ∃ a b c, gaussWeights 3 (σ e) 2 = [a, b, c] := List.length_eq_three.1 (gaussWeights_length ..)
  rw [h3] at he ⊢
  have hb : b ≤ -3 := he
  rw [usedKernel, if_neg, if_neg]
  · rintro ⟨-, ⟨h, -⟩, -⟩
    linarith
  · rintro ⟨-, ⟨h, -⟩, -⟩
    linarith

/-! ### examples -/

example := C165_second_order (F := atTop) (σ := fun s : ℕ => 1 / ((s : ℝ) + 1)) tendsto_one_div_add_atTop_nhds_zero_nat (fun e => by positivity)

/-- the magnitude of `GaussianGrad(3, s + 1)` as `s` grows -/
example {ps : EdgePadders ℝ} (hps : HoldsBoth ps reflectArgs) {d : Tensor ℝ} (hd : d.shape = [1, 3, 4, 6]) :=
  C165_magnitude (F := atTop) (x := d) (m := 1) (size := .one 3) (sigma := fun s : ℕ => .one ((s : ℝ) + 1)) (es := fun s : ℕ => (s : ℝ) + 1) (eks := none) (esi := fun _ => none)
    Nat.one_pos trivial (fun _ => trivial) (fun e s hs => by simp only [Given.values, List.mem_singleton] at hs; rw [hs]; positivity) (fun e => by positivity) true (order := 1) one_ne_zero (.inr ⟨rfl, rfl⟩)
    (by decide) (fun _ => .inr ⟨rfl, rfl⟩)
    (fun i _ => tendsto_abs_atTop_atTop.comp (tendsto_natCast_atTop_atTop.atTop_add tendsto_const_nhds)) (tendsto_abs_atTop_atTop.comp (tendsto_natCast_atTop_atTop.atTop_add tendsto_const_nhds)) hps
    (fun _ => reflect_setup gradKernels_isMany hd (by decide) (by decide)) reflect_linear (fun _ => by intro h; cases h) 0 (p := 2) (by decide)

/-- the components of `GaussianGrad(4, 1 / (s + 1))` as `s` grows -/
example {ps : EdgePadders ℝ} (hps : HoldsBoth ps reflectArgs) {d : Tensor ℝ} (hd : d.shape = [1, 3, 4, 6]) :=
  C165_narrow (F := atTop) (x := d) (m := 1) (size := .one 4) (sigma := fun s : ℕ => .one (1 / ((s : ℝ) + 1))) (es := fun s : ℕ => 1 / ((s : ℝ) + 1)) (eks := none) (esi := fun _ => none)
    Nat.one_pos trivial (fun _ => trivial) (fun e s hs => by simp only [Given.values, List.mem_singleton] at hs; rw [hs]; positivity) (fun e => by positivity) true (.inr ⟨rfl, rfl⟩)
    (by decide) (fun _ => .inr ⟨rfl, rfl⟩) (fun i _ => tendsto_one_div_add_atTop_nhds_zero_nat) tendsto_one_div_add_atTop_nhds_zero_nat hps
    (fun _ => reflect_setup gradKernels_isMany hd (by decide) (by decide)) reflect_linear (fun _ => by intro h; cases h)

end TI
