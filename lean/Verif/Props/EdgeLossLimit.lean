import Verif.Props.EdgeLimit

/-!
# Losses on Gaussian edges as functions of sigma (C167)
-/

set_option linter.unusedSectionVars false

namespace TI
open Tensor Spec Filter Topology

/-- **C167**: `GaussianEdgeLoss` and `WeightedMul` depend smoothly on sigma and on the images, at parameters where no edges of the two images are equal.  Edge kernels with three weights are
excepted unless they are first derivatives, as others may be replaced (C164). -/
theorem C167_smooth {E : Type} [NormedAddCommGroup E] [NormedSpace ℝ E] {e0 : E} {n : WithTop ℕ∞} {ks order N c h v : Nat} {σ : E → ℝ} (hnz : ∀ e, σ e ≠ 0) (hσ : ContDiffAt ℝ n σ e0)
    (hkeep : ks ≠ 3 ∨ order = 1) {y1 y2 : E → Tensor ℝ} (h1 : SmoothAt n e0 [N, c, h, v] y1) (h2 : SmoothAt n e0 [N, c, h, v] y2) (hh : 0 < h) (hv : 0 < v)
    (hne : ∀ a ∈ [2, 3], ∀ ix, InB [N, c, h, v] ix → (edges (gaussWeights ks (σ e0) order) (lossSmooth ks (σ e0)) (y1 e0) a).get ix ≠
      (edges (gaussWeights ks (σ e0) order) (lossSmooth ks (σ e0)) (y2 e0) a).get ix) :
    ∃ (f : E → EdgeFilter ℝ) (ps : E → EdgePadders ℝ), (∀ e, EdgeLoss.init (.leaf ks) (.leaf (σ e)) order = .ok (f e, ps e)) ∧ ∀ junk, ∃ l1 l2 : E → ℝ,
      (∀ e, (EdgeLoss.forward (f e) (ps e) junk (y1 e) (y2 e)).2 = .ok (.scalar (l1 e))) ∧ (∀ e, (EdgeLoss.weightedMul (f e) (ps e) junk (y1 e) (y2 e)).2 = .ok (.scalar (l2 e))) ∧
      ContDiffAt ℝ n l1 e0 ∧ ContDiffAt ℝ n l2 e0 := by
  choose f ps hi hb hps hg using fun e => C85_init ks (hnz e) order
  refine ⟨f, ps, hi, fun junk => ?_⟩
  have hi' : ∀ e, EdgeImages (lossSmooth ks (σ e)) N c h v (y1 e) (y2 e) := fun e => ⟨h1.shape e, h2.shape e, hh, hv, hg e⟩
  choose q1 e1 _ using fun e => C85_edge_loss (hb e) (hps e) (hi' e) junk
  choose q2 e2 _ using fun e => C85_weighted_mul (hb e) (hps e) (hi' e) junk
  refine ⟨_, _, fun s => by rw [e1 s], fun s => by rw [e2 s], ?_⟩
  have hv' : ∀ e, ∀ s ∈ (Given.one (σ e)).values, s ≠ 0 := fun e s hs => by
    simp only [Given.values, List.mem_singleton] at hs
    rw [hs]
    exact hnz e
  obtain ⟨hw, hgw⟩ := grad_weights (n := n) (e0 := e0) (m := 1) (ek := ks) (size := .one ks) (sigma := fun e => .one (σ e)) (es := σ) (fun _ => trivial) hv' hnz true order (hkeep.imp_right .inl)
    (N := [2, 3].length - 1) (fun _ _ => hσ) hσ (fun _ hm => by cases hm)
  have hused : usedKernel (gaussWeights ks (σ e0) order) = gaussWeights ks (σ e0) order := by
    rcases hkeep with h3 | rfl
    · exact usedKernel_of_length (by rw [gaussWeights_length]; exact h3)
    · exact C164_kept ks _
  have hf : ∀ y : E → Tensor ℝ, SmoothAt n e0 [N, c, h, v] y → ∀ a ∈ [2, 3], ∀ ix, InB [N, c, h, v] ix →
      ContDiffAt ℝ n (fun e => (edges (usedKernel (gaussWeights ks (σ e) order)) (lossSmooth ks (σ e)) (y e) a).get ix) e0 := fun y hy a ha ix hix =>
    (Weights.response arithmetic_contDiffAt hy e0 (fun e => reflect_setup (hg e) (hy.shape e) hh hv) reflect_linear.affine hw hgw ha).entry ix hix
  rw [← hused] at hne
  have hboth : ∀ u : E → Nat → List Nat → ℝ, (∀ a ∈ [2, 3], ∀ ix ∈ indices [N, c, h, v], ContDiffAt ℝ n (fun e => u e a ix) e0) → ContDiffAt ℝ n (fun e => overBoth [N, c, h, v] (u e)) e0 := fun u hu =>
    (arithmetic_contDiffAt.add (arithmetic_contDiffAt.mean (hu 2 (by simp))) (arithmetic_contDiffAt.mean (hu 3 (by simp)))).div_const 2
  refine ⟨hboth _ fun a ha ix hix => ?_, hboth _ fun a ha ix hix => ?_⟩
  · have hix := mem_indices.1 hix
    exact contDiffAt_abs_of_ne ((hf y1 h1 a ha ix hix).sub (hf y2 h2 a ha ix hix)) (sub_ne_zero.2 (hne a ha ix hix))
  · have hix := mem_indices.1 hix
    exact (contDiffAt_abs_of_ne ((hf y2 h2 a ha ix hix).sub (hf y1 h1 a ha ix hix)) (sub_ne_zero.2 (hne a ha ix hix).symm)).mul (hf y2 h2 a ha ix hix)

variable {E : Type} {F : Filter E}

theorem mean_vanishes {l : List (List Nat)} {u : E → List Nat → ℝ} (hu : ∀ ix ∈ l, Tendsto (fun e => u e ix) F (𝓝 0)) : Tendsto (fun e => Spec.mean (l.map (u e))) F (𝓝 0) := by
  have := (tendsto_list_sum (F := F) l (f := fun ix e => u e ix) (a := fun _ => 0) hu).div_const (l.length : ℝ)
  simpa [Spec.mean] using this

theorem overBoth_vanishes {S : List Nat} {u : E → Nat → List Nat → ℝ} (hu : ∀ a ∈ [2, 3], ∀ ix, InB S ix → Tendsto (fun e => u e a ix) F (𝓝 0)) : Tendsto (fun e => overBoth S (u e)) F (𝓝 0) := by
  have h : ∀ a ∈ [2, 3], Tendsto (fun e => Spec.mean ((indices S).map (u e a))) F (𝓝 0) := fun a ha => mean_vanishes fun ix hix => hu a ha ix (mem_indices.1 hix)
  have := ((h 2 (by simp)).add (h 3 (by simp))).div_const 2
  simpa [overBoth] using this

theorem loss_vanishes {ks order N c h v : Nat} {σ : E → ℝ} (hnz : ∀ e, σ e ≠ 0) {p t : Tensor ℝ} (hp : p.shape = [N, c, h, v]) (ht : t.shape = [N, c, h, v]) (hh : 0 < h) (hv : 0 < v)
    (hlim : ∀ x : Tensor ℝ, x.shape = [N, c, h, v] → ∀ ps : EdgePadders ℝ, HoldsBoth ps reflectArgs → ∃ f : E → EdgeFilter ℝ,
      (∀ e, EdgeFilter.gaussianGrad (.leaf ks) (.leaf (σ e)) none none true order = .ok (f e)) ∧ ∀ junk, ∃ cs : Nat → E → Tensor ℝ,
        (∀ e, ((f e).allComponents ps junk x (.seq [2, 3])).2 = .ok ([2, 3].map fun k => cs k e)) ∧
        ∀ k ∈ [2, 3], (∀ e, (cs k e).shape = x.shape) ∧ ∀ ix, InB x.shape ix → Tendsto (fun e => (cs k e).get ix) F (𝓝 0)) :
    ∃ (f : E → EdgeFilter ℝ) (ps : E → EdgePadders ℝ), (∀ e, EdgeLoss.init (.leaf ks) (.leaf (σ e)) order = .ok (f e, ps e)) ∧ ∀ junk, ∃ l1 l2 l3 : E → ℝ,
      (∀ e, (EdgeLoss.forward (f e) (ps e) junk p t).2 = .ok (.scalar (l1 e))) ∧ (∀ e, (EdgeLoss.weightedMul (f e) (ps e) junk p t).2 = .ok (.scalar (l2 e))) ∧
      (∀ e, (EdgeLoss.weightedSum (f e) (ps e) junk p t).2 = .ok (.scalar (l3 e))) ∧ Tendsto l1 F (𝓝 0) ∧ Tendsto l2 F (𝓝 0) ∧ Tendsto l3 F (𝓝 0) := by
  choose f ps hi hb hps hg using fun e => C85_init ks (hnz e) order
  refine ⟨f, ps, hi, fun junk => ?_⟩
  have hi' : ∀ e, EdgeImages (lossSmooth ks (σ e)) N c h v p t := fun e => ⟨hp, ht, hh, hv, hg e⟩
  choose q1 e1 _ using fun e => C85_edge_loss (hb e) (hps e) (hi' e) junk
  choose q2 e2 _ using fun e => C85_weighted_mul (hb e) (hps e) (hi' e) junk
  choose q3 e3 _ using fun e => C85_weighted_sum (hb e) (hps e) (hi' e) junk
  refine ⟨_, _, _, fun s => by rw [e1 s], fun s => by rw [e2 s], fun s => by rw [e3 s], ?_⟩
  have key : ∀ x : Tensor ℝ, x.shape = [N, c, h, v] → ∀ a ∈ [2, 3], ∀ ix, InB [N, c, h, v] ix →
      Tendsto (fun e => (edges (usedKernel (gaussWeights ks (σ e) order)) (lossSmooth ks (σ e)) x a).get ix) F (𝓝 0) := by
    intro x hx a ha ix hix
    have hpp : HoldsBoth (.separate (reflectArgs.padder 1) (reflectArgs.padder 1) : EdgePadders ℝ) reflectArgs := ⟨_, _, rfl, rfl, holds_padder _ 1, holds_padder _ 1⟩
    obtain ⟨f', hf', hc⟩ := hlim x hx _ hpp
    obtain ⟨cs, hcs, hz⟩ := hc junk
    refine ((hz a ha).2 ix (by rw [hx]; exact hix)).congr fun e => ?_
    have hff : f' e = f e := by
      have h3 := hi e
      simp only [EdgeLoss.init, hf' e, ok_bind] at h3
      have ep : Padder.init (.leaf 0) (.leaf (.reflect : Mode ℝ)) (.leaf 0) (.leaf 0) (.leaf none) = .ok (reflectArgs.padder 1) := rfl
      rw [ep, ok_bind] at h3
      exact congrArg Prod.fst (Except.ok.inj h3)
    obtain ⟨ps', e', -⟩ := C75_components (hb e) hpp (reflect_setup (hg e) hx hh hv) (fun hm => by rw [hg e] at hm; cases hm) junk
    have h4 := hcs e
    rw [hff, e'] at h4
    have h5 := List.map_inj_left.1 (Except.ok.inj h4) a ha
    exact congrArg (fun y => Tensor.get y ix) h5.symm
  refine ⟨overBoth_vanishes fun a ha ix hix => ?_, overBoth_vanishes fun a ha ix hix => ?_, overBoth_vanishes fun a ha jx hjx => ?_⟩
  · simpa using ((key p hp a ha ix hix).sub (key t ht a ha ix hix)).abs
  · simpa using ((key t ht a ha ix hix).sub (key p hp a ha ix hix)).abs.mul (key t ht a ha ix hix)
  · have hx : ∀ x : Tensor ℝ, x.shape = [N, c, h, v] → Tendsto (fun e => planeMean [N, c, h, v] (fun ix => |(edges (usedKernel (gaussWeights ks (σ e) order)) (lossSmooth ks (σ e)) x a).get ix|) jx) F (𝓝 0) :=
      fun x hx => mean_vanishes fun ix hix => by simpa using (key x hx a ha ix (mem_indices.1 (List.mem_of_mem_filter hix))).abs
    simpa using ((hx t ht).sub (hx p hp)).abs

/-- **C167**: with derivatives of wide Gaussians `GaussianEdgeLoss`, `WeightedMul` and `WeightedSum` vanish, for any two images: as sigma grows, they tend to zero. -/
theorem C167_wide [F.NeBot] {ks order N c h v : Nat} (h0 : ks ≠ 0) (ho : order ≠ 0) {σ : E → ℝ} (hnz : ∀ e, σ e ≠ 0) (hσ : Tendsto (fun e => |σ e|) F atTop)
    {p t : Tensor ℝ} (hp : p.shape = [N, c, h, v]) (ht : t.shape = [N, c, h, v]) (hh : 0 < h) (hv : 0 < v) :
    ∃ (f : E → EdgeFilter ℝ) (ps : E → EdgePadders ℝ), (∀ e, EdgeLoss.init (.leaf ks) (.leaf (σ e)) order = .ok (f e, ps e)) ∧ ∀ junk, ∃ l1 l2 l3 : E → ℝ,
      (∀ e, (EdgeLoss.forward (f e) (ps e) junk p t).2 = .ok (.scalar (l1 e))) ∧ (∀ e, (EdgeLoss.weightedMul (f e) (ps e) junk p t).2 = .ok (.scalar (l2 e))) ∧
      (∀ e, (EdgeLoss.weightedSum (f e) (ps e) junk p t).2 = .ok (.scalar (l3 e))) ∧ Tendsto l1 F (𝓝 0) ∧ Tendsto l2 F (𝓝 0) ∧ Tendsto l3 F (𝓝 0) :=
  loss_vanishes hnz hp ht hh hv fun x hx ps hps => C165_components (m := 1) (size := .one ks) (sigma := fun e => .one (σ e)) (es := σ) (eks := none) (esi := fun _ => none) Nat.one_pos trivial
    (fun _ => trivial) (fun e s hs => by simp only [Given.values, List.mem_singleton] at hs; rw [hs]; exact hnz e) hnz true ho (.inr ⟨rfl, rfl⟩) h0 (fun _ => .inr ⟨rfl, rfl⟩) (fun _ _ => hσ) hσ hps
    (fun _ => reflect_setup gradKernels_isMany hx hh hv) reflect_linear (fun _ hm => by cases hm)

/-- **C167**: so they do with first derivatives of narrow ones. -/
theorem C167_narrow [F.NeBot] {ks N c h v : Nat} (h0 : ks ≠ 0) {σ : E → ℝ} (hnz : ∀ e, σ e ≠ 0) (hσ : Tendsto σ F (𝓝 0))
    {p t : Tensor ℝ} (hp : p.shape = [N, c, h, v]) (ht : t.shape = [N, c, h, v]) (hh : 0 < h) (hv : 0 < v) :
    ∃ (f : E → EdgeFilter ℝ) (ps : E → EdgePadders ℝ), (∀ e, EdgeLoss.init (.leaf ks) (.leaf (σ e)) 1 = .ok (f e, ps e)) ∧ ∀ junk, ∃ l1 l2 l3 : E → ℝ,
      (∀ e, (EdgeLoss.forward (f e) (ps e) junk p t).2 = .ok (.scalar (l1 e))) ∧ (∀ e, (EdgeLoss.weightedMul (f e) (ps e) junk p t).2 = .ok (.scalar (l2 e))) ∧
      (∀ e, (EdgeLoss.weightedSum (f e) (ps e) junk p t).2 = .ok (.scalar (l3 e))) ∧ Tendsto l1 F (𝓝 0) ∧ Tendsto l2 F (𝓝 0) ∧ Tendsto l3 F (𝓝 0) :=
  loss_vanishes hnz hp ht hh hv fun x hx ps hps => C165_narrow (m := 1) (size := .one ks) (sigma := fun e => .one (σ e)) (es := σ) (eks := none) (esi := fun _ => none) Nat.one_pos trivial
    (fun _ => trivial) (fun e s hs => by simp only [Given.values, List.mem_singleton] at hs; rw [hs]; exact hnz e) hnz true (.inr ⟨rfl, rfl⟩) h0 (fun _ => .inr ⟨rfl, rfl⟩) (fun _ _ => hσ) hσ hps
    (fun _ => reflect_setup gradKernels_isMany hx hh hv) reflect_linear (fun _ hm => by cases hm)

/-! ### examples -/

section
variable {p t : Tensor ℝ} (hp : p.shape = [1, 3, 4, 6]) (ht : t.shape = [1, 3, 4, 6])

/-- `GaussianEdgeLoss(3, s + 1, 2)` as `s` grows -/
example := C167_wide (F := atTop) (ks := 3) (order := 2) (σ := fun s : ℕ => (s : ℝ) + 1) (by decide) (by decide) (fun e => by positivity)
  (tendsto_abs_atTop_atTop.comp (tendsto_natCast_atTop_atTop.atTop_add tendsto_const_nhds)) hp ht (by decide) (by decide)

/-- `GaussianEdgeLoss(5, 1 / (s + 1), 1)` as `s` grows -/
example := C167_narrow (F := atTop) (ks := 5) (σ := fun s : ℕ => 1 / ((s : ℝ) + 1)) (by decide) (fun e => by positivity) tendsto_one_div_add_atTop_nhds_zero_nat hp ht (by decide) (by decide)

/-- `GaussianEdgeLoss(5, s * s + 1, 0)`, which compares blurred images, for images with the constant values `1` and `2` -/
example (h1 : Constant 1 p) (h2 : Constant 2 t) := C167_smooth (n := (↑(⊤ : ℕ∞))) (e0 := (3 : ℝ)) (ks := 5) (order := 0) (σ := fun s : ℝ => s * s + 1) (y1 := fun _ => p) (y2 := fun _ => t)
  (fun s => ne_of_gt (by nlinarith [mul_self_nonneg s])) ((contDiffAt_id.mul contDiffAt_id).add contDiffAt_const) (.inl (by decide)) ⟨fun _ => hp, fun _ _ => contDiffAt_const⟩ ⟨fun _ => ht, fun _ _ => contDiffAt_const⟩
  (by decide) (by decide) (by
    intro a ha ix hix
    have hs : (3 * 3 + 1 : ℝ) ≠ 0 := by norm_num
    obtain ⟨f, ps, -, hb, -, hg⟩ := C85_init 5 hs 0
    have hsum := gaussWeights_zero_sum hs (k := 5) (by decide)
    have hne : gaussWeights 5 (3 * 3 + 1) 0 ≠ [] := fun h0 => by rw [h0] at hsum; simp at hsum
    have hone : ∀ u ∈ (lossSmooth 5 (3 * 3 + 1)).values, u ≠ [] → u.sum = 1 := by
      intro u hu _
      simp only [lossSmooth, Given.values, List.mem_singleton] at hu
      rw [hu]
      exact normalised_sum (by rw [hsum]; exact one_ne_zero)
    have e1 := edges_constant hb hne hone hg hp (by decide) (by decide) h1 ha hix
    have e2 := edges_constant hb hne hone hg ht (by decide) (by decide) h2 ha hix
    rw [usedKernel_of_length (by rw [gaussWeights_length]; decide), hsum] at e1 e2
    rw [e1, e2]
    norm_num)

end

end TI
