import Mathlib.Analysis.Complex.ExponentialBounds
import Verif.Props.EdgeWeights
import Verif.Props.EdgesGauss

/-!
# Gaussian gradient filters as functions of their sigmas (C164)
-/

set_option linter.unusedSectionVars false

namespace TI
open Tensor Spec

/-- smoothing kernels of `GaussianGrad`, with and without the final division by the sums -/
noncomputable def Spec.gradKernels (normalize : Bool) (m : Nat) (size : Given Nat) (sigma : Given ℝ) : Given (List ℝ) :=
  if normalize then (smoothKernels m size sigma).map normalised else smoothKernels m size sigma

theorem normalised_of_sum {w : List ℝ} (h : w.sum = 1) : normalised w = w := by simp [normalised, h]

/-- dividing the weights by their sum changes nothing -/
theorem gradKernels_entry {normalize : Bool} {m : Nat} {size : Given Nat} {sigma : Given ℝ} (hg : sigma.Fits m) (hnz : ∀ s ∈ sigma.values, s ≠ 0) {i : Nat}
    (hi : (size.isMany || sigma.isMany) = true → i < m) : (gradKernels normalize m size sigma).entry [] i = gaussWeights (size.entry 0 i) (sigma.entry 1 i) 0 := by
  have hent : (smoothKernels m size sigma).entry [] i = gaussWeights (size.entry 0 i) (sigma.entry 1 i) 0 := given_entry_zip [] hi
  cases normalize
  · exact hent
  · have hn : ((smoothKernels m size sigma).map normalised).entry [] i = normalised ((smoothKernels m size sigma).entry [] i) :=
      given_entry_map normalised (smoothKernels m size sigma) [] i
    simp only [gradKernels, if_true]
    rw [hn, hent]
    have hσ : sigma.entry 1 i ≠ 0 := hnz _ (entry_mem hg 1 fun h => hi (by simp [h]))
    rcases Nat.eq_zero_or_pos (size.entry 0 i) with h0 | h0
    · have : gaussWeights (size.entry 0 i) (sigma.entry 1 i) 0 = [] := List.length_eq_zero_iff.1 (by rw [gaussWeights_length, h0])
      rw [this]
      rfl
    · exact normalised_of_sum (gaussWeights_zero_sum hσ h0)

theorem gradKernels_isMany {normalize : Bool} {m : Nat} {size : Given Nat} {sigma : Given ℝ} : (gradKernels normalize m size sigma).isMany = (size.isMany || sigma.isMany) := by
  rw [← given_isMany_zip (m := m) (F := fun k s => gaussWeights k s 0) (db := 0) (dc := 1)]
  cases normalize
  · rfl
  · simp only [gradKernels, if_true, smoothKernels]
    cases Given.zip m (fun k s => gaussWeights k s 0) 0 1 size sigma <;> rfl

/-- only kernels of three weights are replaced -/
theorem usedKernel_of_length {w : List ℝ} (h : w.length ≠ 3) : usedKernel w = w := by
  rw [usedKernel, if_neg, if_neg]
  all_goals
    intro ht
    rcases w with _ | ⟨a, _ | ⟨b, _ | ⟨c, _ | ⟨d, l⟩⟩⟩⟩
    all_goals first | exact ht | exact h rfl

theorem gaussWeights_three_one (σ : ℝ) : gaussWeights 3 σ 1 = [-(1 / σ ^ 2 * bell σ 1 / (1 + 2 * bell σ 1)), 0, 1 / σ ^ 2 * bell σ 1 / (1 + 2 * bell σ 1)] := by
  have b0 : bell σ 0 = 1 := by simp [bell]
  have bn : bell σ (-1) = bell σ 1 := by simp [bell]
  have e0 : samplePoint 3 0 = 1 := by norm_num [samplePoint]
  have e1 : samplePoint 3 1 = 0 := by norm_num [samplePoint]
  have e2 : samplePoint 3 2 = -1 := by norm_num [samplePoint]
  have hr : List.range 3 = [0, 1, 2] := by decide
  rw [gaussWeights, if_neg (by decide), show 2 * (3 / 2) + 1 = 3 by decide, hr]
  simp only [List.map_cons, List.map_nil, e0, e1, e2, deriv_eq, bellPoly_one, b0, bn, List.sum_cons, List.sum_nil]
  have hz : bell σ 1 + (1 + (bell σ 1 + 0)) = 1 + 2 * bell σ 1 := by ring
  rw [hz]
  congr 1
  · ring
  · congr 1
    · ring
    · congr 1
      ring

/-- **C164**: the weights of a first derivative of a Gaussian are below one, so that these kernels are never replaced. -/
theorem C164_kept (k : Nat) (σ : ℝ) : usedKernel (gaussWeights k σ 1) = gaussWeights k σ 1 := by
  by_cases hk : k = 3
  · subst hk
    have hlt : 1 / σ ^ 2 * bell σ 1 / (1 + 2 * bell σ 1) < 1 := by
      have hb : 0 < bell σ 1 := bell_pos _ _
      rw [div_lt_one (by linarith)]
      set u : ℝ := 1 / σ ^ 2 / 2 with hu
      have h0 : 0 ≤ u := by positivity
      have h1 : 1 / σ ^ 2 = 2 * u := by rw [hu]; ring
      have h2 : bell σ 1 = (Real.exp u)⁻¹ := by
        rw [bell, ← Real.exp_neg, hu]
        congr 1
        ring
      have h3 := Real.quadratic_le_exp_of_nonneg h0
      have h4 : Real.exp u * bell σ 1 = 1 := by rw [h2, mul_inv_cancel₀ (Real.exp_pos u).ne']
      rw [h1]
      nlinarith [sq_nonneg (u - 1)]
    rw [gaussWeights_three_one, usedKernel, if_neg, if_neg]
    · rintro ⟨-, ⟨-, h⟩, -⟩
      linarith
    · rintro ⟨-, -, h, -⟩
      linarith
  · exact usedKernel_of_length (by rw [gaussWeights_length]; exact hk)

/-- **C164**, the exception: the second derivative of a Gaussian, sampled at three points, is replaced by `(1, -2, 1)` for some sigmas, although its weights are others. -/
theorem C164_replaced {σ : ℝ} (hσ : σ ^ 2 = 2 / 7) : usedKernel (gaussWeights 3 σ 2) = [1, -2, 1] ∧ (gaussWeights 3 σ 2).getD 1 0 ≠ -2 := by
  have hb : bell σ 1 = (Real.exp (7 / 4))⁻¹ := by
    rw [bell, hσ, ← Real.exp_neg]
    norm_num
  have hlo : 11 / 4 ≤ Real.exp (7 / 4) := by linarith [Real.add_one_le_exp (7 / 4 : ℝ)]
  have hhi : Real.exp (7 / 4) < 13 / 2 := by
    refine lt_of_pow_lt_pow_left₀ 4 (by norm_num) ?_
    have e : Real.exp (7 / 4) ^ 4 = Real.exp 1 ^ 7 := by
      rw [← Real.exp_nat_mul, ← Real.exp_nat_mul]
      norm_num
    rw [e]
    calc Real.exp 1 ^ 7 < 2.7182818286 ^ 7 := pow_lt_pow_left₀ Real.exp_one_lt_d9 (Real.exp_pos 1).le (by norm_num)
      _ < _ := by norm_num
  have hp := Real.exp_pos (7 / 4 : ℝ)
  have h1 : bell σ 1 ≤ 4 / 11 := by
    rw [hb]
    exact (inv_anti₀ (by norm_num) hlo).trans (by norm_num)
  have h2 : 2 / 13 < bell σ 1 := by
    rw [hb, lt_inv_comm₀ (by norm_num) hp]
    linarith
  have e7 : 1 / σ ^ 2 = 7 / 2 := by rw [hσ]; norm_num
  have hpos : 0 < 1 + 2 * bell σ 1 := by linarith
  rw [gaussWeights_three, e7]
  refine ⟨?_, ?_⟩
  · have hc : 1 ≤ ((7 / 2 : ℝ) ^ 2 - 7 / 2) * bell σ 1 / (1 + 2 * bell σ 1) ∧ ((7 / 2 : ℝ) ^ 2 - 7 / 2) * bell σ 1 / (1 + 2 * bell σ 1) < 2 := by
      rw [le_div_iff₀ hpos, div_lt_iff₀ hpos]
      constructor <;> linarith
    have hm : -3 < -(7 / 2 : ℝ) / (1 + 2 * bell σ 1) ∧ -(7 / 2 : ℝ) / (1 + 2 * bell σ 1) ≤ -2 := by
      rw [lt_div_iff₀ hpos, div_le_iff₀ hpos]
      constructor <;> linarith
    rw [usedKernel, if_neg, if_pos]
    · exact ⟨hc, hm, hc⟩
    · rintro ⟨⟨-, h⟩, -⟩
      linarith [hc.1]
  · show -(7 / 2 : ℝ) / (1 + 2 * bell σ 1) ≠ -2
    intro h
    rw [div_eq_iff hpos.ne'] at h
    linarith

variable {E : Type} [NormedAddCommGroup E] [NormedSpace ℝ E] {n : WithTop ℕ∞} {e0 : E} {S : List Nat} {x : E → Tensor ℝ}
  {m ek : Nat} {size : Given Nat} {sigma : E → Given ℝ} {es : E → ℝ} {eks : Option Nat} {esi : E → Option ℝ} {gp : PadArgs ℝ} {ps : EdgePadders ℝ} {ax : Axes} {axes : List Nat}

/-- the kernels of `GaussianGrad` as functions of the sigmas -/
theorem grad_weights (hg : ∀ e, (sigma e).Fits m) (hnz : ∀ e, ∀ s ∈ (sigma e).values, s ≠ 0) (hes : ∀ e, es e ≠ 0) (normalize : Bool) (order : Nat)
    (hkeep : ek ≠ 3 ∨ order = 1 ∨ ∀ e, usedKernel (gaussWeights ek (es e) order) = gaussWeights ek (es e) order) {N : Nat}
    (hσ : ∀ i < N, ContDiffAt ℝ n (fun e => (sigma e).entry 1 i) e0) (hsm : ContDiffAt ℝ n es e0) (hm : ∀ e, (size.isMany || (sigma e).isMany) = true → N = m) :
    Weights (fun f => ContDiffAt ℝ n f e0) 1 (.one (some 1)) (fun _ => ek) (fun e => PoolArgs.filter (.one (usedKernel (gaussWeights ek (es e) order)))) ∧
      Weights (fun f => ContDiffAt ℝ n f e0) N (.one (some 1)) (fun i => size.entry 0 i) fun e => PoolArgs.filter (gradKernels normalize m size (sigma e)) := by
  have hused : ∀ e, usedKernel (gaussWeights ek (es e) order) = gaussWeights ek (es e) order := by
    intro e
    rcases hkeep with h3 | rfl | h3
    · exact usedKernel_of_length (by rw [gaussWeights_length]; exact h3)
    · exact C164_kept ek (es e)
    · exact h3 e
  have hent : ∀ e, ∀ i < N, (gradKernels normalize m size (sigma e)).entry [] i = gaussWeights (size.entry 0 i) ((sigma e).entry 1 i) 0 :=
    fun e i hi => gradKernels_entry (hg e) (hnz e) fun hh => hm e hh ▸ hi
  refine ⟨?_, ?_⟩
  · simp only [hused]
    exact ⟨fun _ => rfl, fun e i _ => gaussWeights_length .., fun i _ j hj => gaussWeights_smooth hsm hes ek order hj⟩
  · refine ⟨fun _ => rfl, fun e i hi => ?_, fun i hi j hj => ?_⟩
    · show ((gradKernels normalize m size (sigma e)).entry [] i).length = _
      rw [hent e i hi, gaussWeights_length]
    · show ContDiffAt ℝ n (fun e => ((gradKernels normalize m size (sigma e)).entry [] i).getD j 0) e0
      have hz : ∀ e, (sigma e).entry 1 i ≠ 0 := fun e => hnz e _ (entry_mem (hg e) 1 fun hh => hm e (by simp [hh]) ▸ hi)
      simp only [hent _ i hi]
      exact gaussWeights_smooth (hσ i hi) hz _ 0 hj

/-- **C164** for `GaussianGrad`: with any sizes of the kernels, any order, with and without `normalize`, and with the size and the sigma of the edge kernel given or taken over, the components are `n` times
continuously differentiable functions of the image and of the sigmas at once, unless the edge kernel has three weights, is not of order one, and is replaced. -/
theorem C164_components (hm0 : 0 < m) (hs : size.Fits m) (hg : ∀ e, (sigma e).Fits m) (hnz : ∀ e, ∀ s ∈ (sigma e).values, s ≠ 0) (hes : ∀ e, es e ≠ 0) (normalize : Bool) (order : Nat)
    (hek : eks = some ek ∨ (eks = none ∧ size = .one ek)) (hesi : ∀ e, esi e = some (es e) ∨ (esi e = none ∧ sigma e = .one (es e)))
    (hkeep : ek ≠ 3 ∨ order = 1 ∨ ∀ e, usedKernel (gaussWeights ek (es e) order) = gaussWeights ek (es e) order)
    (hσ : ∀ i < axes.length - 1, ContDiffAt ℝ n (fun e => (sigma e).entry 1 i) e0) (hsm : ContDiffAt ℝ n es e0) (hps : HoldsBoth ps gp) (hx : SmoothAt n e0 S x)
    (h : ∀ e, EdgeSetup (gradKernels normalize m size (sigma e)) gp (x e) ax axes) (hl : (gp.entry 0).Affine)
    (hm : ∀ e, (size.isMany || (sigma e).isMany) = true → axes.length - 1 = m) :
    ∃ f : E → EdgeFilter ℝ, (∀ e, EdgeFilter.gaussianGrad (size.toPy pyNat) ((sigma e).toPy Py.leaf) (eks.map fun n : Nat => (n : Int)) (esi e) normalize order = .ok (f e)) ∧
      ∀ junk, ∃ cs : Nat → E → Tensor ℝ, (∀ e, ((f e).allComponents ps junk (x e) ax).2 = .ok (axes.map fun k => cs k e)) ∧ ∀ k ∈ axes, SmoothAt n e0 S (cs k) := by
  choose f h1 h2 using fun e => gaussianGrad_built hm0 hs (hg e) (hnz e) ek (hes e) normalize order eks (esi e) hek (hesi e)
  obtain ⟨hw, hgw⟩ := grad_weights (n := n) (e0 := e0) (size := size) hg hnz hes normalize order hkeep hσ hsm hm
  exact ⟨f, h1, fun junk => C163_components (g := fun e => gradKernels normalize m size (sigma e)) h2 hps hx h hl (fun e hh => hm e (by rwa [gradKernels_isMany] at hh)) hw hgw junk⟩

/-- **C164** for the magnitude: with `p = 1`, with an even `p` and `epsilon > 0`, and otherwise where the sum under the root is positive -/
theorem C164_magnitude (hm0 : 0 < m) (hs : size.Fits m) (hg : ∀ e, (sigma e).Fits m) (hnz : ∀ e, ∀ s ∈ (sigma e).values, s ≠ 0) (hes : ∀ e, es e ≠ 0) (normalize : Bool) (order : Nat)
    (hek : eks = some ek ∨ (eks = none ∧ size = .one ek)) (hesi : ∀ e, esi e = some (es e) ∨ (esi e = none ∧ sigma e = .one (es e)))
    (hkeep : ek ≠ 3 ∨ order = 1 ∨ ∀ e, usedKernel (gaussWeights ek (es e) order) = gaussWeights ek (es e) order)
    (hσ : ∀ i < axes.length - 1, ContDiffAt ℝ n (fun e => (sigma e).entry 1 i) e0) (hsm : ContDiffAt ℝ n es e0) (hps : HoldsBoth ps gp) (hx : SmoothAt n e0 S x)
    (h : ∀ e, EdgeSetup (gradKernels normalize m size (sigma e)) gp (x e) ax axes) (hl : (gp.entry 0).Affine)
    (hm : ∀ e, (size.isMany || (sigma e).isMany) = true → axes.length - 1 = m)
    {epsilon : ℝ} {p : Nat} (hp : p ≠ 0) (hact : p ≠ 1 ∨ ek ≠ 0) :
    ∃ f : E → EdgeFilter ℝ, (∀ e, EdgeFilter.gaussianGrad (size.toPy pyNat) ((sigma e).toPy Py.leaf) (eks.map fun n : Nat => (n : Int)) (esi e) normalize order = .ok (f e)) ∧
      ∀ junk, (p = 1 ∨ p % 2 = 0 ∧ 0 < epsilon ∨ ∀ cs, ((f e0).allComponents ps junk (x e0) ax).2 = .ok cs → ∀ ix, InB S ix → 0 < (cs.map fun c => c.get ix ^ p).sum + epsilon) →
        ∃ z : E → Tensor ℝ, (∀ e, ((f e).magnitude (nthRoot p) ps junk (x e) ax epsilon p).2 = .ok (z e)) ∧ SmoothAt n e0 S z := by
  choose f h1 h2 using fun e => gaussianGrad_built hm0 hs (hg e) (hnz e) ek (hes e) normalize order eks (esi e) hek (hesi e)
  obtain ⟨hw, hgw⟩ := grad_weights (n := n) (e0 := e0) (size := size) hg hnz hes normalize order hkeep hσ hsm hm
  refine ⟨f, h1, fun junk hpos => C163_magnitude (g := fun e => gradKernels normalize m size (sigma e)) h2 hps hx h hl (fun e hh => hm e (by rwa [gradKernels_isMany] at hh)) hw hgw hp (fun e => ?_) junk hpos⟩
  refine hact.imp_right fun h0 => .inl fun hnil => h0 ?_
  rw [← gaussWeights_length ek (es e) order, hnil]
  rfl

/-- **C164** for `LaplacianOfGaussian` with kernels of a size other than three and one sigma: its result is an `n` times continuously differentiable function of the image and of sigma (edges.py:232-233,
`forward`, is `magnitude` with `epsilon = 0` and `p = 1`). -/
theorem C164_laplacian_of_gaussian {k : Nat} (h3 : k ≠ 3) (h0 : k ≠ 0) (hes : ∀ e, es e ≠ 0) (hsm : ContDiffAt ℝ n es e0) (hps : HoldsBoth ps gp) (hx : SmoothAt n e0 S x)
    (h : ∀ e, EdgeSetup (gradKernels true 1 (.one k) (.one (es e))) gp (x e) ax axes) (hl : (gp.entry 0).Affine) :
    ∃ f : E → EdgeFilter ℝ, (∀ e, EdgeFilter.laplacianOfGaussian (.leaf k) (.leaf (es e)) = .ok (f e)) ∧
      ∀ junk, ∃ z : E → Tensor ℝ, (∀ e, ((f e).magnitude (nthRoot 1) ps junk (x e) ax 0 1).2 = .ok (z e)) ∧ SmoothAt n e0 S z := by
  obtain ⟨f, h1, h2⟩ := C164_magnitude (m := 1) (size := .one k) (sigma := fun e => .one (es e)) (eks := none) (esi := fun _ => none) Nat.one_pos trivial (fun _ => trivial)
    (fun e s hs => by simp only [Given.values, List.mem_singleton] at hs; rw [hs]; exact hes e) hes true 2 (.inr ⟨rfl, rfl⟩) (fun _ => .inr ⟨rfl, rfl⟩) (.inl h3) (fun i _ => hsm) hsm hps hx h hl
    (fun _ => by intro h; cases h) (epsilon := 0) (p := 1) (by decide) (.inr h0)
  exact ⟨f, h1, fun junk => h2 junk (.inl rfl)⟩

/-! ### examples -/

/-- a sigma for which `(1, -2, 1)` is used -/
example := C164_replaced (σ := √(2 / 7)) (Real.sq_sqrt (by norm_num))

/-- `GaussianGrad(3, s² + 1)` of order one, of images that depend on `s` too -/
example {ps : EdgePadders ℝ} (hps : HoldsBoth ps reflectArgs) {d : Tensor ℝ} (hd : d.shape = [1, 3, 4, 6]) :=
  C164_components (n := (↑(⊤ : ℕ∞))) (e0 := (5 : ℝ)) (m := 1) (size := .one 3) (sigma := fun s : ℝ => .one (s ^ 2 + 1)) (es := fun s : ℝ => s ^ 2 + 1) (eks := none) (esi := fun _ => none)
    Nat.one_pos trivial (fun _ => trivial) (fun e s hs => by simp only [Given.values, List.mem_singleton] at hs; rw [hs]; positivity) (fun e => by positivity) true 1 (.inr ⟨rfl, rfl⟩)
    (fun _ => .inr ⟨rfl, rfl⟩) (.inr (.inl rfl)) (fun i _ => (contDiffAt_id.pow 2).add contDiffAt_const) ((contDiffAt_id.pow 2).add contDiffAt_const) hps (multiples_smooth hd)
    (fun _ => reflect_setup gradKernels_isMany hd (by decide) (by decide)) reflect_linear.affine (fun _ => by intro h; cases h)

/-- `LaplacianOfGaussian(5, s² + 1)` -/
example {ps : EdgePadders ℝ} (hps : HoldsBoth ps reflectArgs) {d : Tensor ℝ} (hd : d.shape = [1, 3, 4, 6]) :=
  C164_laplacian_of_gaussian (n := (↑(⊤ : ℕ∞))) (e0 := (5 : ℝ)) (es := fun s : ℝ => s ^ 2 + 1) (k := 5) (by decide) (by decide) (fun e => by positivity)
    ((contDiffAt_id.pow 2).add contDiffAt_const) hps (multiples_smooth hd) (fun _ => reflect_setup gradKernels_isMany hd (by decide) (by decide)) reflect_linear.affine

/-- the magnitude with `p = 2` and `epsilon = 1/100` of `GaussianGrad(3, s² + 1)` -/
example {ps : EdgePadders ℝ} (hps : HoldsBoth ps reflectArgs) {d : Tensor ℝ} (hd : d.shape = [1, 3, 4, 6]) :=
  C164_magnitude (n := (↑(⊤ : ℕ∞))) (e0 := (5 : ℝ)) (m := 1) (size := .one 3) (sigma := fun s : ℝ => .one (s ^ 2 + 1)) (es := fun s : ℝ => s ^ 2 + 1) (eks := none) (esi := fun _ => none)
    Nat.one_pos trivial (fun _ => trivial) (fun e s hs => by simp only [Given.values, List.mem_singleton] at hs; rw [hs]; positivity) (fun e => by positivity) true 1 (.inr ⟨rfl, rfl⟩)
    (fun _ => .inr ⟨rfl, rfl⟩) (.inr (.inl rfl)) (fun i _ => (contDiffAt_id.pow 2).add contDiffAt_const) ((contDiffAt_id.pow 2).add contDiffAt_const) hps (multiples_smooth hd)
    (fun _ => reflect_setup gradKernels_isMany hd (by decide) (by decide)) reflect_linear.affine (fun _ => by intro h; cases h) (epsilon := 1 / 100) (p := 2) (by decide) (.inl (by decide))

end TI
