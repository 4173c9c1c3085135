import Mathlib.Analysis.Calculus.Deriv.Abs
import Verif.Proofs.Smooth
import Verif.Proofs.Blend
import Verif.Props.EdgeChange

/-!
# Where edge filters and losses on edges are differentiable (C153)
-/

set_option linter.unusedSectionVars false

namespace TI
open Tensor Spec

variable {E : Type} [NormedAddCommGroup E] [NormedSpace ℝ E] {n : WithTop ℕ∞} {e0 : E} {S : List Nat} {x : E → Tensor ℝ}
  {f : EdgeFilter ℝ} {w : List ℝ} {g : Given (List ℝ)} {m : Nat} {gp : PadArgs ℝ} {ps : EdgePadders ℝ} {ax : Axes} {axes : List Nat}

theorem response_family {E : Type} {R : (E → ℝ) → Prop} {x : E → Tensor ℝ} (hR : Arithmetic R) (hx : Family R S x) {u : Tensor ℝ} (h : EdgeSetup g gp u ax axes) (hu : u.shape = S)
    (hl : (gp.entry 0).Affine) (w : List ℝ) {k : Nat} (hk : k ∈ axes) : Family R S fun e => edgeResponse w g gp (x e) axes k :=
  hx.affine hR (b := fun y => edgeResponse w g gp y axes k) (fun v hv => ((h.congr (hv.trans hu.symm)).response_shape w hk).trans hv) fun _ _ v y hab hv hy =>
    edgeResponse_blend hab (h.congr (hv.trans hu.symm)) hl (hy.trans hv.symm) hk

/-- **C153.** The components of an edge filter, of images that depend smoothly on a parameter, do so too. -/
theorem C153_components (hf : EdgeBuilt f w g m) (hps : HoldsBoth ps gp) (hx : SmoothAt n e0 S x) (h : EdgeSetup g gp (x e0) ax axes) (hl : (gp.entry 0).Affine)
    (hm : g.isMany = true → axes.length - 1 = m) (junk : List Nat → ℝ) :
    ∃ cs : Nat → E → Tensor ℝ, (∀ e, (f.allComponents ps junk (x e) ax).2 = .ok (axes.map fun k => cs k e)) ∧ ∀ k ∈ axes, SmoothAt n e0 S (cs k) := by
  refine ⟨fun k e => edgeResponse (usedKernel w) g gp (x e) axes k, fun e => ?_, fun k hk =>
    response_family arithmetic_contDiffAt hx h (hx.shape e0) hl (usedKernel w) hk⟩
  obtain ⟨ps', e', -⟩ := C75_components hf hps (h.congr ((hx.shape e).trans (hx.shape e0).symm)) hm junk
  rw [e']

/-- the `p`-th root -/
noncomputable def Spec.nthRoot (p : Nat) (v : ℝ) : ℝ := v ^ (1 / (p : ℝ))

/-- **C153**: the magnitude, for `p = 1`, does so too; for `p ≥ 2` it does at parameters where the sum under the root is positive, which
it is for `epsilon > 0` and an even `p`. -/
theorem C153_magnitude (hf : EdgeBuilt f w g m) (hps : HoldsBoth ps gp) (hx : SmoothAt n e0 S x) (h : EdgeSetup g gp (x e0) ax axes) (hl : (gp.entry 0).Affine)
    (hm : g.isMany = true → axes.length - 1 = m) {epsilon : ℝ} {p : Nat} (hp : p ≠ 0) (hact : Acts w g axes.length p) (junk : List Nat → ℝ)
    (hpos : p = 1 ∨ p % 2 = 0 ∧ 0 < epsilon ∨ ∀ cs, (f.allComponents ps junk (x e0) ax).2 = .ok cs → ∀ ix, InB S ix → 0 < (cs.map fun c => c.get ix ^ p).sum + epsilon) :
    ∃ z : E → Tensor ℝ, (∀ e, (f.magnitude (nthRoot p) ps junk (x e) ax epsilon p).2 = .ok (z e)) ∧ SmoothAt n e0 S z := by
  obtain ⟨cs, hcs, hsm⟩ := C153_components hf hps hx h hl hm junk
  have hrun : ∀ e, ∃ z, (f.magnitude (nthRoot p) ps junk (x e) ax epsilon p).2 = .ok z ∧ z.shape = S ∧ ∀ ix, InB S ix →
      z.get ix = if p = 1 then (axes.map fun k => (cs k e).get ix).sum + epsilon else nthRoot p ((axes.map fun k => (cs k e).get ix ^ p).sum + epsilon) := by
    intro e
    obtain ⟨ps', z, cs', e1, e2, e3, e4⟩ := C75_magnitude hf hps (h.congr ((hx.shape e).trans (hx.shape e0).symm)) hm (nthRoot p) epsilon hp hact junk
    have := hcs e
    rw [e2, Except.ok.injEq] at this
    subst this
    rw [hx.shape e] at e3 e4
    refine ⟨z, by rw [e1], e3, fun ix hix => ?_⟩
    have := e4 ix hix
    simpa only [List.map_map, Function.comp_def] using this
  choose z hz hzs hzg using hrun
  refine ⟨z, hz, hzs, fun ix hix => ?_⟩
  simp only [hzg _ ix hix]
  by_cases h1 : p = 1
  · simp only [h1, if_true]
    exact arithmetic_contDiffAt.add (arithmetic_contDiffAt.sum fun k hk => (hsm k hk).entry ix hix) (arithmetic_contDiffAt.const epsilon)
  · simp only [h1, if_false]
    have hs : ContDiffAt ℝ n (fun e => (axes.map fun k => (cs k e).get ix ^ p).sum + epsilon) e0 :=
      arithmetic_contDiffAt.add (arithmetic_contDiffAt.sum (u := fun k e => (cs k e).get ix ^ p) fun k hk => ((hsm k hk).entry ix hix).pow p) (arithmetic_contDiffAt.const epsilon)
    refine hs.rpow_const_of_ne (ne_of_gt ?_)
    rcases hpos with h2 | ⟨h2, h3⟩ | h2
    · exact absurd h2 h1
    · refine add_pos_of_nonneg_of_pos (List.sum_nonneg fun v hv => ?_) h3
      obtain ⟨k, -, rfl⟩ := List.mem_map.1 hv
      exact (Nat.even_iff.2 h2).pow_nonneg _
    · have := h2 _ (hcs e0) ix hix
      simpa only [List.map_map, Function.comp_def] using this

theorem contDiffAt_abs_of_ne {F : E → ℝ} (hF : ContDiffAt ℝ n F e0) (h0 : F e0 ≠ 0) : ContDiffAt ℝ n (fun e => |F e|) e0 := by
  rcases lt_or_gt_of_ne h0 with h | h
  · refine hF.neg.congr_of_eventuallyEq ?_
    filter_upwards [hF.continuousAt.eventually_lt continuousAt_const h] with e he
    exact abs_of_neg he
  · refine hF.congr_of_eventuallyEq ?_
    filter_upwards [continuousAt_const.eventually_lt hF.continuousAt h] with e he
    exact abs_of_pos he

/-- `|t| * c` has a derivative at 0 only if `c` is 0 -/
theorem differentiable_abs_mul {c : ℝ} {F : ℝ → ℝ} (hF : ∀ t, F t = |t| * c) : DifferentiableAt ℝ F 0 ↔ c = 0 := by
  have e : F = fun t => |t| * c := funext hF
  rw [e]
  constructor
  · intro h
    by_contra hc
    apply not_differentiableAt_abs_zero
    have := h.div_const c
    refine this.congr_of_eventuallyEq (Filter.Eventually.of_forall fun t => ?_)
    show |t| = |t| * c / c
    rw [mul_div_cancel_right₀ _ hc]
  · rintro rfl
    simp

/-- **C153**: the magnitude with `epsilon = 0` and an even `p`, as with the default arguments, has a kink where all components vanish: for the
multiples `t * d` of an image `d`, every entry of the magnitude is `|t|` times that of `d`; it has a derivative at 0 only if the
magnitude of `d` vanishes there.  (In the code the derivative of the root at 0 is infinite and is multiplied by zero, which gives NaN.) -/
theorem C153_magnitude_kink (hf : EdgeBuilt f w g m) (hps : HoldsBoth ps gp) {d : Tensor ℝ} (h : EdgeSetup g gp d ax axes) (hl : (gp.entry 0).Linear)
    (hm : g.isMany = true → axes.length - 1 = m) {p : Nat} (hp : p ≠ 0) (hev : p % 2 = 0) (hact : Acts w g axes.length p) (junk : List Nat → ℝ) :
    ∃ (z : ℝ → Tensor ℝ) (y : Tensor ℝ), (∀ t : ℝ, (f.magnitude (nthRoot p) ps junk (d.map fun v => t * v) ax 0 p).2 = .ok (z t)) ∧
      (f.magnitude (nthRoot p) ps junk d ax 0 p).2 = .ok y ∧ ∀ ix, InB d.shape ix →
        (∀ t, (z t).get ix = |t| * y.get ix) ∧ (DifferentiableAt ℝ (fun t => (z t).get ix) 0 ↔ y.get ix = 0) := by
  have hp1 : p ≠ 1 := by omega
  have hrun : ∀ t : ℝ, ∃ z, (f.magnitude (nthRoot p) ps junk (d.map fun v => t * v) ax 0 p).2 = .ok z ∧ ∀ ix, InB d.shape ix →
      z.get ix = nthRoot p ((axes.map fun k => (t * (edgeResponse (usedKernel w) g gp d axes k).get ix) ^ p).sum) := by
    intro t
    have hs : EdgeSetup g gp (d.map fun v => t * v) ax axes := h.congr rfl
    obtain ⟨ps', z, cs', e1, e2, e3, e4⟩ := C75_magnitude hf hps hs hm (nthRoot p) 0 hp hact junk
    obtain ⟨ps2, e5, -⟩ := C75_components hf hps hs hm junk
    rw [e5] at e2
    have e2 := Except.ok.inj e2
    subst e2
    refine ⟨z, by rw [e1], fun ix hix => ?_⟩
    have := e4 ix hix
    rw [if_neg hp1, add_zero, List.map_map] at this
    rw [this]
    congr 2
    apply List.map_congr_left
    intro k hk
    have el : (d.map fun v => t * v) = lincomb t d 0 d := by
      rw [lincomb]
      conv_lhs => rw [eq_ofFn_get d, map_ofFn]
      apply ofFn_congr
      intro q _
      simp
    simp only [Function.comp_def]
    rw [el, edgeResponse_lincomb h hl rfl hk, lincomb_get (by rw [h.response_shape _ hk]; exact hix), zero_mul, add_zero]
  choose z hz hzg using hrun
  have hone : (d.map fun v => (1 : ℝ) * v) = d := by
    conv_rhs => rw [eq_ofFn_get d]
    conv_lhs => rw [eq_ofFn_get d, map_ofFn]
    apply ofFn_congr
    intro q _
    simp
  refine ⟨z, z 1, hz, by rw [← hz 1, hone], fun ix hix => ?_⟩
  have key : ∀ t, (z t).get ix = |t| * (z 1).get ix := by
    intro t
    rw [hzg t ix hix, hzg 1 ix hix]
    have e : (axes.map fun k => (t * (edgeResponse (usedKernel w) g gp d axes k).get ix) ^ p).sum =
        |t| ^ p * (axes.map fun k => (1 * (edgeResponse (usedKernel w) g gp d axes k).get ix) ^ p).sum := by
      rw [(Nat.even_iff.2 hev).pow_abs, ← List.sum_map_mul_left]
      congr 1
      apply List.map_congr_left
      intro k _
      rw [mul_pow, one_mul]
    have hnn : 0 ≤ (axes.map fun k => (1 * (edgeResponse (usedKernel w) g gp d axes k).get ix) ^ p).sum := List.sum_nonneg fun v hv => by
      obtain ⟨k, -, rfl⟩ := List.mem_map.1 hv
      exact (Nat.even_iff.2 hev).pow_nonneg _
    rw [e, nthRoot, nthRoot, Real.mul_rpow (by positivity) hnn, one_div, Real.pow_rpow_inv_natCast (abs_nonneg t) hp]
  exact ⟨key, differentiable_abs_mul key⟩

/-- **C153**: the plain loss on edges has a kink at equal images: for `t + s * d` against `t` it is `|s|` times the loss of `t + d` against `t`, and has a
derivative at `s = 0` only if that loss vanishes, which is to say that `d` has no edges. -/
theorem C153_loss_kink {n c h v : Nat} (hb : EdgeBuilt f w g m) (hps : HoldsBoth ps reflectArgs) {t d : Tensor ℝ} (hi : EdgeImages g n c h v d t) (junk : List Nat → ℝ) :
    ∃ (l : ℝ → ℝ) (l1 : ℝ), (∀ s, (EdgeLoss.forward f ps junk (lincomb 1 t s d) t).2 = .ok (.scalar (l s))) ∧ (∀ s, l s = |s| * l1) ∧
      (DifferentiableAt ℝ l 0 ↔ l1 = 0) ∧ (l1 = 0 ↔ ∀ a ∈ [2, 3], ∀ ix, InB [n, c, h, v] ix → (edges (usedKernel w) g d a).get ix = 0) := by
  have hi' : ∀ s, EdgeImages g n c h v (lincomb 1 t s d) t := fun s => ⟨hi.true_shape, hi.true_shape, hi.height, hi.width, hi.single⟩
  have hl : ∀ s, _ := fun s => C85_edge_loss hb hps (hi' s) junk
  choose ps' e hh using hl
  have hget : ∀ s : ℝ, ∀ a ∈ [2, 3], ∀ ix, InB [n, c, h, v] ix → (edges (usedKernel w) g (lincomb 1 t s d) a).get ix =
      (edges (usedKernel w) g t a).get ix + s * (edges (usedKernel w) g d a).get ix := by
    intro s a ha ix hix
    rw [edges_lincomb hi.single hi.true_shape hi.height hi.width (hi.pred_shape.trans hi.true_shape.symm) 1 s ha,
      lincomb_get (by rw [edges_shape hi.single hi.true_shape hi.height hi.width ha]; exact hix), one_mul]
  have key : ∀ s : ℝ, (overBoth [n, c, h, v] fun a ix => |(edges (usedKernel w) g (lincomb 1 t s d) a).get ix - (edges (usedKernel w) g t a).get ix|) =
      |s| * overBoth [n, c, h, v] fun a ix => |(edges (usedKernel w) g (lincomb 1 t 1 d) a).get ix - (edges (usedKernel w) g t a).get ix| := by
    intro s
    rw [← overBoth_mul]
    refine overBoth_eq fun a ha ix hix => ?_
    rw [hget s a ha ix hix, hget 1 a ha ix hix, ← abs_mul]
    congr 1
    ring
  refine ⟨_, _, fun s => by rw [e s], key, differentiable_abs_mul key, ?_⟩
  have hz := C85_zero_iff hb hps (hi' 1) junk
  rw [e 1] at hz
  constructor
  · intro h0 a ha ix hix
    have := hz.1 (by rw [h0]) a ha ix hix
    rw [hget 1 a ha ix hix] at this
    linarith
  · intro h0
    have := hz.2 fun a ha ix hix => by rw [hget 1 a ha ix hix, h0 a ha ix hix]; ring
    have h2 := congrArg Tensor.data (Except.ok.inj this)
    simpa only [Tensor.scalar, List.cons.injEq, and_true] using h2

/-- **C153**: elsewhere, at pairs of images no edges of which are equal, the loss depends smoothly on a parameter of the images. -/
theorem C153_loss_smooth {n : WithTop ℕ∞} {N c h v : Nat} {y1 y2 : E → Tensor ℝ} (hb : EdgeBuilt f w g m) (hps : HoldsBoth ps reflectArgs)
    (h1 : SmoothAt n e0 [N, c, h, v] y1) (h2 : SmoothAt n e0 [N, c, h, v] y2) (hi : EdgeImages g N c h v (y1 e0) (y2 e0))
    (hne : ∀ a ∈ [2, 3], ∀ ix, InB [N, c, h, v] ix → (edges (usedKernel w) g (y1 e0) a).get ix ≠ (edges (usedKernel w) g (y2 e0) a).get ix) (junk : List Nat → ℝ) :
    ∃ l : E → ℝ, (∀ e, (EdgeLoss.forward f ps junk (y1 e) (y2 e)).2 = .ok (.scalar (l e))) ∧ ContDiffAt ℝ n l e0 := by
  have hl : ∀ e, _ := fun e => C85_edge_loss hb hps (p := y1 e) (t := y2 e) ⟨h1.shape e, h2.shape e, hi.height, hi.width, hi.single⟩ junk
  choose ps' e hh using hl
  refine ⟨_, fun s => by rw [e s], ?_⟩
  have hent : ∀ a ∈ [2, 3], ∀ ix ∈ indices [N, c, h, v], ContDiffAt ℝ n (fun e => |(edges (usedKernel w) g (y1 e) a).get ix - (edges (usedKernel w) g (y2 e) a).get ix|) e0 := by
    intro a ha ix hix
    have hix := mem_indices.1 hix
    have f1 := (response_family arithmetic_contDiffAt h1 (reflect_setup hi.single hi.pred_shape hi.height hi.width) hi.pred_shape reflect_linear.affine (usedKernel w) ha).entry ix hix
    have f2 := (response_family arithmetic_contDiffAt h2 (reflect_setup hi.single hi.pred_shape hi.height hi.width) hi.pred_shape reflect_linear.affine (usedKernel w) ha).entry ix hix
    exact contDiffAt_abs_of_ne (f1.sub f2) (sub_ne_zero.2 (hne a ha ix hix))
  exact (arithmetic_contDiffAt.add (arithmetic_contDiffAt.mean (hent 2 (by simp))) (arithmetic_contDiffAt.mean (hent 3 (by simp)))).div_const 2

/-! ### examples -/

section
variable {f : EdgeFilter ℝ} {ps : EdgePadders ℝ} (hps : HoldsBoth ps reflectArgs) {t d : Tensor ℝ} (ht : t.shape = [1, 3, 4, 6]) (hd : d.shape = [1, 3, 4, 6]) (j : List Nat → ℝ)

/-- the images `(1 + s) * d` -/
theorem multiples_smooth {s0 : ℝ} (hd : d.shape = S) : SmoothAt n s0 S fun s => d.map fun v => (1 + s) * v where
  shape _ := hd
  entry ix hix := by
    simp only [get_map _ _ (show InB d.shape ix by rw [hd]; exact hix)]
    exact (contDiffAt_const.add contDiffAt_id).mul contDiffAt_const

/-- Sobel's filter -/
example (hb : EdgeBuilt f [-1, 0, 1] (.one [1, 2, 1]) 1) := C153_components (n := (↑(⊤ : ℕ∞))) (e0 := (5 : ℝ)) hb hps (multiples_smooth hd)
  (reflect_setup rfl hd (by decide) (by decide)) reflect_linear.affine (by intro h; cases h) j
example (hb : EdgeBuilt f [-1, 0, 1] (.one [1, 2, 1]) 1) := C153_magnitude (n := (↑(⊤ : ℕ∞))) (e0 := (5 : ℝ)) (p := 2) (epsilon := 1 / 100) hb hps (multiples_smooth hd)
  (reflect_setup rfl hd (by decide) (by decide)) reflect_linear.affine (by intro h; cases h) (by decide) (.inl (by decide)) j (.inr (.inl ⟨rfl, by norm_num⟩))
example (hb : EdgeBuilt f [-1, 0, 1] (.one [1, 2, 1]) 1) := C153_magnitude_kink (p := 2) hb hps
  (reflect_setup rfl hd (by decide) (by decide)) reflect_linear (by intro h; cases h) (by decide) rfl (.inl (by decide)) j
example (hb : EdgeBuilt f [-1, 0, 1] (.one [1, 2, 1]) 1) := C153_loss_kink hb hps ⟨hd, ht, by decide, by decide, rfl⟩ j

theorem five_edges (hb : EdgeBuilt f [0, 5, 0] (.one [1 / 4, 1 / 2, 1 / 4]) 1) (hd : d.shape = [1, 3, 4, 6]) {k : ℝ} (h1 : Constant k d) :
    ∀ a ∈ [2, 3], ∀ ix, InB [1, 3, 4, 6] ix → (edges (usedKernel [0, 5, 0]) (.one [1 / 4, 1 / 2, 1 / 4]) d a).get ix = 5 * k := by
  intro a ha ix hix
  rw [edges_constant hb (by simp) (by simp [Given.values]; norm_num) rfl hd (by decide) (by decide) h1 ha hix, usedKernel, if_neg, if_neg]
  · norm_num
  · simp only [TakenForSecond]; norm_num
  · simp only [TakenForFirst]; norm_num

/-- a kernel that sees constants: the loss of an image and a brighter one has no derivative where they agree, -/
example (hb : EdgeBuilt f [0, 5, 0] (.one [1 / 4, 1 / 2, 1 / 4]) 1) (h1 : Constant 1 d) :
    ∃ l : ℝ → ℝ, (∀ s, (EdgeLoss.forward f ps j (lincomb 1 t s d) t).2 = .ok (.scalar (l s))) ∧ ¬ DifferentiableAt ℝ l 0 := by
  obtain ⟨l, l1, e1, -, e2, e3⟩ := C153_loss_kink hb hps (t := t) (d := d) ⟨hd, ht, by decide, by decide, rfl⟩ j
  refine ⟨l, e1, fun h => ?_⟩
  have := e3.1 (e2.1 h) 2 (by decide) [0, 0, 0, 0] (by decide)
  rw [five_edges hb hd h1 2 (by decide) _ (by decide)] at this
  norm_num at this

/-- and is smooth elsewhere -/
example (hb : EdgeBuilt f [0, 5, 0] (.one [1 / 4, 1 / 2, 1 / 4]) 1) (h1 : Constant 1 d) :
    ∃ l : ℝ → ℝ, (∀ s, (EdgeLoss.forward f ps j (d.map fun v => (1 + s) * v) d).2 = .ok (.scalar (l s))) ∧ ContDiffAt ℝ (↑(⊤ : ℕ∞)) l 2 := by
  have h3 : Constant 3 (d.map fun v => (1 + 2) * v) := fun ix hix => by
    rw [get_map _ _ (show InB d.shape ix from hix), h1 ix hix]
    norm_num
  refine C153_loss_smooth hb hps (multiples_smooth hd) ⟨fun _ => hd, fun _ _ => contDiffAt_const⟩ ⟨hd, hd, by decide, by decide, rfl⟩ (fun a ha ix hix => ?_) j
  rw [five_edges hb (d := d.map fun v => (1 + 2) * v) hd h3 a ha ix hix, five_edges hb hd h1 a ha ix hix]
  norm_num

end

end TI
