import Verif.Props.SmoothEdges
import Verif.Props.SmoothWeights
import Verif.Props.Kernels

/-!
# Edge filters as functions of their weights (C163)
-/

set_option linter.unusedSectionVars false

namespace TI
open Tensor Spec

section
variable {E : Type} {R : (E → ℝ) → Prop} {S : List Nat} {x : E → Tensor ℝ} {w : E → List ℝ} {g : E → Given (List ℝ)} {gp : PadArgs ℝ} {ax : Axes} {axes : List Nat} {Kw Kg : Nat → Nat}

/-- edge responses, as functions of the image, of the edge kernel and of the smoothing kernels -/
theorem Spec.Weights.response (hR : Arithmetic R) (hx : Family R S x) (e0 : E) (h : ∀ e, EdgeSetup (g e) gp (x e) ax axes) (hl : (gp.entry 0).Affine)
    (hw : Weights R 1 (.one (some 1)) Kw fun e => PoolArgs.filter (.one (w e))) (hg : Weights R (axes.length - 1) (.one (some 1)) Kg fun e => PoolArgs.filter (g e)) {k : Nat} (hk : k ∈ axes) :
    Family R S fun e => edgeResponse (w e) (g e) gp (x e) axes k := by
  have hl' : ∀ i, (gp.entry i).Affine := fun i => by
    rw [entry_uniform (h e0).uniform i]
    exact hl
  obtain ⟨T, hT⟩ := Weights.same (axes := [k]) hR hw hx e0 (fun e => ((h e).edgeCall (w e) hk).edge) fun i _ => hl' i
  have hT' : Family R T fun e => filtered (.one (w e)) gp (x e) [k] := hT
  have hlen := filter_ne_length (h e0).nodup hk
  obtain ⟨U, hU⟩ := Weights.same (axes := axes.filter fun b => b ≠ k) hR (by rw [hlen]; exact hg) hT' e0 (fun e => ((h e).edgeCall (w e) hk).smooth) fun i _ => hl' i
  have hU' : Family R U fun e => edgeResponse (w e) (g e) gp (x e) axes k := hU
  have e : U = S := (hU'.shape e0).symm.trans (((h e0).response_shape (w e0) hk).trans (hx.shape e0))
  exact e ▸ hU'

end

variable {E : Type} [NormedAddCommGroup E] [NormedSpace ℝ E] {n : WithTop ℕ∞} {e0 : E} {S : List Nat} {x : E → Tensor ℝ}
  {f : E → EdgeFilter ℝ} {w : E → List ℝ} {g : E → Given (List ℝ)} {m : Nat} {gp : PadArgs ℝ} {ps : EdgePadders ℝ} {ax : Axes} {axes : List Nat} {Kw Kg : Nat → Nat}

/-- **C163.** The components of an edge filter are `n` times continuously differentiable functions of the image, of the edge kernel and of the smoothing kernels at once, as long as the edge kernel that is
used is such a function (`usedKernel`: kernels near `(-1, 0, 1)` and `(1, -2, 1)` are replaced by these). -/
theorem C163_components (hf : ∀ e, EdgeBuilt (f e) (w e) (g e) m) (hps : HoldsBoth ps gp) (hx : SmoothAt n e0 S x) (h : ∀ e, EdgeSetup (g e) gp (x e) ax axes) (hl : (gp.entry 0).Affine)
    (hm : ∀ e, (g e).isMany = true → axes.length - 1 = m) (hw : Weights (fun f => ContDiffAt ℝ n f e0) 1 (.one (some 1)) Kw fun e => PoolArgs.filter (.one (usedKernel (w e))))
    (hg : Weights (fun f => ContDiffAt ℝ n f e0) (axes.length - 1) (.one (some 1)) Kg fun e => PoolArgs.filter (g e)) (junk : List Nat → ℝ) :
    ∃ cs : Nat → E → Tensor ℝ, (∀ e, ((f e).allComponents ps junk (x e) ax).2 = .ok (axes.map fun k => cs k e)) ∧ ∀ k ∈ axes, SmoothAt n e0 S (cs k) := by
  refine ⟨fun k e => edgeResponse (usedKernel (w e)) (g e) gp (x e) axes k, fun e => ?_, fun k hk => Weights.response arithmetic_contDiffAt hx e0 h hl hw hg hk⟩
  obtain ⟨ps', e', -⟩ := C75_components (hf e) hps (h e) (hm e) junk
  rw [e']

/-- **C163** for the magnitude: with `p = 1`, with an even `p` and `epsilon > 0`, and otherwise where the sum under the root is positive -/
theorem C163_magnitude (hf : ∀ e, EdgeBuilt (f e) (w e) (g e) m) (hps : HoldsBoth ps gp) (hx : SmoothAt n e0 S x) (h : ∀ e, EdgeSetup (g e) gp (x e) ax axes) (hl : (gp.entry 0).Affine)
    (hm : ∀ e, (g e).isMany = true → axes.length - 1 = m) (hw : Weights (fun f => ContDiffAt ℝ n f e0) 1 (.one (some 1)) Kw fun e => PoolArgs.filter (.one (usedKernel (w e))))
    (hg : Weights (fun f => ContDiffAt ℝ n f e0) (axes.length - 1) (.one (some 1)) Kg fun e => PoolArgs.filter (g e)) {epsilon : ℝ} {p : Nat} (hp : p ≠ 0)
    (hact : ∀ e, Acts (w e) (g e) axes.length p) (junk : List Nat → ℝ)
    (hpos : p = 1 ∨ p % 2 = 0 ∧ 0 < epsilon ∨ ∀ cs, ((f e0).allComponents ps junk (x e0) ax).2 = .ok cs → ∀ ix, InB S ix → 0 < (cs.map fun c => c.get ix ^ p).sum + epsilon) :
    ∃ z : E → Tensor ℝ, (∀ e, ((f e).magnitude (nthRoot p) ps junk (x e) ax epsilon p).2 = .ok (z e)) ∧ SmoothAt n e0 S z := by
  obtain ⟨cs, hcs, hsm⟩ := C163_components hf hps hx h hl hm hw hg junk
  have hrun : ∀ e, ∃ z, ((f e).magnitude (nthRoot p) ps junk (x e) ax epsilon p).2 = .ok z ∧ z.shape = S ∧ ∀ ix, InB S ix →
      z.get ix = if p = 1 then (axes.map fun k => (cs k e).get ix).sum + epsilon else nthRoot p ((axes.map fun k => (cs k e).get ix ^ p).sum + epsilon) := by
    intro e
    obtain ⟨ps', z, cs', e1, e2, e3, e4⟩ := C75_magnitude (hf e) hps (h e) (hm e) (nthRoot p) epsilon hp (hact e) junk
    have := hcs e
    rw [e2, Except.ok.injEq] at this
    subst this
    rw [hx.shape e] at e3 e4
    refine ⟨z, by rw [e1], e3, fun ix hix => ?_⟩
    have := e4 ix hix
    simpa only [List.map_map, Function.comp_def] using this
  choose z hz hzs hzg using hrun
  refine ⟨z, hz, hzs, fun ix hix => ?_⟩
  simp only [hzg _ ix hix]
  by_cases h1 : p = 1
  · simp only [h1, if_true]
    exact arithmetic_contDiffAt.add (arithmetic_contDiffAt.sum fun k hk => (hsm k hk).entry ix hix) (arithmetic_contDiffAt.const epsilon)
  · simp only [h1, if_false]
    have hs : ContDiffAt ℝ n (fun e => (axes.map fun k => (cs k e).get ix ^ p).sum + epsilon) e0 :=
      arithmetic_contDiffAt.add (arithmetic_contDiffAt.sum (u := fun k e => (cs k e).get ix ^ p) fun k hk => ((hsm k hk).entry ix hix).pow p) (arithmetic_contDiffAt.const epsilon)
    refine hs.rpow_const_of_ne (ne_of_gt ?_)
    rcases hpos with h2 | ⟨h2, h3⟩ | h2
    · exact absurd h2 h1
    · refine add_pos_of_nonneg_of_pos (List.sum_nonneg fun v hv => ?_) h3
      obtain ⟨k, -, rfl⟩ := List.mem_map.1 hv
      exact (Nat.even_iff.2 h2).pow_nonneg _
    · have := h2 _ (hcs e0) ix hix
      simpa only [List.map_map, Function.comp_def] using this

theorem map_eq_lincomb (d : Tensor ℝ) (t : ℝ) : (d.map fun v => t * v) = lincomb t d 0 d := by
  rw [lincomb]
  conv_lhs => rw [eq_ofFn_get d, map_ofFn]
  apply ofFn_congr
  intro q _
  simp

theorem edgeResponse_multiple {g : Given (List ℝ)} {x : Tensor ℝ} (h : EdgeSetup g gp x ax axes) (hlin : (gp.entry 0).Linear) {v : List ℝ} (hv : v ≠ []) (s : ℝ) {k : Nat} (hk : k ∈ axes) :
    edgeResponse (v.map (s * ·)) g gp x axes k = (edgeResponse v g gp x axes k).map (s * ·) := by
  have hq : Multiples (fun _ => s) [k].length (PoolArgs.filter (.one v)) (PoolArgs.filter (.one (v.map (s * ·)))) := ⟨rfl, fun _ _ => hv, fun _ _ => rfl⟩
  have hc := h.edgeCall v hk
  have hl' : ∀ i, (gp.entry i).Linear := fun i => by
    rw [entry_uniform h.uniform i]
    exact hlin
  have e1 : filtered (.one (v.map (s * ·))) gp x [k] = (filtered (.one v) gp x [k]).map (s * ·) := by
    rw [filtered, filtered, ← hq.sizes.sameOps_eq]
    have := hq.poolSeq (axes := [k]) (l := List.range [k].length) (fun j hj => List.mem_range.1 hj) hc.edge.poolOps.fitting
    have hr : List.range [k].length = [0] := rfl
    rw [hr] at this
    simpa [PoolArgs.ops] using this
  rw [edgeResponse, edgeResponse, e1, map_eq_lincomb, filtered_lincomb hc.smooth (fun i _ => hl' i) rfl, ← map_eq_lincomb]

/-- **C163**: the replacement of kernels makes the components jump.  For the kernel `(-s, 0, s)` the components are those of `(-1, 0, 1)` while `1 ≤ s < 2`, and `s` times these from `s = 2` on. -/
theorem C163_jump {f : ℝ → EdgeFilter ℝ} {g : Given (List ℝ)} {x : Tensor ℝ} (hf : ∀ s, EdgeBuilt (f s) [-s, 0, s] g m) (hps : HoldsBoth ps gp) (h : EdgeSetup g gp x ax axes)
    (hm : g.isMany = true → axes.length - 1 = m) (hlin : (gp.entry 0).Linear) (junk : List Nat → ℝ) :
    ∃ c : Nat → Tensor ℝ, (∀ k ∈ axes, (c k).shape = x.shape) ∧ (∀ s, 1 ≤ s → s < 2 → ((f s).allComponents ps junk x ax).2 = .ok (axes.map c)) ∧
      ∀ s, 2 ≤ s → ((f s).allComponents ps junk x ax).2 = .ok (axes.map fun k => (c k).map (s * ·)) := by
  have hrun : ∀ s, _ := fun s => C75_components (hf s) hps h hm junk
  refine ⟨edgeResponse [-1, 0, 1] g gp x axes, fun k hk => h.response_shape _ hk, fun s h1 h2 => ?_, fun s h2 => ?_⟩
  · obtain ⟨ps', e, -⟩ := hrun s
    rw [e, usedKernel, if_pos]
    exact ⟨⟨by linarith, by linarith⟩, ⟨by norm_num, by norm_num⟩, h1, h2⟩
  · obtain ⟨ps', e, -⟩ := hrun s
    rw [e, usedKernel, if_neg, if_neg]
    · refine congrArg Except.ok (List.map_congr_left fun k hk => ?_)
      have := edgeResponse_multiple h hlin (v := [-1, 0, 1]) (by simp) s hk
      simpa using this
    · rintro ⟨-, ⟨-, h3⟩, -⟩
      linarith
    · rintro ⟨⟨h3, -⟩, -, -, h4⟩
      linarith

/-! ### examples -/

/-- the kernel `(-(s² + 2), 0, s² + 2)` is not replaced -/
theorem EdgeWeightsExample.used (s : ℝ) : usedKernel [-(s ^ 2 + 2), 0, s ^ 2 + 2] = [-(s ^ 2 + 2), 0, s ^ 2 + 2] := by
  rw [usedKernel, if_neg, if_neg]
  · rintro ⟨⟨h3, -⟩, -⟩
    nlinarith [sq_nonneg s]
  · rintro ⟨⟨h3, -⟩, -⟩
    nlinarith [sq_nonneg s]

/-- its weights are smooth functions of `s` -/
theorem EdgeWeightsExample.weights : Weights (fun f : ℝ → ℝ => ContDiffAt ℝ (↑(⊤ : ℕ∞)) f 5) 1 (.one (some 1)) (fun _ => 3)
    fun s => PoolArgs.filter (.one (usedKernel [-(s ^ 2 + 2), 0, s ^ 2 + 2])) := by
  simp only [EdgeWeightsExample.used]
  refine ⟨fun _ => rfl, fun _ _ _ => rfl, fun i _ j hj => ?_⟩
  have h : ContDiffAt ℝ (↑(⊤ : ℕ∞)) (fun s : ℝ => s ^ 2 + 2) 5 := (contDiffAt_id.pow 2).add contDiffAt_const
  rcases j with _ | _ | _ | j
  · exact h.neg
  · exact contDiffAt_const
  · exact h
  · omega

/-- and so are those of the smoothing kernel `(1, s, 1)` -/
theorem EdgeWeightsExample.smoothing : Weights (fun f : ℝ → ℝ => ContDiffAt ℝ (↑(⊤ : ℕ∞)) f 5) ([2, 3].length - 1) (.one (some 1)) (fun _ => 3) fun s => PoolArgs.filter (.one [1, s, 1]) := by
  refine ⟨fun _ => rfl, fun _ _ _ => rfl, fun i _ j hj => ?_⟩
  rcases j with _ | _ | _ | j
  · exact contDiffAt_const
  · exact contDiffAt_id
  · exact contDiffAt_const
  · omega

section
variable {f : ℝ → EdgeFilter ℝ} {ps : EdgePadders ℝ} (hps : HoldsBoth ps reflectArgs) {d : Tensor ℝ} (hd : d.shape = [1, 3, 4, 6]) (j : List Nat → ℝ)

/-- an edge filter whose weights depend on `s`, of images that do so too -/
example (hb : ∀ s, EdgeBuilt (f s) [-(s ^ 2 + 2), 0, s ^ 2 + 2] (.one [1, s, 1]) 1) := C163_components (n := (↑(⊤ : ℕ∞))) (e0 := (5 : ℝ)) hb hps (multiples_smooth hd)
  (fun _ => reflect_setup rfl hd (by decide) (by decide)) reflect_linear.affine (fun _ => by intro h; cases h) EdgeWeightsExample.weights EdgeWeightsExample.smoothing j
example (hb : ∀ s, EdgeBuilt (f s) [-(s ^ 2 + 2), 0, s ^ 2 + 2] (.one [1, s, 1]) 1) := C163_magnitude (n := (↑(⊤ : ℕ∞))) (e0 := (5 : ℝ)) (p := 2) (epsilon := 1 / 100) hb hps (multiples_smooth hd)
  (fun _ => reflect_setup rfl hd (by decide) (by decide)) reflect_linear.affine (fun _ => by intro h; cases h) EdgeWeightsExample.weights EdgeWeightsExample.smoothing (by decide)
  (fun _ => .inl (by decide)) j (.inr (.inl ⟨rfl, by norm_num⟩))

/-- multiples of Sobel's filter: at `s = 3/2` the components are those at `s = 1`, at `s = 2` they are twice these -/
example (hb : ∀ s, EdgeBuilt (f s) [-s, 0, s] (.one [1, 2, 1]) 1) : ∃ c : Nat → Tensor ℝ, ((f (3 / 2)).allComponents ps j d (.seq [2, 3])).2 = .ok [c 2, c 3] ∧
    ((f 2).allComponents ps j d (.seq [2, 3])).2 = .ok [(c 2).map (2 * ·), (c 3).map (2 * ·)] := by
  obtain ⟨c, -, h1, h2⟩ := C163_jump hb hps (reflect_setup rfl hd (by decide) (by decide)) (by intro h; cases h) reflect_linear j
  exact ⟨c, h1 _ (by norm_num) (by norm_num), h2 _ le_rfl⟩

end

end TI
