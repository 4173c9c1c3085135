import Verif.Proofs.Border
import Verif.Props.EdgeChange

/-!
# Edges at reflected borders (C115)
-/

set_option linter.unusedSectionVars false

namespace TI
open Tensor Spec

section
variable {α : Type} [Field α] [LinearOrder α] [IsStrictOrderedRing α] [FloorRing α] {x : Tensor α} {ax : Axes} {axes : List Nat} {f : EdgeFilter α}
  {w : List α} {g : Given (List α)} {m : Nat} {ps : EdgePadders α} {gp : PadArgs α}

/-- **C115**: if the samples are reflected at the borders and the edge kernel changes its sign when it is read backwards (or they are reflected
through the border samples and the kernel reads the same backwards and has sum zero), the component along an axis is zero on the first and on
the last sample of that axis, for every image. -/
theorem C115_border (hf : EdgeBuilt f w g m) (hps : HoldsBoth ps gp) (h : EdgeSetup g gp x ax axes) (hm : g.isMany = true → axes.length - 1 = m)
    (hw : CancelsAtBorder (gp.mode.entry .unknown 0) (usedKernel w)) (junk : List Nat → α) :
    ∃ ps' cs, f.allComponents ps junk x ax = (ps', .ok cs) ∧ cs.length = axes.length ∧ ∀ i < axes.length, ∀ ix, InB x.shape ix →
      AtBorder x.shape (axes.getD i 0) ix → (cs.getD i (.scalar 0)).get ix = 0 := by
  obtain ⟨ps', e, -⟩ := C75_components hf hps h hm junk
  refine ⟨ps', _, e, by simp, fun i hi ix hix hb => ?_⟩
  have : (axes.map (edgeResponse (usedKernel w) g gp x axes)).getD i (.scalar 0) = edgeResponse (usedKernel w) g gp x axes (axes.getD i 0) := by
    rw [List.getD_eq_getElem _ _ (by simpa using hi), List.getElem_map, List.getD_eq_getElem _ _ hi]
  rw [this]
  exact edgeResponse_border h (getD_mem_lt hi) hw hix hb

/-- **C115**: the magnitude is that of no edge where all axes are at a border, in particular in the corners of a picture. -/
theorem C115_corner (hf : EdgeBuilt f w g m) (hps : HoldsBoth ps gp) (h : EdgeSetup g gp x ax axes) (hm : g.isMany = true → axes.length - 1 = m)
    (hw : CancelsAtBorder (gp.mode.entry .unknown 0) (usedKernel w)) (root : α → α) (epsilon : α) {p : Nat} (hp : p ≠ 0) (hact : Acts w g axes.length p) (junk : List Nat → α) :
    ∃ ps' z, f.magnitude root ps junk x ax epsilon p = (ps', .ok z) ∧ ∀ ix, InB x.shape ix → (∀ a ∈ axes, AtBorder x.shape a ix) →
      z.get ix = if p = 1 then epsilon else root epsilon := by
  obtain ⟨ps', e⟩ := magnitude_form hf hps h hm root epsilon hp hact junk
  refine ⟨ps', _, e, fun ix hix hb => ?_⟩
  have h0 : (powerSum x.shape p (edgeResponse (usedKernel w) g gp x axes) axes).get ix = 0 := by
    rw [powerSum, get_ofFn hix]
    apply List.sum_eq_zero
    intro v hv
    obtain ⟨a, ha, rfl⟩ := List.mem_map.1 hv
    rw [edgeResponse_border h ha hw hix (hb a ha)]
    exact zero_pow hp
  rw [get_map _ _ (show InB (powerSum x.shape p _ axes).shape ix from hix), h0, zero_add]

/-- **C115**: the built-in kernels: central differences (Prewitt, Sobel, Scharr) and Farid change their sign, so `reflect` cancels them;
the second difference cancels with `odd_reflect`. -/
theorem C115_kernels : CancelsAtBorder (α := α) .reflect (usedKernel [-1, 0, 1]) ∧ CancelsAtBorder (α := α) .reflect (usedKernel EdgeFilter.faridEdge) ∧
    CancelsAtBorder (α := α) .oddReflect (usedKernel [1, -2, 1]) := by
  refine ⟨.inl ⟨rfl, C111_kernels.1⟩, .inl ⟨rfl, C111_kernels.2.1⟩, .inr ⟨rfl, C111_kernels.2.2.1, ?_⟩⟩
  rw [usedKernel_fast (.inr rfl)]
  simp only [List.sum_cons, List.sum_nil]
  ring

end

/-- **C115**: `WeightedDiv` divides by the edges of the true image, so with a kernel that changes its sign when it is read backwards it is not a
number, for all images that are not empty. -/
theorem C115_weighted_div {f : EdgeFilter ℝ} {w : List ℝ} {g : Given (List ℝ)} {m : Nat} {ps : EdgePadders ℝ} {n c h v : Nat} {p t : Tensor ℝ}
    (hb : EdgeBuilt f w g m) (hps : HoldsBoth ps reflectArgs) (hi : EdgeImages g n c h v p t) (hn : 0 < n) (hc : 0 < c)
    (hw : Parity (-1) (usedKernel w)) (junk : List Nat → ℝ) : (EdgeLoss.weightedDiv f ps junk p t).2 = .ok .bad := by
  have hin : InB [n, c, h, v] [0, 0, 0, 0] := ⟨hn, hc, hi.height, hi.width, trivial⟩
  refine C85_weighted_div_zero hb hps hi (a := 2) (by simp) hin ?_ junk
  rw [edges]
  exact edgeResponse_border (reflect_setup hi.single hi.true_shape hi.height hi.width) (by simp) (.inl ⟨rfl, hw⟩) (by rw [hi.true_shape]; exact hin)
    (.inl rfl)

/-- **C86**, stronger than `C86_constant_truth`: with an odd kernel size and an odd order, `WeightedDiv` is never a number, for all images that are
not empty. -/
theorem C86_odd_order {ks : Nat} (hk : ks % 2 = 1) {sigma : ℝ} (hs : sigma ≠ 0) {order : Nat} (ho : order % 2 = 1) :
    ∃ f ps, EdgeLoss.init (.leaf ks) (.leaf sigma) order = .ok (f, ps) ∧ ∀ {n c h v : Nat}, 0 < n → 0 < c → 0 < h → 0 < v →
    ∀ {p t : Tensor ℝ}, p.shape = [n, c, h, v] → t.shape = [n, c, h, v] → ∀ junk, (EdgeLoss.weightedDiv f ps junk p t).2 = .ok .bad := by
  obtain ⟨f, ps, e, hb, hps, hg⟩ := C85_init ks hs order
  refine ⟨f, ps, e, ?_⟩
  intro n c h v hn hc hh hv p t hp ht junk
  have := parity_used (gaussWeights_parity hs hk order)
  rw [(Nat.odd_iff.2 ho).neg_one_pow] at this
  exact C115_weighted_div hb hps ⟨hp, ht, hh, hv, hg⟩ hn hc this junk

/-! ## examples -/

namespace EdgeCase
open Spec Tensor

section
variable {f : EdgeFilter ℚ} (hb : EdgeBuilt f [-1, 0, 1] (.one [1, 2, 1]) 1) (hb' : EdgeBuilt f [1, -2, 1] (.one [1, 2, 1]) 1) {x : Tensor ℚ}
  (hx : x.shape = [2, 6, 9]) (j : List Nat → ℚ)

/-- `Padder(mode="reflect")` -/
def whole : PadArgs ℚ := { mirror with mode := .one .reflect }

include hx in
theorem setupWhole {g : Given (List ℚ)} (hg : g.isMany = false) : EdgeSetup g whole x (.seq [-2, -1]) [1, 2] :=
  setup hx ⟨rfl, rfl, rfl, rfl⟩ (by intro s e; simp [e, AxisPad.rule?, whole, mirror, Given.entry]) rfl hg

example := C115_border hb (holds whole) (setupWhole hx rfl) (by intro h; cases h) C115_kernels.1 j
example := C115_border hb' (holds odd) (setupOdd hx rfl) (by intro h; cases h) C115_kernels.2.2 j
example := C115_corner hb (holds whole) (setupWhole hx rfl) (by intro h; cases h) C115_kernels.1 id 0 two_ne_zero (Or.inl (by decide)) j

end

section
variable {f : EdgeFilter ℝ} (hb : EdgeBuilt f [-1, 0, 1] (.one [1, 2, 1]) 1) {p t : Tensor ℝ} (hp : p.shape = [1, 3, 4, 6]) (ht : t.shape = [1, 3, 4, 6])
  {ps : EdgePadders ℝ} (hps : HoldsBoth ps reflectArgs) (j : List Nat → ℝ)

example := C115_weighted_div hb hps (images hp ht rfl) Nat.one_pos (by decide) C111_kernels.1 j
example := C86_odd_order (ks := 5) rfl (sigma := 2) two_ne_zero (order := 3) rfl

end

end EdgeCase

open EdgeCase in
/-- **C115**: the conditions are needed: with `symmetric` in place of `reflect`, and with the second difference in place of the first, the border
of a picture that rises by 1, 2, 3 is not zero. -/
theorem C115_conditions :
    let x : Tensor ℚ := Tensor.ofFn [4, 1] fun ix => [0, 1, 3, 6].getD (ix.getD 0 0) 0
    (edgeResponse [-1, 0, 1] (.one []) whole x [0, 1] 0).data = [0, 3, 5, 0] ∧
    (edgeResponse [-1, 0, 1] (.one []) mirror x [0, 1] 0).data = [1, 3, 5, 3] ∧
    (edgeResponse [1, -2, 1] (.one []) whole x [0, 1] 0).data = [2, 1, 1, -6] ∧
    (edgeResponse [1, -2, 1] (.one []) odd x [0, 1] 0).data = [0, 1, 1, 0] := by decide +kernel

end TI
