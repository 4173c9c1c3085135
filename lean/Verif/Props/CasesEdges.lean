import Verif.Props.EdgeLoss
import Verif.Props.InteriorEdges

/-!
# Concrete cases: edge filters

Theorems of `Props/Edges.lean`, `Props/EdgesGauss.lean`, `Props/EdgeLoss.lean` and `Props/InteriorEdges.lean` applied to calls on images of
shape (2, 6, 9) along their last two axes, and to pairs of images of shape (1, 3, 4, 6).
-/

set_option linter.unusedVariables false

namespace TI.EdgeCase
open Spec Tensor

/-- `Padder(mode="symmetric")` -/
def mirror : PadArgs ℚ := ⟨.one (0, 0), .one .symmetric, .one (0, 0), .one (0, 0), .one (none, none)⟩

/-- `Padder(mode="odd_reflect")` -/
def odd : PadArgs ℚ := { mirror with mode := .one .oddReflect }

section
variable {x : Tensor ℚ} (hx : x.shape = [2, 6, 9])
include hx

theorem setup {gp : PadArgs ℚ} (hu : gp.Uniform) (hv : ∀ s : AxisPad ℚ, s.mode = gp.mode.entry .unknown 0 → s.rule? ≠ none ∧ s.mode ≠ .zeros)
    (hp : (gp.mode.entry .unknown 0).isPeriodize = false) {g : Given (List ℚ)} (hg : g.isMany = false) :
    EdgeSetup g gp x (.seq [-2, -1]) [1, 2] where
  axes_eq := by rw [ndim, hx]; rfl
  two := by decide
  nodup := by decide
  fits := by intro h; rw [hg] at h; cases h
  pos := by rw [hx]; decide
  uniform := hu
  valued := hv
  keep := Or.inl hp

theorem setupMirror {g : Given (List ℚ)} (hg : g.isMany = false) : EdgeSetup g mirror x (.seq [-2, -1]) [1, 2] :=
  setup hx ⟨rfl, rfl, rfl, rfl⟩ (by intro s e; simp [e, AxisPad.rule?, mirror, Given.entry]) rfl hg

theorem setupOdd {g : Given (List ℚ)} (hg : g.isMany = false) : EdgeSetup g odd x (.seq [-2, -1]) [1, 2] :=
  setup hx ⟨rfl, rfl, rfl, rfl⟩ (by intro s e; simp [e, AxisPad.rule?, odd, mirror, Given.entry]) rfl hg

end

theorem holds (gp : PadArgs ℚ) : HoldsBoth (.shared (some (gp.padder 1))) gp := ⟨_, _, rfl, rfl, holds_padder _ 1, holds_padder _ 1⟩

/-- an image that rises by 2 along axis 1 and falls by 1 along axis 2 -/
def ramp : Tensor ℚ := Tensor.ofFn [2, 6, 9] fun ix => 7 + rise (fun k => if k = 1 then 2 else if k = 2 then -1 else 0) ix

theorem ramp_affine : Affine 7 (fun k => if k = 1 then 2 else if k = 2 then -1 else 0) ramp := fun _ h => get_ofFn h

section
variable {f : EdgeFilter ℚ} (hb : EdgeBuilt f [-1, 0, 1] (.one [1 / 4, 1 / 2, 1 / 4]) 1) {f' : EdgeFilter ℚ} (hb' : EdgeBuilt f' [-1, 3, 0, 1 / 2] (.one [1, 1]) 1)
  {x : Tensor ℚ} (hx : x.shape = [2, 6, 9]) (j : List Nat → ℚ)

/-! C40 -/
example := C40_fast_path_partial hb (Or.inl rfl) (.shared none) j (x := x) (a := 2) (by rw [ndim, hx]; decide)
  (by
    intro y hy
    have e : checkAxes x.ndim (.int 2) = .ok [2] := by rw [ndim, hx]; rfl
    have : y = x := by simpa [SepPool.pad, EdgePadders.edge, e] using hy.symm
    subst this
    rw [hx]
    decide)
example := C40_fast_path_valid hb (Or.inl rfl) (x := x) (a := 2) (by rw [ndim, hx]; decide) (by rw [hx]; decide) j
example := C40_short_axis hb (Or.inl rfl) (x := x) (a := 0) (by rw [ndim, hx]; decide) (by rw [hx]; decide) j

/-! C41 -/
example := C41_kernel_used hb' (holds mirror) ((setupMirror hx (g := .one []) rfl).edgeSame _ (a := 2) (by decide)) j
example := C41_kernel_applied_partial hb (fun _ => rfl) (by intro h; exfalso; revert h; unfold TakenForSecond; decide +kernel) (holds mirror)
  ((setupMirror hx (g := .one []) rfl).edgeSame _ (a := 2) (by decide)) j
example := C41_other_lengths hb' (by decide) (holds mirror) ((setupMirror hx (g := .one []) rfl).edgeSame _ (a := 2) (by decide)) j

/-! C42 -/
example (hc : Constant 5 x) := C42_components hb (by decide) (by decide +kernel) (holds mirror) (setupMirror hx rfl) (by intro h; cases h) trivial hc j
example (hc : Constant 5 x) := C42_magnitude hb (by decide) (by decide +kernel) (holds mirror) (setupMirror hx rfl) (by intro h; cases h) trivial hc
  (root := id) rfl (p := 2) (by decide) j

/-! C75 -/
example := C75_components hb' (holds mirror) (setupMirror hx rfl) (by intro h; cases h) j
example (h : EdgeSetup (.one [1, 1]) mirror x (.seq [-2, -1]) [x.ndim - 2, x.ndim - 1]) :=
  C75_horizontal_vertical hb' (holds mirror) (by rw [ndim, hx]; decide) h (by intro h; cases h) j
example : EdgeSetup (.one [1, 1]) mirror x (.seq [-2, -1]) [x.ndim - 2, x.ndim - 1] := by
  rw [ndim, hx]
  exact setupMirror hx rfl
example := C75_one_axis (x := x) (ax := .int 1) (axes := [1]) (by rw [ndim, hx]; rfl) (by decide) f (.shared none) id 0 2 j

/-! C76: the weights 3/2 and 1/2 do not sum to zero -/
example {f : EdgeFilter ℚ} (hb : EdgeBuilt f [3 / 2, 1 / 2] (.one [1 / 4, 1 / 2, 1 / 4]) 1) (hc : Constant 5 x) := C76_constant_response hb (by decide) (by intro v hv _; simp [Given.values] at hv; subst hv; norm_num) (holds mirror) (setupMirror hx rfl)
  (by intro h; cases h) trivial hc j

/-! C99 -/
example := C99_components hb (by decide) (by decide +kernel) (holds mirror) (setupMirror (x := ramp) rfl rfl) (by intro h; cases h) ramp_affine j
example := C99_magnitude hb (by decide) (by decide +kernel) (holds mirror) (setupMirror (x := ramp) rfl rfl) (by intro h; cases h) ramp_affine id 0 (p := 2) (by decide) j
example := C99_straight hb (by decide) (by decide +kernel) (holds odd) (setupOdd (x := ramp) rfl rfl) (by intro h; cases h) (Or.inr rfl) (by decide) ramp_affine j
example := C99_gain hb (by decide) (by decide) (by decide +kernel) (holds mirror) (setupMirror (x := ramp) rfl rfl) ramp_affine j
end

/-! C85, C86 -/

section
variable {f : EdgeFilter ℝ} (hb : EdgeBuilt f [-1, 0, 1] (.one [1 / 4, 1 / 2, 1 / 4]) 1) {ps : EdgePadders ℝ} (hps : HoldsBoth ps reflectArgs)
  {p q t : Tensor ℝ} (hp : p.shape = [1, 3, 4, 6]) (hq : q.shape = [1, 3, 4, 6]) (ht : t.shape = [1, 3, 4, 6]) (j : List Nat → ℝ)
include hp ht

theorem images {g : Given (List ℝ)} (hg : g.isMany = false) : EdgeImages g 1 3 4 6 p t := ⟨hp, ht, by decide, by decide, hg⟩

example := C85_edge_loss hb hps (images hp ht rfl) j
example := C85_weighted_mul hb hps (images hp ht rfl) j
example := C85_weighted_sum hb hps (images hp ht rfl) j
example := C85_zero_iff hb hps (images hp ht rfl) j
example := C85_triangle hb hps (images hp hq rfl) (images hq ht rfl) j
end

end TI.EdgeCase
