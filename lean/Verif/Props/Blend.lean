import Verif.Proofs.Blend
import Verif.Props.EdgeChange
import Verif.Props.SharpenSym

/-!
# Blends of images (C157)
-/

set_option linter.unusedSectionVars false

namespace TI
open Tensor Spec

variable {α : Type} [Field α] [LinearOrder α] [IsStrictOrderedRing α] {x y : Tensor α} {a b : α} {gp : PadArgs α} {ax : Axes} {axes : List Nat} {p : Padder α} {m : Nat}

/-- **C157.** The pooled blend of two images, with weights that sum to one, is the blend of the pooled images, for all paddings whose border values are affine functions of the samples; these
include constants and ramps with any values. -/
theorem C157_pool {pool : SepPool α} {q : PoolArgs α} (hab : a + b = 1) (hb : Built pool q m) (hc : SameCall q gp x ax axes) (hm : q.isMany = true → axes.length = m) (hp : Holds p gp)
    (hl : ∀ i < axes.length, (gp.entry i).Affine) (hs : y.shape = x.shape) (junk : List Nat → α) :
    ∃ u v, (pool.forward (some p) junk x ax).2 = .ok u ∧ (pool.forward (some p) junk y ax).2 = .ok v ∧ (pool.forward (some p) junk (lincomb a x b y) ax).2 = .ok (lincomb a u b v) := by
  have hcy := hc.congr hs
  have hcl : SameCall q gp (lincomb a x b y) ax axes := hc.congr rfl
  refine ⟨_, _, by rw [hb.poolIs.1.forward_same hc hm hp junk], by rw [hb.poolIs.1.forward_same hcy hm hp junk], ?_⟩
  rw [hb.poolIs.1.forward_same hcl hm hp junk]
  simp only [Except.ok.injEq]
  rw [show (lincomb a x b y).shape = x.shape from rfl, hs]
  exact same_blend hab hc hl hs

/-- **C157** for sharpening without a threshold -/
theorem C157_sharpen [FloorRing α] {pool : SepPool α} {g : PoolArgs α} {amount threshold : α} {u : UnsharpMask α} (hab : a + b = 1) (hb : Built pool g m) (hu : UnsharpMask.init pool amount threshold = .ok u)
    (ht : threshold ≤ 0) (h : SharpenCall g.kernel m gp x ax axes) (hp : Holds p gp) (hl : ∀ i < axes.length, (gp.entry i).Affine) (hs : y.shape = x.shape) (junk : List Nat → α) :
    ∃ z w, (u.forward (some p) junk x ax).2 = .ok z ∧ (u.forward (some p) junk y ax).2 = .ok w ∧ (u.forward (some p) junk (lincomb a x b y) ax).2 = .ok (lincomb a z b w) := by
  obtain ⟨_, e1⟩ := unsharp_form hb hu h hp junk
  obtain ⟨_, e2⟩ := unsharp_form hb hu (h.congr hs) hp junk
  obtain ⟨_, e3⟩ := unsharp_form hb hu (h.congr (y := lincomb a x b y) rfl) hp junk
  refine ⟨_, _, by rw [e1], by rw [e2], ?_⟩
  rw [e3]
  refine congrArg Except.ok (ext_get rfl fun ix hix => ?_)
  have hix : InB x.shape ix := hix
  have hf := filtered_same_shape h
  rw [lincomb_get (show InB (sharpenedImage amount threshold g.kernel gp x axes).shape ix from hix), sharpenedImage, get_ofFn (show InB (lincomb a x b y).shape ix from hix), sharpenedImage,
    get_ofFn hix, sharpenedImage, get_ofFn (show InB y.shape ix by rw [hs]; exact hix), filtered_blend hab h.call hl hs, lincomb_get hix, lincomb_get (by rw [hf]; exact hix),
    C45_threshold_nonpos _ ht, C45_threshold_nonpos _ ht, C45_threshold_nonpos _ ht]
  ring

/-- **C157** for the components of an edge filter -/
theorem C157_edges [FloorRing α] {f : EdgeFilter α} {w : List α} {g : Given (List α)} {ps : EdgePadders α} (hab : a + b = 1) (hf : EdgeBuilt f w g m) (hps : HoldsBoth ps gp)
    (h : EdgeSetup g gp x ax axes) (hm : g.isMany = true → axes.length - 1 = m) (hl : (gp.entry 0).Affine) (hs : y.shape = x.shape) (junk : List Nat → α) :
    ∃ cs ds, (f.allComponents ps junk x ax).2 = .ok cs ∧ (f.allComponents ps junk y ax).2 = .ok ds ∧
      (f.allComponents ps junk (lincomb a x b y) ax).2 = .ok (List.zipWith (fun c d => lincomb a c b d) cs ds) := by
  obtain ⟨p1, e1, -⟩ := C75_components hf hps h hm junk
  obtain ⟨p2, e2, -⟩ := C75_components hf hps (h.congr hs) hm junk
  obtain ⟨p3, e3, -⟩ := C75_components hf hps (h.congr (x' := lincomb a x b y) rfl) hm junk
  refine ⟨_, _, by rw [e1], by rw [e2], ?_⟩
  rw [e3, List.zipWith_map_left, List.zipWith_map_right, List.zipWith_self]
  refine congrArg Except.ok (List.map_congr_left fun k hk => ?_)
  exact edgeResponse_blend hab h hl hs hk

/-! ### examples -/

namespace BlendExample

/-- constants three before and minus two after the samples -/
def frame : PadArgs ℚ := ⟨.one (0, 0), .one .constant, .one (3, -2), .one (0, 0), .one (none, none)⟩

theorem frame_call {g : PoolArgs ℚ} (hk : g = Example.triArgs) : SameCall g frame Example.x (.seq [-1, 0]) [1, 0] where
  axes_eq := by decide
  ne := by decide
  nodup := by decide
  fits := by subst hk; intro h; cases h
  rest := ⟨trivial, trivial, trivial, trivial⟩
  stride := by subst hk; intro i _; exact Nat.one_pos
  pos := by decide
  valued := by
    intro o ho _
    obtain ⟨i, _, rfl⟩ := sameOps_mem ho
    exact ⟨by simp [sameSetting, AxisPad.rule?, frame, Given.entry], by simp [sameSetting, frame, Given.entry]⟩

/-- the pooled image, or nothing -/
def result (mode : Mode ℚ) (cv : ℚ × ℚ) (x : Tensor ℚ) : Option (Tensor ℚ) :=
  (Example.tri.forward (some (PadArgs.padder ⟨.one (0, 0), .one mode, .one cv, .one (0, 0), .one (none, none)⟩ 1)) (fun _ => 0) x .none).2.toOption

/-- three samples -/
def up : Tensor ℚ := ⟨[3], [0, 1, 2], rfl⟩

/-- in reverse -/
def down : Tensor ℚ := ⟨[3], [2, 1, 0], rfl⟩

end BlendExample

open BlendExample in
/-- C157: blends of the image with any other one, in a frame of constants -/
example (y : Tensor ℚ) (hs : y.shape = Example.x.shape) (junk : List Nat → ℚ) :=
  C157_pool (a := 3 / 4) (b := 1 / 4) (by norm_num) Example.tri_built (frame_call rfl) (by intro h; cases h) (holds_padder frame 1) (fun _ _ => trivial) hs junk

open BlendExample in
/-- **C157**: weights that do not sum to one do not do in a frame of constants, and a padding with the maximum does not commute with blending either. -/
theorem C157_differ :
    (∃ u v, result .constant (3, 3) up = some u ∧ result .constant (3, 3) (lincomb 2 up 0 up) = some v ∧ v ≠ lincomb 2 u 0 u) ∧
    (∃ u v w, result (.stat .maximum) (0, 0) up = some u ∧ result (.stat .maximum) (0, 0) down = some v ∧ result (.stat .maximum) (0, 0) (lincomb (1 / 2) up (1 / 2) down) = some w ∧
      w ≠ lincomb (1 / 2) u (1 / 2) v) := by
  refine ⟨⟨⟨[3], [4, 3, 6], rfl⟩, ⟨[3], [5, 6, 9], rfl⟩, by decide +kernel, by decide +kernel, by decide +kernel⟩,
    ⟨[3], [3, 3, 5], rfl⟩, ⟨[3], [5, 3, 3], rfl⟩, ⟨[3], [3, 3, 3], rfl⟩, by decide +kernel, by decide +kernel, by decide +kernel, by decide +kernel⟩

end TI
