import Verif.Spec.Ssim
import Mathlib.Analysis.SpecialFunctions.Pow.Real

/-!
# Multi-scale structural similarity
-/

namespace TI.Spec

section
variable {α : Type} [Field α]

/-- averages of pairs of neighbours along every axis in `axes`; the last one of an odd number of samples is left out -/
def halved (axes : List Nat) (x : Tensor α) : Tensor α := poolSeq x ((⟨.one [1 / 2, 1 / 2], .one (some 2)⟩ : PoolArgs α).ops axes)

/-- the image after halving it `n` times -/
def atLevel (axes : List Nat) : Nat → Tensor α → Tensor α
  | 0, x => x
  | n + 1, x => atLevel axes n (halved axes x)

/-- a shape with the axes in `axes` of size one -/
def onesAt (axes shape : List Nat) : List Nat := (List.range shape.length).map fun k => if k ∈ axes then 1 else shape.getD k 0

/-- means over the axes in `axes`, which are kept with size one -/
def meanKept (x : Tensor α) (axes : List Nat) : Tensor α :=
  Tensor.ofFn (onesAt axes x.shape) fun jx => mean ((collected x.shape axes (onKept axes jx)).map x.get)

variable [LinearOrder α]

/-- the blur that the scores see: windows inside the image if the border is cropped -/
def scoreBlur (g : Given (List α)) (gp : Option (PadArgs α)) (crop : Bool) (axes : List Nat) : Tensor α → Tensor α :=
  if crop then valid g axes else blurred g gp axes

/-- the score of one level: the mean over `axes` of the SSIM map at the last level, of the map without comparison of the means before -/
def levelScore (k1 k2 f : α) (b : Tensor α → Tensor α) (axes : List Nat) (last : Bool) (y1 y2 : Tensor α) : Tensor α :=
  meanKept (if last then ssimMap k1 k2 f b y1 y2 else csMap k2 f b y1 y2) axes

/-- What is assumed of a call with `L` levels: distinct existing axes, kernels for all of them, images large enough for `L` levels, and
either no padder, or padding settings for every axis in modes that define values, not `periodize` if the border is cropped. -/
structure MsCall (g : Given (List α)) (gp : Option (PadArgs α)) (crop : Bool) (L : Nat) (x : Tensor α) (ax : Axes) (axes : List Nat)
    (p : Option (Padder α)) : Prop where
  axes_eq : axesOf x.ndim ax = some axes
  ne : axes ≠ []
  nodup : axes.Nodup
  fits : g.Fits axes.length
  kernel : ∀ i < axes.length, g.entry [] i ≠ []
  large : ∀ i < axes.length, (g.entry [] i).length * 2 ^ L < 2 * x.shape.getD (axes.getD i 0) 0
  padder : match gp with
    | none => p = none
    | some gp => (∃ p0, p = some p0 ∧ Holds p0 gp) ∧ gp.FitsRest axes.length ∧ ∀ i < axes.length,
      (gp.entry i).rule? ≠ none ∧ (gp.entry i).mode ≠ .zeros ∧ (crop = true → (gp.entry i).mode.isPeriodize = false)

end

/-- factor or summand of one level, for the product or the sum of the levels -/
noncomputable def msTerm (useProd : Bool) (eps w v : ℝ) : ℝ := if useProd then (max v eps) ^ w else v * w

/-- product or sum over the levels -/
noncomputable def msTotal (useProd : Bool) (l : List ℝ) : ℝ := if useProd then l.prod else l.sum

/-- the term of level `i` of `n` -/
noncomputable def msLevel (useProd : Bool) (eps k1 k2 f : ℝ) (b : Tensor ℝ → Tensor ℝ) (axes : List Nat) (ws : List ℝ) (y1 y2 : Tensor ℝ)
    (i : Nat) (jx : List Nat) : ℝ :=
  msTerm useProd eps (ws.getD i 0)
    ((levelScore k1 k2 f b axes (decide (i + 1 = ws.length)) (atLevel axes i y1) (atLevel axes i y2)).get jx)

/-- the scores before the last reduction -/
noncomputable def msMap (useProd : Bool) (eps k1 k2 f : ℝ) (b : Tensor ℝ → Tensor ℝ) (axes : List Nat) (ws : List ℝ) (y1 y2 : Tensor ℝ) :
    Tensor ℝ :=
  Tensor.ofFn (onesAt axes y1.shape) fun jx =>
    msTotal useProd ((List.range ws.length).map fun i => msLevel useProd eps k1 k2 f b axes ws y1 y2 i jx)

end TI.Spec
