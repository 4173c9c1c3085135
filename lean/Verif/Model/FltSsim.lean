import Verif.Model.Flt

/-!
# SSIM of images with entries that are not finite

The same code as in `Model/Metrics.lean` for the floating-point numbers of `Model/Flt.lean`, with their simplifications: finite numbers are exact, and there is one zero, so that
the sign of a quotient by zero is that of the numerator.
-/

namespace TI

section
variable {α : Type} [Field α] [LinearOrder α]

/-- IEEE 754 division -/
instance : Div (Flt α) where
  div
    | .num a, .num b => if b = 0 then (if a = 0 then .nan else .inf (decide (a < 0))) else .num (a / b)
    | .nan, _ => .nan
    | _, .nan => .nan
    | .inf _, .inf _ => .nan
    | .inf s, .num b => .inf (s != decide (b < 0))
    | .num _, .inf _ => .num 0

/-- `x.mean(dim=axes)`, cf. `Tensor.meanDims`; the mean of no entries is NaN -/
def meanDimsFlt (x : Tensor (Flt α)) (dims : List Int) (keepdim : Bool) : Except Err (Tensor (Flt α)) :=
  x.reduce (fun l => if l = [] then .nan else l.sum * .num (1 / (l.length : α))) dims keepdim

namespace SSIM

/-- `self.blur.forward(x, axes=axes)` (a blur that does not exclude padded samples from its counts) -/
def blurFlt (s : SSIM α) (junk : List Nat → Flt α) (x : Tensor (Flt α)) (axes : List Int) : Run α (Tensor (Flt α)) := fun p =>
  s.pool.forwardFlt p junk x (.seq axes)

/-- ssim.py:75-97 `_scale_factor`; for a window of a single sample numpy returns infinity -/
def scaleFactorFlt (s : SSIM α) (axes : List Int) : Except Err (Flt α) :=
  if s.sampleCov then do
    let n ← s.nPixels axes
    .ok (if n = 1 then .inf false else .num ((n : α) / ((n : α) - 1)))
  else .ok (.num 1)

/-- the six results of `_mu_sigma` -/
structure MomentsFlt (α : Type) where
  mu1Sq : Tensor (Flt α)
  mu2Sq : Tensor (Flt α)
  mu12 : Tensor (Flt α)
  sigma1Sq : Tensor (Flt α)
  sigma2Sq : Tensor (Flt α)
  sigma12 : Tensor (Flt α)

/-- ssim.py:99-117 `_mu_sigma`, cf. `SSIM.muSigma` -/
def muSigmaFlt (s : SSIM α) (junk : List Nat → Flt α) (y1 y2 : Tensor (Flt α)) (axes : List Int) : Run α (MomentsFlt α) := do
  let mu1 ← s.blurFlt junk y1 axes
  let mu2 ← s.blurFlt junk y2 axes
  let mu1Sq := mu1.map fun v => v * v
  let mu2Sq := mu2.map fun v => v * v
  let mu12 ← Run.lift (Tensor.bop (· * ·) mu1 mu2)
  let b1 ← s.blurFlt junk (← Run.lift (Tensor.bop (· * ·) y1 y1)) axes
  let sigma1 ← Run.lift (Tensor.bop (· - ·) b1 mu1Sq)
  let b2 ← s.blurFlt junk (← Run.lift (Tensor.bop (· * ·) y2 y2)) axes
  let sigma2 ← Run.lift (Tensor.bop (· - ·) b2 mu2Sq)
  let b12 ← s.blurFlt junk (← Run.lift (Tensor.bop (· * ·) y1 y2)) axes
  let sigma12 ← Run.lift (Tensor.bop (· - ·) b12 mu12)
  let c ← Run.lift (s.scaleFactorFlt axes)
  let scale := fun (t : Tensor (Flt α)) => if c ≠ .num 1 then t.map fun v => v * c else t
  pure ⟨mu1Sq, mu2Sq, mu12, scale sigma1, scale sigma2, scale sigma12⟩

/-- `2 * a + c` -/
def twicePlusFlt (a : Tensor (Flt α)) (c : α) : Tensor (Flt α) := a.map fun v => 2 * v + .num c

/-- `a + b + c` for tensors `a`, `b` and a number `c` -/
def addPlusFlt (a b : Tensor (Flt α)) (c : α) : Except Err (Tensor (Flt α)) := do
  let t ← Tensor.bop (· + ·) a b
  .ok (t.map fun v => v + .num c)

/-- ssim.py:122-124, cf. `SSIM.combine` -/
def combineFlt (s : SSIM α) (m : MomentsFlt α) : Except Err (Tensor (Flt α)) := do
  let c1 := s.k1 ^ 2
  let c2 := s.k2 ^ 2
  let num ← Tensor.bop (· * ·) (twicePlusFlt m.mu12 c1) (twicePlusFlt m.sigma12 c2)
  let den ← Tensor.bop (· * ·) (← addPlusFlt m.mu1Sq m.mu2Sq c1) (← addPlusFlt m.sigma1Sq m.sigma2Sq c2)
  Tensor.bop (· / ·) num den

/-- ssim.py:119-124 `_ssim_full` -/
def ssimFullFlt (s : SSIM α) (junk : List Nat → Flt α) (y1 y2 : Tensor (Flt α)) (axes : List Int) : Run α (Tensor (Flt α)) := do
  let m ← s.muSigmaFlt junk y1 y2 axes
  Run.lift (s.combineFlt m)

/-- ssim.py:126-135 `_crop_border`, cf. `SSIM.cropBorder` -/
def cropBorderFlt (s : SSIM α) (full : Tensor (Flt α)) (axes : List Int) : Run α (Tensor (Flt α)) := do
  let p ← Run.padder
  match p with
  | none => pure full
  | some p =>
    if s.crop then do
      let idx ← Run.lift (cropIdx p.padWidth full.shape 0 axes (List.replicate full.ndim .full))
      pure (full.getSlice idx)
    else pure full

/-- ssim.py:140-186 `forward` with `full=True`, cf. `SSIM.forward` -/
def forwardFlt (s : SSIM α) (junk : List Nat → Flt α) (yPred yTrue : Tensor (Flt α)) (contentAxes reduceAxes : Axes) :
    Run α (Tensor (Flt α) × Tensor (Flt α)) := do
  if yPred.shape ≠ yTrue.shape then Run.lift (.error .assertion)
  else
    let axes ← Run.lift (checkAxes yPred.ndim contentAxes)
    let reduceAxes ← Run.lift (checkAxes yPred.ndim reduceAxes)
    let full ← s.ssimFullFlt junk yPred yTrue axes
    let cropped ← s.cropBorderFlt full axes
    let score ← Run.lift (meanDimsFlt cropped reduceAxes false)
    pure (score, full)

end SSIM

end

end TI
