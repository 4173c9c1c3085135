import Verif.Model.IntImage
import Verif.Model.Metrics

/-!
# torchimage/metrics/ssim.py, `MS_SSIM`, for images of integers

As for `SSIM` (Model/IntImage.lean), the means, squares and covariances are integers of the type of the images, until the constants (or the factor of the sample covariance)
make floating-point numbers of them; the scores are floating-point numbers.
-/

namespace TI

namespace SSIM
variable {α : Type} [Field α] [LinearOrder α] [FloorRing α] (t : IntType)

/-- ssim.py:240-243 `_downsample`, cf. `SSIM.downsample`: the weights 1/2 of `AvgPoolNd` are converted to the type of the image -/
def downsampleWord (α : Type) [Field α] [LinearOrder α] [FloorRing α] (t : IntType) (junk : List Nat → t.Word) (x : Tensor t.Word) (axes : List Int) : Except Err (Tensor t.Word) := do
  let pool ← SepPool.avgInit (α := α) (.leaf (some 2)) (.leaf (some 2))
  (pool.forwardWord t none junk x (.seq axes)).2

/-- ssim.py:249-254 `_cs_full`, cf. `SSIM.csFull` -/
def csFullWord (s : SSIM α) (junk : List Nat → t.Word) (y1 y2 : Tensor t.Word) (axes : List Int) : Run α (Tensor α) := do
  let m ← s.muSigmaWord t junk y1 y2 axes
  let c2 := s.k2 ^ 2
  let den ← Run.lift (m.plus t m.sigma1Sq m.sigma2Sq)
  Run.lift (Tensor.bop (· / ·) ((m.twice t m.sigma12).map fun v => v + c2) (den.map fun v => v + c2))

end SSIM

namespace MsSsim
variable (t : IntType)

/-- ssim.py:281-298, the loop over all weights but the last, cf. `MsSsim.levels` -/
noncomputable def levelsWord (m : MsSsim) (junk : List Nat → t.Word) (axes : List Int) :
    List ℝ → Option (Tensor ℝ) → Tensor t.Word → Tensor t.Word → Run ℝ (Option (Tensor ℝ) × Tensor t.Word × Tensor t.Word)
  | [], acc, y1, y2 => pure (acc, y1, y2)
  | w :: ws, acc, y1, y2 => do
    let cs ← m.base.csFullWord t junk y1 y2 axes
    let cs ← m.base.cropBorder cs axes
    let score ← Run.lift (cs.meanDims axes true)
    let acc ← Run.lift (match acc with
      | none => .ok (m.term w score)
      | some a => m.accumulate (some a) (m.term w score))
    let y1 ← Run.lift (SSIM.downsampleWord ℝ t junk y1 axes)
    let y2 ← Run.lift (SSIM.downsampleWord ℝ t junk y2 axes)
    levelsWord m junk axes ws (some acc) y1 y2

/-- ssim.py:262-314 `forward`, cf. `MsSsim.forward` -/
noncomputable def forwardWord (m : MsSsim) (junk : List Nat → t.Word) (yPred yTrue : Tensor t.Word) (contentAxes reduceAxes : Axes) :
    Run ℝ (Tensor ℝ) := do
  if yPred.shape ≠ yTrue.shape then Run.lift (.error .assertion)
  else
    let axes ← Run.lift (checkAxes yPred.ndim contentAxes)
    let reduceAxes ← Run.lift (checkAxes yPred.ndim reduceAxes)
    Run.lift (m.base.checkLarge m.weights.length yPred.shape 0 axes)
    let (acc, y1, y2) ← m.levelsWord t junk axes m.weights.dropLast none yPred yTrue
    let moments ← m.base.muSigmaWord t junk y1 y2 axes
    let full ← Run.lift (m.base.combineWord t moments)
    let full ← m.base.cropBorder full axes
    let score ← Run.lift (full.meanDims axes true)
    match m.weights.getLast? with
    | none => Run.lift (.error .index)
    | some w =>
      let final ← Run.lift (m.accumulate acc (m.term w score))
      Run.lift (final.meanDims reduceAxes false)

end MsSsim

end TI
