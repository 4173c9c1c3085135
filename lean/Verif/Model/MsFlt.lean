import Verif.Model.FltSsim

/-!
# MS-SSIM of images with entries that are not finite

The same code as in `Model/Metrics.lean` for the floating-point numbers of `Model/Flt.lean`, with their simplifications.
-/

namespace TI

/-- `torch.clamp(v, eps)`: infinities are compared, NaN stays NaN -/
noncomputable def Flt.clamp (eps : ℝ) : Flt ℝ → Flt ℝ
  | .num a => .num (max a eps)
  | .inf false => .inf false
  | .inf true => .num eps
  | .nan => .nan

/-- `v ** w` for a number `w`: anything, even NaN, to the power of zero is one; a power of a number that is not positive is not meant (`eps ≤ 0`, cf. `MsSsim.term`), nor is one of
`-inf`, which the clamping removes. -/
noncomputable def Flt.power (w : ℝ) : Flt ℝ → Flt ℝ
  | .num a => .num (a ^ w)
  | .inf _ => if w = 0 then .num 1 else if 0 < w then .inf false else .num 0
  | .nan => if w = 0 then .num 1 else .nan

section
variable {α : Type} [Field α] [LinearOrder α]

namespace SSIM

/-- ssim.py:240-243 `_downsample`, cf. `SSIM.downsample` -/
def downsampleFlt (junk : List Nat → Flt α) (x : Tensor (Flt α)) (axes : List Int) : Except Err (Tensor (Flt α)) := do
  let pool ← SepPool.avgInit (α := α) (.leaf (some 2)) (.leaf (some 2))
  (pool.forwardFlt none junk x (.seq axes)).2

/-- ssim.py:249-254 `_cs_full`, cf. `SSIM.csFull` -/
def csFullFlt (s : SSIM α) (junk : List Nat → Flt α) (y1 y2 : Tensor (Flt α)) (axes : List Int) : Run α (Tensor (Flt α)) := do
  let m ← s.muSigmaFlt junk y1 y2 axes
  let c2 := s.k2 ^ 2
  let den ← Run.lift (addPlusFlt m.sigma1Sq m.sigma2Sq c2)
  Run.lift (Tensor.bop (· / ·) (twicePlusFlt m.sigma12 c2) den)

end SSIM

end

namespace MsSsim

/-- `score.clamp(eps) ** w` or `score * w`, cf. `MsSsim.term` -/
noncomputable def termFlt (m : MsSsim) (w : ℝ) (score : Tensor (Flt ℝ)) : Tensor (Flt ℝ) :=
  if m.useProd then score.map fun v => Flt.power w (Flt.clamp m.eps v) else score.map fun v => v * .num w

/-- `final_score *= ..` or `final_score += ..`, cf. `MsSsim.accumulate` -/
noncomputable def accumulateFlt (m : MsSsim) (acc : Option (Tensor (Flt ℝ))) (t : Tensor (Flt ℝ)) : Except Err (Tensor (Flt ℝ)) :=
  match acc with
  | none => .error .type
  | some a => Tensor.iop (if m.useProd then (· * ·) else (· + ·)) a t

/-- ssim.py:281-298, cf. `MsSsim.levels` -/
noncomputable def levelsFlt (m : MsSsim) (junk : List Nat → Flt ℝ) (axes : List Int) :
    List ℝ → Option (Tensor (Flt ℝ)) → Tensor (Flt ℝ) → Tensor (Flt ℝ) → Run ℝ (Option (Tensor (Flt ℝ)) × Tensor (Flt ℝ) × Tensor (Flt ℝ))
  | [], acc, y1, y2 => pure (acc, y1, y2)
  | w :: ws, acc, y1, y2 => do
    let cs ← m.base.csFullFlt junk y1 y2 axes
    let cs ← m.base.cropBorderFlt cs axes
    let score ← Run.lift (meanDimsFlt cs axes true)
    let acc ← Run.lift (match acc with
      | none => .ok (m.termFlt w score)
      | some a => m.accumulateFlt (some a) (m.termFlt w score))
    let y1 ← Run.lift (SSIM.downsampleFlt junk y1 axes)
    let y2 ← Run.lift (SSIM.downsampleFlt junk y2 axes)
    levelsFlt m junk axes ws (some acc) y1 y2

/-- ssim.py:262-314 `forward`, cf. `MsSsim.forward` -/
noncomputable def forwardFlt (m : MsSsim) (junk : List Nat → Flt ℝ) (yPred yTrue : Tensor (Flt ℝ)) (contentAxes reduceAxes : Axes) :
    Run ℝ (Tensor (Flt ℝ)) := do
  if yPred.shape ≠ yTrue.shape then Run.lift (.error .assertion)
  else
    let axes ← Run.lift (checkAxes yPred.ndim contentAxes)
    let reduceAxes ← Run.lift (checkAxes yPred.ndim reduceAxes)
    Run.lift (m.base.checkLarge m.weights.length yPred.shape 0 axes)
    let (acc, y1, y2) ← m.levelsFlt junk axes m.weights.dropLast none yPred yTrue
    let full ← m.base.ssimFullFlt junk y1 y2 axes
    let full ← m.base.cropBorderFlt full axes
    let score ← Run.lift (meanDimsFlt full axes true)
    match m.weights.getLast? with
    | none => Run.lift (.error .index)
    | some w =>
      let final ← Run.lift (m.accumulateFlt acc (m.termFlt w score))
      Run.lift (meanDimsFlt final reduceAxes false)

end MsSsim

end TI
