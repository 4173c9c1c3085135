import Verif.Model.Edges
import Mathlib.Analysis.SpecialFunctions.Log.Base
import Mathlib.Analysis.SpecialFunctions.Pow.Real

/-!
# torchimage/metrics/base.py, mse.py, psnr.py, ssim.py

Not modelled: infinite and undefined numbers.  The mean of no entries (NaN in PyTorch) is 0 here, a quotient by zero is 0, `log10`
of a number that is not positive is not meant.  `torch.empty` yields the same content in all calls of one evaluation.
-/

namespace TI

/-! ## reductions -/

/-- `dim` of `x.sum(dim=..)` and `x.mean(dim=..)`: entries out of range are IndexError (a 0-d tensor has dimension 0 here),
repeated ones RuntimeError, and no entries mean all dimensions. -/
def reduceDims (ndim : Nat) (dims : List Int) : Except Err (List Nat) := do
  let ds ← NdSpec.sequence (dims.map fun d => convDim (max ndim 1) d)
  if ds.Nodup then .ok (if ds = [] then List.range ndim else ds) else .error .runtime

/-- the entries at the positions in `ds` are dropped, or replaced by `fill` -/
def collapse (ds : List Nat) (fill : Option Nat) (l : List Nat) : List Nat :=
  (List.range l.length).flatMap fun k => if k ∈ ds then fill.toList else [l.getD k 0]

section
variable {α : Type} [Field α]

/-- PyTorch reduction of the dimensions `dims` by `f`: `f` is applied to the entries that are collapsed into one -/
def Tensor.reduce {α β : Type} [Zero α] (f : List α → β) (x : Tensor α) (dims : List Int) (keepdim : Bool) : Except Err (Tensor β) := do
  let ds ← reduceDims x.ndim dims
  .ok (Tensor.ofFn (collapse ds (if keepdim then some 1 else none) x.shape) fun jx =>
    f (((indices x.shape).filter fun ix => collapse ds (if keepdim then some 0 else none) ix = jx).map x.get))

/-- `x.sum(dim=dims)` -/
def Tensor.sumDims (x : Tensor α) (dims : List Int) : Except Err (Tensor α) := x.reduce List.sum dims false

/-- `x.mean(dim=dims, keepdim=keepdim)` -/
def Tensor.meanDims (x : Tensor α) (dims : List Int) (keepdim : Bool) : Except Err (Tensor α) :=
  x.reduce (fun l => l.sum / (l.length : α)) dims keepdim

/-- values of `reduction`; any other string is `unknown` -/
inductive Reduction where
  | mean | sum | none | unknown
  deriving DecidableEq, Repr

/-- base.py:36-44 `_reduce` -/
def Reduction.run (r : Reduction) (x : Tensor α) (axes : List Int) : Except Err (Tensor α) :=
  match r with
  | .mean => x.meanDims axes false
  | .sum => x.sumDims axes
  | .none => .ok x
  | .unknown => .error .value

/-- mse.py:6-8 `forward_full` -/
def mseFull {α : Type} [Ring α] (x y : Tensor α) : Except Err (Tensor α) := do
  let d ← Tensor.bop (· - ·) x y
  .ok (d.map fun v => v ^ 2)

/-- base.py:46-54 `forward` of `MSE` -/
def mse (r : Reduction) (x y : Tensor α) (reduceAxes : Axes) : Except Err (Tensor α) := do
  if x.shape ≠ y.shape then .error .assertion
  else
    let axes ← checkAxes x.ndim reduceAxes
    let d ← mseFull x y
    r.run d axes

end

/-- psnr.py:15-18 `forward`.  `np.log10(max_value)` is not a number for `max_value ≤ 0`. -/
noncomputable def psnr (maxValue eps : ℝ) (r : Reduction) (x y : Tensor ℝ) (reduceAxes : Axes) : Except Err (Tensor ℝ) := do
  let m ← mse r x y reduceAxes
  let m := if eps > 0 then m.map (· + eps) else m
  .ok (m.map fun v => 20 * Real.logb 10 maxValue - 10 * Real.logb 10 v)

/-! ## computations with a shared padder -/

/-- A computation that may change the state of the padder of the blur; the new state is kept when an exception is raised. -/
def Run (α β : Type) : Type := Option (Padder α) → Option (Padder α) × Except Err β

namespace Run
variable {α β γ : Type}

instance : Monad (Run α) where
  pure b := fun p => (p, .ok b)
  bind m f := fun p => match m p with
    | (p', .error e) => (p', .error e)
    | (p', .ok b) => f b p'

/-- a computation that has nothing to do with the padder -/
def lift (r : Except Err β) : Run α β := fun p => (p, r)

/-- the state of the padder -/
def padder : Run α (Option (Padder α)) := fun p => (p, .ok p)

end Run

/-! ## SSIM -/

/-- ssim.py:10-73, the attributes of `SSIM`.  `pool` is the blur after `to_filter`, `exclude` says that it is an `AvgPoolNd` with
`count_include_pad=False`; the padder is threaded through the computation. -/
structure SSIM (α : Type) where
  pool : SepPool α
  exclude : Bool
  k1 : α
  k2 : α
  sampleCov : Bool
  crop : Bool

namespace SSIM
variable {α : Type}

/-- ssim.py:67-73 `__init__` with a pooling module as `blur` -/
def init (blur : SepPool α) (exclude : Bool) (k1 k2 : α) (sampleCov crop : Bool) : Except Err (SSIM α) := do
  let f ← blur.toFilter
  .ok ⟨f, exclude, k1, k2, sampleCov, crop⟩

variable [Field α] [LinearOrder α]

/-- ssim.py:65-66 `__init__` with `blur="mean"` -/
def initMean (k1 k2 : α) (sampleCov crop : Bool) : Except Err (SSIM α) := do
  let b ← SepPool.avgInit (.leaf (some 11)) (.leaf none)
  init b false k1 k2 sampleCov crop

/-- ssim.py:63-64 `__init__` with `blur="gaussian"`, the default -/
noncomputable def initGaussian (k1 k2 : ℝ) (sampleCov crop : Bool) : Except Err (SSIM ℝ) := do
  let b ← SepPool.gaussInit (.leaf 11) (.leaf (3 / 2)) (.leaf 0) (.leaf none)
  init b false k1 k2 sampleCov crop

/-- `self.blur.forward(x, axes=axes)` -/
def blur (s : SSIM α) (junk : List Nat → α) (x : Tensor α) (axes : List Int) : Run α (Tensor α) := fun p =>
  if s.exclude then s.pool.avgForwardExclude p junk x (.seq axes) else s.pool.forward p junk x (.seq axes)

/-- ssim.py:94 `n_pixels` -/
def nPixels (s : SSIM α) (axes : List Int) : Except Err Int := do
  let ks ← SepPool.collect (fun i => (s.pool.kernelSize.get (i : Int)).bind SepPool.asSize) (List.range axes.length)
  .ok ks.prod

/-- ssim.py:75-97 `_scale_factor`.  For a window of a single sample numpy returns infinity and the covariances become NaN; this is
an error here. -/
def scaleFactor (s : SSIM α) (axes : List Int) : Except Err α :=
  if s.sampleCov then do
    let n ← s.nPixels axes
    if n = 1 then .error .zeroDivision else .ok ((n : α) / ((n : α) - 1))
  else .ok 1

/-- the six results of `_mu_sigma` -/
structure Moments (α : Type) where
  mu1Sq : Tensor α
  mu2Sq : Tensor α
  mu12 : Tensor α
  sigma1Sq : Tensor α
  sigma2Sq : Tensor α
  sigma12 : Tensor α

/-- ssim.py:99-117 `_mu_sigma` -/
def muSigma (s : SSIM α) (junk : List Nat → α) (y1 y2 : Tensor α) (axes : List Int) : Run α (Moments α) := do
  let mu1 ← s.blur junk y1 axes
  let mu2 ← s.blur junk y2 axes
  let mu1Sq := mu1.map fun v => v ^ 2
  let mu2Sq := mu2.map fun v => v ^ 2
  let mu12 ← Run.lift (Tensor.bop (· * ·) mu1 mu2)
  let b1 ← s.blur junk (← Run.lift (Tensor.bop (· * ·) y1 y1)) axes
  let sigma1 ← Run.lift (Tensor.bop (· - ·) b1 mu1Sq)
  let b2 ← s.blur junk (← Run.lift (Tensor.bop (· * ·) y2 y2)) axes
  let sigma2 ← Run.lift (Tensor.bop (· - ·) b2 mu2Sq)
  let b12 ← s.blur junk (← Run.lift (Tensor.bop (· * ·) y1 y2)) axes
  let sigma12 ← Run.lift (Tensor.bop (· - ·) b12 mu12)
  let c ← Run.lift (s.scaleFactor axes)
  let scale := fun (t : Tensor α) => if c ≠ 1 then t.map fun v => v * c else t
  pure ⟨mu1Sq, mu2Sq, mu12, scale sigma1, scale sigma2, scale sigma12⟩

/-- `2 * a + c` -/
def twicePlus (a : Tensor α) (c : α) : Tensor α := a.map fun v => 2 * v + c

/-- `a + b + c` for tensors `a`, `b` and a number `c` -/
def addPlus (a b : Tensor α) (c : α) : Except Err (Tensor α) := do
  let t ← Tensor.bop (· + ·) a b
  .ok (t.map fun v => v + c)

/-- ssim.py:122-124 -/
def combine (s : SSIM α) (m : Moments α) : Except Err (Tensor α) := do
  let c1 := s.k1 ^ 2
  let c2 := s.k2 ^ 2
  let num ← Tensor.bop (· * ·) (twicePlus m.mu12 c1) (twicePlus m.sigma12 c2)
  let den ← Tensor.bop (· * ·) (← addPlus m.mu1Sq m.mu2Sq c1) (← addPlus m.sigma1Sq m.sigma2Sq c2)
  Tensor.bop (· / ·) num den

/-- ssim.py:119-124 `_ssim_full` -/
def ssimFull (s : SSIM α) (junk : List Nat → α) (y1 y2 : Tensor α) (axes : List Int) : Run α (Tensor α) := do
  let m ← s.muSigma junk y1 y2 axes
  Run.lift (s.combine m)

/-- ssim.py:132-134: the loop filling in the slices of the content axes -/
def cropIdx (pw : NdSpec Int) (shape : List Nat) : Nat → List Int → List PySlice → Except Err (List PySlice)
  | _, [], idx => .ok idx
  | i, a :: as, idx => do
    let w ← Padder.pairAt pw (i : Int)
    let n ← pyIndex shape a
    let d ← convDim idx.length a
    cropIdx pw shape (i + 1) as (idx.set d (.between w.1 ((n : Int) - w.2)))

/-- ssim.py:126-135 `_crop_border` -/
def cropBorder (s : SSIM α) (full : Tensor α) (axes : List Int) : Run α (Tensor α) := do
  let p ← Run.padder
  match p with
  | none => pure full
  | some p =>
    if s.crop then do
      let idx ← Run.lift (cropIdx p.padWidth full.shape 0 axes (List.replicate full.ndim .full))
      pure (full.getSlice idx)
    else pure full

/-- ssim.py:137-138 `_reduce` -/
def reduce (s : SSIM α) (full : Tensor α) (axes reduceAxes : List Int) : Run α (Tensor α) := do
  let c ← s.cropBorder full axes
  Run.lift (c.meanDims reduceAxes false)

/-- ssim.py:140-186 `forward` with `full=True` (otherwise only the first component is returned) -/
def forward (s : SSIM α) (junk : List Nat → α) (yPred yTrue : Tensor α) (contentAxes reduceAxes : Axes) :
    Run α (Tensor α × Tensor α) := do
  if yPred.shape ≠ yTrue.shape then Run.lift (.error .assertion)
  else
    let axes ← Run.lift (checkAxes yPred.ndim contentAxes)
    let reduceAxes ← Run.lift (checkAxes yPred.ndim reduceAxes)
    let full ← s.ssimFull junk yPred yTrue axes
    let score ← s.reduce full axes reduceAxes
    pure (score, full)

/-! ## MS-SSIM -/

/-- ssim.py:240-243 `_downsample` -/
def downsample (junk : List Nat → α) (x : Tensor α) (axes : List Int) : Except Err (Tensor α) := do
  let pool ← SepPool.avgInit (.leaf (some 2)) (.leaf (some 2))
  (pool.forward none junk x (.seq axes)).2

/-- ssim.py:249-254 `_cs_full` -/
def csFull (s : SSIM α) (junk : List Nat → α) (y1 y2 : Tensor α) (axes : List Int) : Run α (Tensor α) := do
  let m ← s.muSigma junk y1 y2 axes
  let c2 := s.k2 ^ 2
  let den ← Run.lift (addPlus m.sigma1Sq m.sigma2Sq c2)
  Run.lift (Tensor.bop (· / ·) (twicePlus m.sigma12 c2) den)

/-- ssim.py:256-260 `_check_shape_large_enough`: `shape[a] / 2^(levels-1) > kernel_size[i]`.  Without levels the quotient is
`2 * shape[a]`. -/
def checkLarge (s : SSIM α) (levels : Nat) (shape : List Nat) : Nat → List Int → Except Err Unit
  | _, [] => .ok ()
  | i, a :: as => do
    let n ← pyIndex shape a
    let k ← (s.pool.kernelSize.get (i : Int)).bind SepPool.asSize
    if (n : Int) * 2 > k * 2 ^ levels then checkLarge s levels shape (i + 1) as else .error .assertion

end SSIM

/-- `m op= c`, in place: `c` has to broadcast to the shape of `m` -/
def Tensor.iop {α : Type} [Zero α] (f : α → α → α) (m c : Tensor α) : Except Err (Tensor α) :=
  if bcastable c.shape m.shape then .ok (Tensor.ofFn m.shape fun ix => f (m.get ix) (c.get (bidx c.shape ix))) else .error .runtime

/-- ssim.py:189-238, the attributes of `MS_SSIM` -/
structure MsSsim where
  base : SSIM ℝ
  weights : List ℝ
  useProd : Bool
  eps : ℝ

namespace MsSsim

/-- ssim.py:233, the default weights -/
noncomputable def defaultWeights : List ℝ := [0.0448, 0.2856, 0.3001, 0.2363, 0.1333]

/-- the factor or summand of one level: `score.clamp(eps) ** w` or `score * w`.  A power of a number that is not positive is not
meant (`eps ≤ 0`). -/
noncomputable def term (m : MsSsim) (w : ℝ) (score : Tensor ℝ) : Tensor ℝ :=
  if m.useProd then score.map fun v => (max v m.eps) ^ w else score.map fun v => v * w

/-- `final_score *= ..` or `final_score += ..`; TypeError if `final_score` is still `None` -/
noncomputable def accumulate (m : MsSsim) (acc : Option (Tensor ℝ)) (t : Tensor ℝ) : Except Err (Tensor ℝ) :=
  match acc with
  | none => .error .type
  | some a => Tensor.iop (if m.useProd then (· * ·) else (· + ·)) a t

/-- ssim.py:281-298, the loop over all weights but the last -/
noncomputable def levels (m : MsSsim) (junk : List Nat → ℝ) (axes : List Int) :
    List ℝ → Option (Tensor ℝ) → Tensor ℝ → Tensor ℝ → Run ℝ (Option (Tensor ℝ) × Tensor ℝ × Tensor ℝ)
  | [], acc, y1, y2 => pure (acc, y1, y2)
  | w :: ws, acc, y1, y2 => do
    let cs ← m.base.csFull junk y1 y2 axes
    let cs ← m.base.cropBorder cs axes
    let score ← Run.lift (cs.meanDims axes true)
    let acc ← Run.lift (match acc with
      | none => .ok (m.term w score)
      | some a => m.accumulate (some a) (m.term w score))
    let y1 ← Run.lift (SSIM.downsample junk y1 axes)
    let y2 ← Run.lift (SSIM.downsample junk y2 axes)
    levels m junk axes ws (some acc) y1 y2

/-- ssim.py:262-314 `forward`.  Without weights the lookup of the last one is an IndexError. -/
noncomputable def forward (m : MsSsim) (junk : List Nat → ℝ) (yPred yTrue : Tensor ℝ) (contentAxes reduceAxes : Axes) :
    Run ℝ (Tensor ℝ) := do
  if yPred.shape ≠ yTrue.shape then Run.lift (.error .assertion)
  else
    let axes ← Run.lift (checkAxes yPred.ndim contentAxes)
    let reduceAxes ← Run.lift (checkAxes yPred.ndim reduceAxes)
    Run.lift (m.base.checkLarge m.weights.length yPred.shape 0 axes)
    let (acc, y1, y2) ← m.levels junk axes m.weights.dropLast none yPred yTrue
    let full ← m.base.ssimFull junk y1 y2 axes
    let full ← m.base.cropBorder full axes
    let score ← Run.lift (full.meanDims axes true)
    match m.weights.getLast? with
    | none => Run.lift (.error .index)
    | some w =>
      let final ← Run.lift (m.accumulate acc (m.term w score))
      Run.lift (final.meanDims reduceAxes false)

end MsSsim

end TI
