import Verif.Model.IntPad
import Verif.Model.Metrics

/-!
# Pooling, edges, sharpening and metrics for images of an integer type

The same code as in `Model/Pool.lean`, `Model/Edges.lean` and `Model/Metrics.lean`, with machine integers (`Model/IntPad.lean`).  Operations of an integer tensor with a
Python float give floating-point numbers, which are exact here; operations of two integer tensors and with a Python int stay in the type.
Simplifications: weights are in the range of the type (negative weights of unsigned types are taken modulo the size of the type).
-/

namespace TI

section
variable {α : Type} [Field α] [LinearOrder α] [FloorRing α] (t : IntType)

/-- the numbers of an image of integers, as after an operation with a Python float -/
def IntType.floats (x : Tensor t.Word) : Tensor α := x.map fun v => ((t.value v : ℤ) : α)

namespace SepPool

/-- pooling/base.py:74-97 `pad`, cf. `SepPool.pad` -/
def padWord (pool : SepPool α) (padder : Option (Padder α)) (junk : List Nat → t.Word) (x : Tensor t.Word) (axes : Axes) :
    Option (Padder α) × Except Err (Tensor t.Word) :=
  match checkAxes x.ndim axes with
  | .error e => (padder, .error e)
  | .ok axes =>
    match padder with
    | none => (none, .ok x)
    | some p =>
      match NdSpec.sequence (axes.map fun a => pyIndex x.shape a) with
      | .error e => (some p, .error e)
      | .ok sizes =>
        match NdSpec.ofItem [] (.seq (sizes.map fun (n : Nat) => Py.leaf (some (n : Int)))) with
        | .error e => (some p, .error e)
        | .ok inShape =>
          match p.toSame pool.kernelSize pool.stride inShape with
          | (p', .error e) => (some p', .error e)
          | (p', .ok _) => (some p', p'.forwardInt t junk x (.seq axes))

/-- pooling/base.py:222-227, one pass of the loop; the weights are converted in line 217, cf. `SepPool.poolStep` -/
def poolStepWord (pool : SepPool α) (i : Nat) (axis : Int) (x : Tensor t.Word) : Except Err (Tensor t.Word) := do
  let k ← pool.kernelSize.get (i : Int)
  let k ← asSize k
  if k = 0 then return x
  let s ← pool.stride.get (i : Int)
  let s ← asSize s
  let a ← convDim x.ndim axis
  let y ← x.unfold a k s
  let w ← pool.kernel.get (i : Int)
  let w ← asVec w
  y.matvec (w.map t.convert)

/-- pooling/base.py:222-227, the loop -/
def poolLoopWord (pool : SepPool α) : Nat → List Int → Tensor t.Word → Except Err (Tensor t.Word)
  | _, [], x => .ok x
  | i, a :: as, x => do
    let x ← poolStepWord t pool i a x
    poolLoopWord pool (i + 1) as x

/-- pooling/base.py:191-228 `forward`, cf. `SepPool.forward` -/
def forwardWord (pool : SepPool α) (padder : Option (Padder α)) (junk : List Nat → t.Word) (x : Tensor t.Word) (axes : Axes) :
    Option (Padder α) × Except Err (Tensor t.Word) :=
  match checkAxes x.ndim axes with
  | .error e => (padder, .error e)
  | .ok axes =>
    if pool.ndim = 0 ∨ pool.ndim = (axes.length : Int) then
      match padWord t pool padder junk x (.seq axes) with
      | (p', .error e) => (p', .error e)
      | (p', .ok y) => (p', poolLoopWord t pool 0 axes y)
    else (padder, .error .assertion)

end SepPool

/-- sharpen.py:43-49 `forward`, cf. `UnsharpMask.forward`, with a float as `amount`: the difference is one of integers, and so is its absolute value -/
def UnsharpMask.forwardWord (u : UnsharpMask α) (padder : Option (Padder α)) (junk : List Nat → t.Word) (x : Tensor t.Word) (axes : Axes) :
    Option (Padder α) × Except Err (Tensor α) :=
  match checkAxes x.ndim axes with
  | .error e => (padder, .error e)
  | .ok axes =>
    match u.blur.forwardWord t padder junk x (.seq axes) with
    | (p, .error e) => (p, .error e)
    | (p, .ok blurred) => (p, do
      let y ← Tensor.bop (· - ·) x blurred
      let y := if 0 < u.threshold then y.map fun v => if ((t.value (if t.value v < 0 then -v else v) : ℤ) : α) < u.threshold then 0 else v else y
      Tensor.bop (· + ·) (t.floats x) ((t.floats y).map fun v => u.amount * v))

/-- mse.py:6-8 and base.py:36-54 `forward` of `MSE`: squares of machine integers; a sum of integers has 64 bits (returned as numbers), a mean of integers is a RuntimeError -/
def mseWord (r : Reduction) (x y : Tensor t.Word) (reduceAxes : Axes) : Except Err (Tensor ℤ) := do
  if x.shape ≠ y.shape then .error .assertion
  else
    let axes ← checkAxes x.ndim reduceAxes
    let d ← mseFull x y
    match r with
    | .mean => .error .runtime
    | .sum => d.reduce (fun l => (BitVec.ofInt 64 (l.map t.value).sum).toInt) axes false
    | .none => .ok (d.map t.value)
    | .unknown => .error .value

/-- psnr.py:15-18 `forward`, cf. `psnr`; the logarithm of an integer tensor is one of floating-point numbers (of a number that is not positive it is not meant) -/
noncomputable def psnrWord (maxValue eps : ℝ) (r : Reduction) (x y : Tensor t.Word) (reduceAxes : Axes) : Except Err (Tensor ℝ) := do
  let m ← mseWord t r x y reduceAxes
  let m : Tensor ℝ := m.map fun n : ℤ => (n : ℝ)
  let m := if eps > 0 then m.map (· + eps) else m
  .ok (m.map fun v => 20 * Real.logb 10 maxValue - 10 * Real.logb 10 v)

end

namespace EdgeFilter
variable {α : Type} [Field α] [LinearOrder α] [IsStrictOrderedRing α] [FloorRing α] (t : IntType)

/-- edges.py:57-69 `_conv_edge`, cf. `EdgeFilter.convEdge` -/
def convEdgeWord (f : EdgeFilter α) (ps : EdgePadders α) (junk : List Nat → t.Word) (x : Tensor t.Word) (axis : Int) :
    EdgePadders α × Except Err (Tensor t.Word) :=
  match (f.edgeKernel.get 0).bind SepPool.asVec with
  | .error e => (ps, .error e)
  | .ok w =>
    let discrete := w.map truncInt
    if discrete = [-1, 0, 1] then
      match f.edgePool.padWord t ps.edge junk x (.int axis) with
      | (p, r) => (ps.setEdge p, r.bind fun y => firstDiff y axis)
    else if discrete = [1, -2, 1] then
      match f.edgePool.padWord t ps.edge junk x (.int axis) with
      | (p, r) => (ps.setEdge p, r.bind fun y => secondDiff y axis)
    else
      match f.edgePool.forwardWord t ps.edge junk x (.int axis) with
      | (p, r) => (ps.setEdge p, r)

/-- edges.py:71-72 `_conv_smooth`, cf. `EdgeFilter.convSmooth` -/
def convSmoothWord (f : EdgeFilter α) (ps : EdgePadders α) (junk : List Nat → t.Word) (x : Tensor t.Word) (axes : List Int) :
    EdgePadders α × Except Err (Tensor t.Word) :=
  match f.smoothPool.forwardWord t ps.smooth junk x (.seq axes) with
  | (p, r) => (ps.setSmooth p, r)

/-- edges.py:74-87 `component`, cf. `EdgeFilter.component` -/
def componentWord (f : EdgeFilter α) (ps : EdgePadders α) (junk : List Nat → t.Word) (x : Tensor t.Word) (edgeAxis smoothAxes : Axes) :
    EdgePadders α × Except Err (Tensor t.Word) :=
  match checkAxes x.ndim edgeAxis with
  | .error e => (ps, .error e)
  | .ok ea =>
    match ea with
    | [a] =>
      match checkAxes x.ndim smoothAxes with
      | .error e => (ps, .error e)
      | .ok sa =>
        let sa := sa.filter fun b => b ≠ a
        match convEdgeWord t f ps junk x a with
        | (ps, .error e) => (ps, .error e)
        | (ps, .ok y) => convSmoothWord t f ps junk y sa
    | _ => (ps, .error .value)

/-- edges.py:118-128, the loop, cf. `EdgeFilter.magnitudeLoop`; not both kernels are empty (the components are new tensors) -/
def magnitudeLoopWord (f : EdgeFilter α) (junk : List Nat → t.Word) (x : Tensor t.Word) (axes : List Int) (p : Nat) :
    List Int → EdgePadders α → Option (Tensor t.Word) → EdgePadders α × Except Err (Option (Tensor t.Word))
  | [], ps, m => (ps, .ok m)
  | a :: as, ps, m =>
    match componentWord t f ps junk x (.int a) (.seq axes) with
    | (ps, .error e) => (ps, .error e)
    | (ps, .ok c) =>
      let c := if p = 1 then c else c.map fun v => v ^ p
      match m with
      | none => magnitudeLoopWord f junk x axes p as ps (some c)
      | some m =>
        match m.iadd c with
        | .error e => (ps, .error e)
        | .ok m => magnitudeLoopWord f junk x axes p as ps (some m)

/-- edges.py:108-136 `magnitude`, cf. `EdgeFilter.magnitudeInPlace`.  Adding a float in place to a tensor of integers is a RuntimeError; the power `1 / p` is a float. -/
def magnitudeWord (root : α → α) (f : EdgeFilter α) (ps : EdgePadders α) (junk : List Nat → t.Word) (x : Tensor t.Word) (axes : Axes) (epsilon : α) (p : Nat) :
    EdgePadders α × Except Err (Tensor α) :=
  match checkAxes x.ndim axes with
  | .error e => (ps, .error e)
  | .ok axes =>
    if axes.length < 2 then (ps, .error .value)
    else
      match magnitudeLoopWord t f junk x axes p axes ps none with
      | (ps, .error e) => (ps, .error e)
      | (ps, .ok none) => (ps, .error .type)
      | (ps, .ok (some m)) =>
        if epsilon ≠ 0 then (ps, .error .runtime)
        else if p = 1 then (ps, .ok (t.floats m))
        else if p = 0 then (ps, .error .zeroDivision)
        else (ps, .ok ((t.floats m).map root))

end EdgeFilter

namespace SSIM
variable {α : Type} [Field α] [LinearOrder α] [FloorRing α] (t : IntType)

/-- `self.blur.forward(x, axes=axes)` (a blur that does not exclude padded samples from its counts) -/
def blurWord (s : SSIM α) (junk : List Nat → t.Word) (x : Tensor t.Word) (axes : List Int) : Run α (Tensor t.Word) := fun p =>
  s.pool.forwardWord t p junk x (.seq axes)

/-- the six results of `_mu_sigma`, each a tensor of integers or of floating-point numbers; the integers are kept with the numbers they are doubled and added to by integers later -/
structure MomentsWord (α : Type) (t : IntType) where
  mu1Sq : Tensor t.Word
  mu2Sq : Tensor t.Word
  mu12 : Tensor t.Word
  sigma1Sq : Tensor t.Word
  sigma2Sq : Tensor t.Word
  sigma12 : Tensor t.Word
  factor : α

/-- ssim.py:99-117 `_mu_sigma`, cf. `SSIM.muSigma`; the multiplication with the factor, which makes floating-point numbers of the covariances, is left to `combineWord` -/
def muSigmaWord (s : SSIM α) (junk : List Nat → t.Word) (y1 y2 : Tensor t.Word) (axes : List Int) : Run α (MomentsWord α t) := do
  let mu1 ← s.blurWord t junk y1 axes
  let mu2 ← s.blurWord t junk y2 axes
  let mu1Sq := mu1.map fun v => v ^ 2
  let mu2Sq := mu2.map fun v => v ^ 2
  let mu12 ← Run.lift (Tensor.bop (· * ·) mu1 mu2)
  let b1 ← s.blurWord t junk (← Run.lift (Tensor.bop (· * ·) y1 y1)) axes
  let sigma1 ← Run.lift (Tensor.bop (· - ·) b1 mu1Sq)
  let b2 ← s.blurWord t junk (← Run.lift (Tensor.bop (· * ·) y2 y2)) axes
  let sigma2 ← Run.lift (Tensor.bop (· - ·) b2 mu2Sq)
  let b12 ← s.blurWord t junk (← Run.lift (Tensor.bop (· * ·) y1 y2)) axes
  let sigma12 ← Run.lift (Tensor.bop (· - ·) b12 mu12)
  let c ← Run.lift (s.scaleFactor axes)
  pure ⟨mu1Sq, mu2Sq, mu12, sigma1, sigma2, sigma12, c⟩

/-- the covariance `sigma`, doubled: `2 * sigma` for integers, `2 * (sigma * factor)` for floating-point numbers -/
def MomentsWord.twice (m : MomentsWord α t) (sigma : Tensor t.Word) : Tensor α :=
  if m.factor ≠ 1 then (t.floats sigma).map fun v => 2 * (v * m.factor) else t.floats (sigma.map fun v => 2 * v)

/-- the sum of two covariances -/
def MomentsWord.plus (m : MomentsWord α t) (a b : Tensor t.Word) : Except Err (Tensor α) :=
  if m.factor ≠ 1 then Tensor.bop (· + ·) ((t.floats a).map fun v => v * m.factor) ((t.floats b).map fun v => v * m.factor)
  else do
    let s ← Tensor.bop (· + ·) a b
    .ok (t.floats s)

/-- ssim.py:122-124, cf. `SSIM.combine` -/
def combineWord (s : SSIM α) (m : MomentsWord α t) : Except Err (Tensor α) := do
  let c1 := s.k1 ^ 2
  let c2 := s.k2 ^ 2
  let num ← Tensor.bop (· * ·) ((t.floats (m.mu12.map fun v => 2 * v)).map fun v => v + c1) ((m.twice t m.sigma12).map fun v => v + c2)
  let mu ← Tensor.bop (· + ·) m.mu1Sq m.mu2Sq
  let sigma ← m.plus t m.sigma1Sq m.sigma2Sq
  let den ← Tensor.bop (· * ·) ((t.floats mu).map fun v => v + c1) (sigma.map fun v => v + c2)
  Tensor.bop (· / ·) num den

/-- ssim.py:140-186 `forward` with `full=True`, cf. `SSIM.forward` -/
def forwardWord (s : SSIM α) (junk : List Nat → t.Word) (yPred yTrue : Tensor t.Word) (contentAxes reduceAxes : Axes) :
    Run α (Tensor α × Tensor α) := do
  if yPred.shape ≠ yTrue.shape then Run.lift (.error .assertion)
  else
    let axes ← Run.lift (checkAxes yPred.ndim contentAxes)
    let reduceAxes ← Run.lift (checkAxes yPred.ndim reduceAxes)
    let m ← s.muSigmaWord t junk yPred yTrue axes
    let full ← Run.lift (s.combineWord t m)
    let score ← s.reduce full axes reduceAxes
    pure (score, full)

end SSIM

end TI
