import Verif.Model.Pool
import Verif.Model.Metrics

/-!
# torchimage/pooling/base.py:191-228 and metrics/mse.py with the arithmetic left open

The code of `SeparablePoolNd.forward` and `MSE.forward` once more, with the scalar product of `@` and the operations of the squared error as parameters, so that
rounding errors can be put in.  Padding is exact here, as it is for the modes which copy samples; overflow, underflow and NaN are not modelled.
-/

namespace TI

variable {α : Type} [Field α] [LinearOrder α]

/-- PyTorch `x @ w` for a vector `w`, with a given scalar product (output position, entries along the last axis, weights) -/
def Tensor.matvecWith (dot : List Nat → List α → List α → α) (x : Tensor α) (w : List α) : Except Err (Tensor α) :=
  if x.shape ≠ [] ∧ x.shape.getLastD 0 = w.length then
    .ok (Tensor.ofFn x.shape.dropLast fun ix => dot ix ((List.range w.length).map fun j => x.get (ix ++ [j])) w)
  else .error .runtime

namespace SepPool

/-- pooling/base.py:222-227, one pass of the loop -/
def poolStepWith (dot : Nat → List Nat → List α → List α → α) (pool : SepPool α) (i : Nat) (axis : Int) (x : Tensor α) : Except Err (Tensor α) := do
  let k ← pool.kernelSize.get (i : Int)
  let k ← asSize k
  if k = 0 then return x
  let s ← pool.stride.get (i : Int)
  let s ← asSize s
  let a ← convDim x.ndim axis
  let y ← x.unfold a k s
  let w ← pool.kernel.get (i : Int)
  let w ← asVec w
  y.matvecWith (dot i) w

/-- pooling/base.py:222-227, the loop -/
def poolLoopWith (dot : Nat → List Nat → List α → List α → α) (pool : SepPool α) : Nat → List Int → Tensor α → Except Err (Tensor α)
  | _, [], x => .ok x
  | i, a :: as, x => do
    let x ← poolStepWith dot pool i a x
    poolLoopWith dot pool (i + 1) as x

/-- pooling/base.py:191-228 `forward`; the conversion of the kernel in line 216 is part of the given scalar product -/
def forwardWith (dot : Nat → List Nat → List α → List α → α) (pool : SepPool α) (padder : Option (Padder α)) (junk : List Nat → α) (x : Tensor α)
    (axes : Axes) : Option (Padder α) × Except Err (Tensor α) :=
  match checkAxes x.ndim axes with
  | .error e => (padder, .error e)
  | .ok axes =>
    if pool.ndim = 0 ∨ pool.ndim = (axes.length : Int) then
      match pad pool padder junk x (.seq axes) with
      | (p', .error e) => (p', .error e)
      | (p', .ok y) => (p', poolLoopWith dot pool 0 axes y)
    else (padder, .error .assertion)

end SepPool

/-- base.py:36-54 and mse.py:6-8 `forward` of `MSE` with given operations -/
def mseWith (sub : α → α → α) (square : α → α) (total average : List α → α) (r : Reduction) (x y : Tensor α) (reduceAxes : Axes) :
    Except Err (Tensor α) := do
  if x.shape ≠ y.shape then .error .assertion
  else
    let axes ← checkAxes x.ndim reduceAxes
    let d ← Tensor.bop sub x y
    let d := d.map square
    match r with
    | .mean => d.reduce average axes false
    | .sum => d.reduce total axes false
    | .none => .ok d
    | .unknown => .error .value

end TI
