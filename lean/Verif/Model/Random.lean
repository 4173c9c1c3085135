import Verif.Model.Edges
import Mathlib.Analysis.SpecialFunctions.Pow.Real

/-!
# torchimage/random.py

The random numbers are arguments: for `torch.randint` the outcome of the `k`-th draw below a bound, for `torch.poisson` and
`torch.randn` the outcome at every position.
-/

namespace TI

/-- `l[i] = v` -/
def pyAssign {β : Type} (l : List β) (i : Int) (v : β) : Except Err (List β) :=
  let j := if i < 0 then i + l.length else i
  if 0 ≤ j ∧ j < l.length then .ok (l.set j.toNat v) else .error .index

/-- random.py:11-18, the loop.  `i` counts the axes, `k` the draws; `torch.randint(high, ..)` is a RuntimeError unless `high > 0`. -/
def cropLoop (draw : Nat → Nat → Nat) (size : NdSpec (Option Int)) (shape : List Nat) :
    Nat → Nat → List Int → List PySlice → Except Err (List PySlice)
  | _, _, [], idx => .ok idx
  | i, k, a :: as, idx => do
    let length ← size.get i
    match length with
    | .seq _ => .error .type
    | .leaf none => cropLoop draw size shape (i + 1) k as idx
    | .leaf (some length) =>
      let n ← pyIndex shape a
      let high : Int := n - length
      if high ≤ 0 then .error .runtime
      else
        let beg : Int := draw k high.toNat
        let idx ← pyAssign idx a (.between beg (beg + length))
        cropLoop draw size shape (i + 1) (k + 1) as idx

/-- random.py:7-19 `random_crop`.  The code indexes with a *list* of slices; PyTorch treats a list that contains slices like a tuple. -/
def randomCrop {α : Type} [Zero α] (draw : Nat → Nat → Nat) (x : Tensor α) (axes : Axes) (size : Py (Option Int)) : Except Err (Tensor α) := do
  let axes ← checkAxes x.ndim axes
  let size ← NdSpec.ofItem [] size
  let idx ← cropLoop draw size x.shape 0 0 axes (List.replicate x.ndim PySlice.full)
  .ok (x.getSlice idx)

/-- `torch.poisson(rate)`: RuntimeError if a rate is negative.  `pois ix r` is the outcome at position `ix` for rate `r`. -/
noncomputable def torchPoisson (pois : List Nat → ℝ → Nat) (rate : Tensor ℝ) : Except Err (Tensor ℝ) :=
  if rate.data.any (fun r => decide (r < 0)) then .error .runtime
  else .ok (Tensor.ofFn rate.shape fun ix => (pois ix (rate.get ix) : ℝ))

/-- random.py:22-51 `add_poisson_gauss_noise`, for `k ≠ 0` (otherwise the rates are infinite or NaN) -/
noncomputable def addPoissonGauss (pois : List Nat → ℝ → Nat) (gauss : List Nat → ℝ) (x : Tensor ℝ) (k sigma : ℝ) : Except Err (Tensor ℝ) := do
  let sigma2 := sigma ^ 2
  let p ← torchPoisson pois (x.map fun v => v / k)
  let p := p.map fun v => v * k
  let g := (Tensor.ofFn x.shape gauss).map fun v => v * sigma2 ^ (1 / 2 : ℝ)
  p.iadd g

/-- random.py:54-59 `add_gauss_noise` -/
noncomputable def addGauss (gauss : List Nat → ℝ) (x : Tensor ℝ) (sigma : ℝ) : Except Err (Tensor ℝ) :=
  let sigma2 := sigma ^ 2
  let g := (Tensor.ofFn x.shape gauss).map fun v => v * sigma2 ^ (1 / 2 : ℝ)
  g.iadd x

end TI
