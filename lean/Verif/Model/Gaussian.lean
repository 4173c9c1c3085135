import Verif.Model.Pool
import Mathlib.Analysis.SpecialFunctions.Exp

/-!
# torchimage/pooling/gaussian.py

The numbers are reals: rounding, and the overflow of integer powers `x ** exponent_range` for large orders, are not
modelled.
-/

namespace TI

/-- `np.arange(-radius, radius + 1)` -/
noncomputable def sampleRange (radius : Int) : List ℝ :=
  (List.range (2 * radius + 1).toNat).map fun (i : Nat) => ((i : ℝ) - radius)

/-- gaussian.py:34-36: entry `(i, j)` of `D + P`, `D = diag(1..order)` above and `P = diag(1 / -sigma2)` below the
diagonal -/
noncomputable def derivMatrix (sigma2 : ℝ) (i j : Nat) : ℝ :=
  (if j = i + 1 then (j : ℝ) else 0) + (if i = j + 1 then 1 / -sigma2 else 0)

/-- gaussian.py:38 `Q_deriv.dot(q)` -/
noncomputable def derivStep (sigma2 : ℝ) (order : Nat) (q : Nat → ℝ) (i : Nat) : ℝ :=
  ((List.range (order + 1)).map fun j => derivMatrix sigma2 i j * q j).sum

/-- gaussian.py:32-38: `q` after the loop, as a function of the index -/
noncomputable def derivCoeffs (sigma2 : ℝ) (order : Nat) : Nat → Nat → ℝ
  | 0, i => if i = 0 then 1 else 0
  | n + 1, i => derivStep sigma2 order (derivCoeffs sigma2 order n) i

/-- gaussian.py:9-40 `_gaussian_kernel1d`.  `-0.5 / sigma2` raises ZeroDivisionError for a Python number `sigma = 0`. -/
noncomputable def gaussianKernel1d (sigma : ℝ) (order radius : Int) : Except Err (List ℝ) :=
  open Classical in
  if order < 0 then .error .value
  else
    let sigma2 := sigma * sigma
    if sigma2 = 0 then .error .zeroDivision
    else
      let x := sampleRange radius
      let phi := x.map fun t => Real.exp (-0.5 / sigma2 * t ^ 2)
      let phi := phi.map fun v => v / phi.sum
      if order = 0 then .ok phi
      else
        let q := derivCoeffs sigma2 order.toNat order.toNat
        let q := x.map fun t => ((List.range (order.toNat + 1)).map fun j => t ^ j * q j).sum
        .ok (List.zipWith (· * ·) q phi)

/-- gaussian.py:43-88 `gaussian_kernel_1d` -/
noncomputable def gaussianKernel (kernelSize : Int) (sigma : ℝ) (order : Int) : Except Err (List ℝ) := do
  let kernel ← gaussianKernel1d sigma order (kernelSize / 2)
  let kernel := kernel.reverse
  if (kernel.length : Int) = kernelSize then .ok kernel
  else
    let kernel := kernel.take kernelSize.toNat
    if order = 0 then .ok (kernel.map fun v => v / kernel.sum) else .ok kernel

namespace SepPool

/-- gaussian.py:109 `lambda ks, s, o: gaussian_kernel_1d(kernel_size=ks, sigma=s, order=o)` -/
noncomputable def gaussItem (ks : Py Int) (s : Py ℝ) (o : Py Int) : Except Err (Py ℝ) :=
  match ks, s, o with
  | .leaf ks, .leaf s, .leaf o => do
    let k ← gaussianKernel ks s o
    .ok (.seq (k.map .leaf))
  | _, _, _ => .error .type

/-- gaussian.py:107-128 `GaussianPoolNd.__init__` -/
noncomputable def gaussInit (kernelSize : Py Int) (sigma : Py ℝ) (order : Py Int) (stride : Py (Option Int)) :
    Except Err (SepPool ℝ) := do
  let ks ← NdSpec.ofItem [] kernelSize
  let s ← NdSpec.ofItem [] sigma
  let o ← NdSpec.ofItem [] order
  let k ← NdSpec.apply3 gaussItem ks s o
  ofSpec k stride

end SepPool

end TI
