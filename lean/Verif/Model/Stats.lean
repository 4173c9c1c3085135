import Verif.Model.Power
import Mathlib.Analysis.SpecialFunctions.Sqrt
import Mathlib.Analysis.SpecialFunctions.Trigonometric.Arctan
import Mathlib.Data.List.Sort

/-!
# torchimage/misc/stats.py, torchimage/metrics/hdrvdp/pixels_per_degree.py and hdrvdp3.py
-/

namespace TI

/-- stats.py:22 `x.mean()` of non-empty data -/
noncomputable def dataMean (l : List ℝ) : ℝ := l.sum / l.length

/-- stats.py:23 `x.std()`, with Bessel's correction: NaN for a single number -/
noncomputable def dataStd (l : List ℝ) : Val :=
  if l.length = 1 then .bad
  else .real (Real.sqrt ((l.map fun v => (v - dataMean l) ^ 2).sum / ((l.length : ℝ) - 1)))

/-- the data in increasing order, as `quantile` (stats.py:25-27) sorts it -/
noncomputable def dataSorted (l : List ℝ) : List ℝ := l.insertionSort (· ≤ ·)

/-- stats.py:25-27 `x.quantile(q)`: linear interpolation between the neighbours of rank `q * (n - 1)` -/
noncomputable def dataQuantile (l : List ℝ) (q : ℝ) : ℝ :=
  let s := dataSorted l
  let rank := q * ((l.length : ℝ) - 1)
  let below := s.getD ⌊rank⌋₊ 0
  let above := s.getD ⌈rank⌉₊ 0
  below + (rank - ⌊rank⌋₊) * (above - below)

/-- stats.py:21-29: the values of the dictionary made by `describe` -/
structure Description where
  mean : ℝ
  std : Val
  min : ℝ
  q25 : ℝ
  q50 : ℝ
  q75 : ℝ
  max : ℝ

/-- stats.py:4-31 `describe`: `x.min()` of no numbers is a RuntimeError.  Not modelled: integer tensors
(whose `mean` is a RuntimeError) and the limit on the number of elements that
`torch.quantile` accepts. -/
noncomputable def describe (x : Tensor ℝ) : Except Err Description :=
  match x.data with
  | [] => .error .runtime
  | a :: l => .ok {
      mean := dataMean (a :: l)
      std := dataStd (a :: l)
      min := l.foldl Min.min a
      q25 := dataQuantile (a :: l) (1 / 4)
      q50 := dataQuantile (a :: l) (1 / 2)
      q75 := dataQuantile (a :: l) (3 / 4)
      max := l.foldl Max.max a }

/-- pixels_per_degree.py:25-32: `a / b` of Python floats -/
noncomputable def floatDiv (a b : ℝ) : Except Err ℝ := if b = 0 then .error .zeroDivision else .ok (a / b)

/-- pixels_per_degree.py:4-33 `pixels_per_degree` -/
noncomputable def pixelsPerDegree (diagonalMm heightPix widthPix distanceM : ℝ) : Except Err ℝ := do
  let ar ← floatDiv widthPix heightPix
  let q ← floatDiv (diagonalMm ^ 2) (1 + ar ^ 2)
  let heightMm := q ^ (1 / 2 : ℝ)
  let t ← floatDiv (1 / 2 * heightMm) (distanceM * 1000)
  let heightRad := 2 * Real.arctan t
  let heightDeg := heightRad * (180 / Real.pi)
  floatDiv heightPix heightDeg

/-- hdrvdp3.py:1-8 `hdrvdp3`, a stub: the shapes are compared, nothing is returned -/
def hdrvdp3 {α : Type} (imageTrue imageTest : Tensor α) : Except Err Unit :=
  if imageTrue.shape = imageTest.shape then .ok () else .error .assertion

end TI
