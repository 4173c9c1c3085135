import Verif.Model.Tensor
import Mathlib.Analysis.SpecialFunctions.Pow.Real

/-!
# Polynomials, powers, crops, quantiles
-/

namespace TI.Spec

/-- the value at `v` of the polynomial with the given coefficients, highest power first -/
def polyValue {α : Type} [Semiring α] (p : List α) (v : α) : α :=
  ((List.range p.length).map fun i => p.getD (p.length - 1 - i) 0 * v ^ i).sum

/-- is it an integer -/
def Integral (e : ℝ) : Prop := ∃ n : Int, (n : ℝ) = e

open Classical in
/-- the power that `safe_power` promises: the usual one for integral exponents and for positive bases; otherwise minus the power of the
absolute value for negative bases and the power of `eps` for zero -/
noncomputable def safePow (eps x e : ℝ) : ℝ :=
  if Integral e then x ^ e else if x < 0 then -((-x) ^ e) else if x = 0 then eps ^ e else x ^ e

/-- the part of `x` of the given shape that begins at `start` -/
def cropped {α : Type} [Zero α] (x : Tensor α) (start shape : List Nat) : Tensor α :=
  Tensor.ofFn shape fun ix => x.get (List.zipWith (· + ·) ix start)

/-- A window of `x` for the sizes `size` along `axes`: `none` (and any other axis) keeps the axis whole. -/
structure IsWindow (shape : List Nat) (axes : List Nat) (size : Nat → Option Nat) (start cut : List Nat) : Prop where
  start_length : start.length = shape.length
  cut_length : cut.length = shape.length
  rest : ∀ k < shape.length, k ∉ axes → start.getD k 0 = 0 ∧ cut.getD k 0 = shape.getD k 0
  whole : ∀ i < axes.length, size i = none → start.getD (axes.getD i 0) 0 = 0 ∧ cut.getD (axes.getD i 0) 0 = shape.getD (axes.getD i 0) 0
  part : ∀ i < axes.length, ∀ l, size i = some l →
    start.getD (axes.getD i 0) 0 + l ≤ shape.getD (axes.getD i 0) 0 ∧ cut.getD (axes.getD i 0) 0 = l

/-- linear interpolation in a list at a real position -/
noncomputable def interpolated (s : List ℝ) (r : ℝ) : ℝ :=
  s.getD ⌊r⌋₊ 0 + (r - ⌊r⌋₊) * (s.getD ⌈r⌉₊ 0 - s.getD ⌊r⌋₊ 0)

/-- `s` is `l` in increasing order -/
def IsSorting (s l : List ℝ) : Prop := s.Perm l ∧ s.Pairwise (· ≤ ·)

/-- the height of a display with the given diagonal and aspect ratio: Pythagoras -/
def IsHeight (diagonal heightPix widthPix height : ℝ) : Prop :=
  0 ≤ height ∧ height ^ 2 + (height * (widthPix / heightPix)) ^ 2 = diagonal ^ 2

end TI.Spec
