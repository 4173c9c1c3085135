import Verif.Spec.IntPad
import Verif.Spec.Edges

/-!
# Filters, edges and metrics of images with integer entries
-/

namespace TI.Spec

variable {α : Type} [Field α] [LinearOrder α] [FloorRing α]

/-- the padded image of integers: `padSeq` with integer constants -/
def paddedInt (g : PoolArgs α) (gp : PadArgs α) (x : Tensor α) (axes : List Nat) : Tensor α := padSeq x (intOps (sameOps g gp x.shape axes))

/-- the filtered image of integers: padding with integer constants, filtering with integer weights -/
def filteredInt (g : PoolArgs α) (gp : PadArgs α) (x : Tensor α) (axes : List Nat) : Tensor α :=
  poolSeq (paddedInt g gp x axes) ((g.ops axes).map truncOp)

/-- the machine integers are those of the numbers, modulo the size of the type -/
def Reduces {t : IntType} (z : Tensor α) (Z : Tensor t.Word) : Prop :=
  Z.shape = z.shape ∧ ∀ ix, ∃ n : ℤ, z.get ix = (n : α) ∧ Z.get ix = BitVec.ofInt t.bits n

/-- the mode neither orders numbers nor is it a callable -/
def forWords (m : Mode α) : Prop := forIntegers m = true ∧ isStat m = false

/-- the `i`-th axis is padded with integers as with their numbers: no statistics, no ramp, no callable, integer constants -/
def FillsExactly (gp : PadArgs α) (i : Nat) : Prop :=
  forWords (gp.mode.entry .unknown i) ∧ gp.mode.entry .unknown i ≠ .linearRamp ∧ (gp.mode.entry .unknown i = .constant → ∃ n k : ℤ, gp.cv.entry (0, 0) i = ((n : α), (k : α)))

/-- all weights are integers -/
def WholeWeights (w : List α) : Prop := ∀ a ∈ w, ∃ n : ℤ, a = n

/-- there are weights, and all of them are smaller than one -/
def Small (w : List α) : Prop := w ≠ [] ∧ ∀ a ∈ w, |a| < 1

/-- all entries are numbers of the type -/
def Held (t : IntType) (z : Tensor α) : Prop := ∀ v ∈ z.data, ∃ n : ℤ, v = n ∧ Holdable t n

/-- edge response of an image of integers along axis `a`, smoothed along the other axes -/
def edgeResponseInt (w : List α) (g : Given (List α)) (gp : PadArgs α) (x : Tensor α) (axes : List Nat) (a : Nat) : Tensor α :=
  filteredInt (PoolArgs.filter g) gp (filteredInt (PoolArgs.filter (.one w)) gp x [a]) (axes.filter fun b => b ≠ a)

/-- the number of the type that a number becomes: its remainder in the range of the type -/
def wrapped (t : IntType) (n : ℤ) : ℤ := if t.signed then n.bmod (2 ^ t.bits) else n % 2 ^ t.bits

/-- unsharp masking of the number `v`, whose blurred version is `n`: the difference, and then its size, are numbers of the type -/
def sharpenedInt (t : IntType) (amount threshold : α) (v n : ℤ) : α :=
  if 0 < threshold ∧ ((wrapped t |wrapped t (v - n)| : ℤ) : α) < threshold then (v : α) else (v : α) + amount * ((wrapped t (v - n) : ℤ) : α)

/-- twice the covariance `n`, in the arithmetic of the type if the covariance is not corrected by a factor -/
def twiceInt (t : IntType) (f : α) (n : ℤ) : α := if f = 1 then ((wrapped t (2 * n) : ℤ) : α) else 2 * (((wrapped t n : ℤ) : α) * f)

/-- the sum of the variances `n` and `k` -/
def plusInt (t : IntType) (f : α) (n k : ℤ) : α :=
  if f = 1 then ((wrapped t (n + k) : ℤ) : α) else ((wrapped t n : ℤ) : α) * f + ((wrapped t k : ℤ) : α) * f

/-- the SSIM index of integers, cf. `ssimIndex`: all sums of integers are numbers of the type, before the constants are added -/
def ssimIndexInt (t : IntType) (c1 c2 f : α) (m1 m2 e11 e22 e12 : ℤ) : α :=
  ((((wrapped t (2 * (m1 * m2)) : ℤ) : α) + c1) * (twiceInt t f (e12 - m1 * m2) + c2)) /
    ((((wrapped t (m1 ^ 2 + m2 ^ 2) : ℤ) : α) + c1) * (plusInt t f (e11 - m1 ^ 2) (e22 - m2 ^ 2) + c2))

/-- the blur of an image of integers, cf. `blurred` -/
def blurredInt (g : Given (List α)) : Option (PadArgs α) → List Nat → Tensor α → Tensor α
  | none, axes, x => poolSeq x (((PoolArgs.filter g).ops axes).map truncOp)
  | some gp, axes, x => filteredInt (PoolArgs.filter g) gp x axes

end TI.Spec
