import Verif.Spec.Edges
import Verif.Spec.Metrics

/-!
# Structural similarity
-/

namespace TI.Spec

variable {α : Type}

section
variable [Field α]

/-- factor that turns a mean over `n` samples into a sum divided by `n - 1` -/
def covFactor (sampleCov : Bool) (n : Nat) : α := if sampleCov then (n : α) / ((n : α) - 1) else 1

/-- number of samples in the window over `m` axes -/
def windowSize (g : Given (List α)) (m : Nat) : Nat := ((List.range m).map fun i => (g.entry [] i).length).prod

/-- map of SSIM indices, for a blur `b` -/
def ssimMap (k1 k2 f : α) (b : Tensor α → Tensor α) (y1 y2 : Tensor α) : Tensor α :=
  Tensor.ofFn (b y1).shape fun ix => ssimIndex (k1 ^ 2) (k2 ^ 2) f ((b y1).get ix) ((b y2).get ix)
    ((b (times y1 y1)).get ix) ((b (times y2 y2)).get ix) ((b (times y1 y2)).get ix)

/-- map of the indices without the comparison of the means -/
def csMap (k2 f : α) (b : Tensor α → Tensor α) (y1 y2 : Tensor α) : Tensor α :=
  Tensor.ofFn (b y1).shape fun ix => csIndex (k2 ^ 2) f ((b y1).get ix) ((b y2).get ix)
    ((b (times y1 y1)).get ix) ((b (times y2 y2)).get ix) ((b (times y1 y2)).get ix)

/-- means over the reduced axes (over all axes if none are named), one for every position of the remaining axes -/
def meanOver (x : Tensor α) (axes : List Nat) : Tensor α :=
  Tensor.ofFn (onKept (reducedAxes x.ndim axes) x.shape) fun jx => mean ((collected x.shape (reducedAxes x.ndim axes) jx).map x.get)

/-- sliding windows inside the image -/
def valid (g : Given (List α)) (axes : List Nat) (x : Tensor α) : Tensor α := poolSeq x ((PoolArgs.filter g).ops axes)

variable [LinearOrder α]

/-- the blur: same-padded filtering, or windows inside the image if there are no padding settings -/
def blurred (g : Given (List α)) : Option (PadArgs α) → List Nat → Tensor α → Tensor α
  | none, axes, x => valid g axes x
  | some gp, axes, x => filtered g gp x axes

/-- Conditions of a blur: without a padder the windows fit, with a padder `SameCall`. -/
def BlurCall (g : Given (List α)) : Option (PadArgs α) → Tensor α → Axes → List Nat → Option (Padder α) → Prop
  | none, x, ax, axes, p => p = none ∧ axesOf x.ndim ax = some axes ∧ Fitting x ((PoolArgs.filter g).ops axes)
  | some gp, x, ax, axes, p => (∃ p0, p = some p0 ∧ Holds p0 gp) ∧ SameCall (PoolArgs.filter g) gp x ax axes

/-- the padder after a blur -/
def padderAfter (g : Given (List α)) (gp : Option (PadArgs α)) (shape axes : List Nat) : Option (Padder α) :=
  gp.map fun gp => (gp.withWidths ((PoolArgs.filter g).widths shape axes)).padder axes.length

/-- settings that fill with samples, means of samples, or a constant between 0 and 1 -/
def AxisPad.KeepsMoments (s : AxisPad α) : Prop :=
  match s.mode with
  | .replicate | .circular | .periodize | .symmetric | .reflect => True
  | .stat .mean => True
  | .constant => (0 ≤ s.cv.1 ∧ s.cv.1 ≤ 1) ∧ (0 ≤ s.cv.2 ∧ s.cv.2 ≤ 1)
  | _ => False

/-- the padding settings of all axes keep moments possible -/
def KeepsMoments (gp : Option (PadArgs α)) (axes : List Nat) : Prop := ∀ g ∈ gp, ∀ i < axes.length, (g.entry i).KeepsMoments

end

end TI.Spec
