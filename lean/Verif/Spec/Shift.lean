import Verif.Spec.MsSsim
import Verif.Spec.PadCoord

/-!
# Images that differ in brightness

Independent description for C110.
-/

namespace TI.Spec
open Tensor

section
variable {α : Type} [Field α] [LinearOrder α]

/-- settings whose fill values grow by `d` if all samples grow by `d`, and are linear functions of the samples -/
def AxisPad.Shifts (s : AxisPad α) : Prop :=
  match s.mode with
  | .replicate | .circular | .periodize | .symmetric | .reflect | .oddReflect | .oddSymmetric | .smooth => True
  | .stat .mean => True
  | _ => False

/-- the same for all axes -/
def Shifts (gp : Option (PadArgs α)) (n : Nat) : Prop := ∀ g ∈ gp, ∀ i < n, (g.entry i).Shifts

/-- the weights sum to one -/
def UnitSums (g : Given (List α)) (n : Nat) : Prop := ∀ i < n, g.entry [] i ≠ [] → (g.entry [] i).sum = 1

/-- comparison of two means -/
def luminance (c1 m1 m2 : α) : α := (2 * (m1 * m2) + c1) / (m1 ^ 2 + m2 ^ 2 + c1)

/-- the map for images that are `a` and `d` brighter than `y1` and `y2`: only the comparison of the means changes -/
def shiftedMap (k1 k2 f a d : α) (b : Tensor α → Tensor α) (y1 y2 : Tensor α) : Tensor α :=
  Tensor.ofFn (b y1).shape fun ix => luminance (k1 ^ 2) ((b y1).get ix + a) ((b y2).get ix + d) * (csMap k2 f b y1 y2).get ix

end

end TI.Spec
