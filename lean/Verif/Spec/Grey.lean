import Verif.Spec.MsSsim

/-!
# Changing the grey values
-/

namespace TI.Spec

variable {α : Type} [Field α] [LinearOrder α]

/-- what a statistic needs to follow a change of the grey values -/
def StatFollows (f : α → α) : Stat → Prop
  | .mean => ∃ c d, ∀ v, f v = c * v + d
  | _ => ∀ u v, u ≤ v → f u ≤ f v

/-- How the settings of one axis follow a change `f` of the grey values: constants and end values are changed as well; modes that compare samples
need an `f` that keeps the order, modes that compute with samples need an affine one, and modes that change the sign an odd one. -/
structure AxisPad.Follows (f : α → α) (s s' : AxisPad α) : Prop where
  mode : s'.mode = s.mode
  sl : s'.sl = s.sl
  fill : match s.mode with
    | .replicate | .circular | .periodize | .symmetric | .reflect => True
    | .antisymmetric => ∀ v, f (-v) = - f v
    | .zeros => f 0 = 0
    | .constant => s'.cv = (f s.cv.1, f s.cv.2)
    | .linearRamp => s'.ev = (f s.ev.1, f s.ev.2) ∧ ∃ c d, ∀ v, f v = c * v + d
    | .smooth | .oddReflect | .oddSymmetric => ∃ c d, ∀ v, f v = c * v + d
    | .stat st => StatFollows f st
    | .empty | .unknown | .custom _ => False

/-- the settings of `n` axes follow the change -/
def PadArgs.Follows (f : α → α) (n : Nat) (gp gp' : PadArgs α) : Prop := ∀ i < n, (gp.entry i).Follows f (gp'.entry i)

/-- settings that may stay when the grey values are multiplied by `c` -/
def Scales (c : α) (gp : Option (PadArgs α)) (n : Nat) : Prop := ∀ a ∈ gp, a.Follows (fun v => c * v) n a

/-- product of the sums of the weights of all axes -/
def totalWeight (ops : List (PoolOp α)) : α := (ops.map fun o => if o.kernel = [] then 1 else o.kernel.sum).prod

end TI.Spec
