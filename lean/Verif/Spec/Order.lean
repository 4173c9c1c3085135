import Verif.Spec.Grey

/-!
# Comparing two tensors entry by entry
-/

namespace TI.Spec

variable {α : Type} [Field α] [LinearOrder α]

/-- `x` is nowhere larger than `y` -/
def Below (x y : Tensor α) : Prop := y.shape = x.shape ∧ ∀ ix, InB x.shape ix → x.get ix ≤ y.get ix

/-- no entry of `x` differs from that of `y` by more than `δ` -/
def Close (δ : α) (x y : Tensor α) : Prop := y.shape = x.shape ∧ ∀ ix, InB x.shape ix → |x.get ix - y.get ix| ≤ δ

/-- Settings that fill with samples, statistics of samples, constants or ramps; the constants and end values of `s'` are
not smaller than those of `s`. -/
structure AxisPad.Rises (s s' : AxisPad α) : Prop where
  mode : s'.mode = s.mode
  sl : s'.sl = s.sl
  fill : match s.mode with
    | .replicate | .circular | .periodize | .symmetric | .reflect | .stat _ => True
    | .constant => s.cv.1 ≤ s'.cv.1 ∧ s.cv.2 ≤ s'.cv.2
    | .linearRamp => s.ev.1 ≤ s'.ev.1 ∧ s.ev.2 ≤ s'.ev.2
    | .antisymmetric | .smooth | .oddReflect | .oddSymmetric | .zeros | .empty | .unknown | .custom _ => False

/-- the settings of `n` axes rise -/
def PadArgs.Rises (n : Nat) (gp gp' : PadArgs α) : Prop := ∀ i < n, (gp.entry i).Rises (gp'.entry i)

end TI.Spec
