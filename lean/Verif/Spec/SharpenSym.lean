import Verif.Spec.Edges
import Verif.Spec.Grey

/-!
# Unsharp masking: conditions of a call
-/

namespace TI.Spec

variable {α : Type} [Field α] [LinearOrder α]

/-- conditions of a call of an `UnsharpMask` with kernels `g` (given for `m` axes) and padding settings `gp` -/
structure SharpenCall (g : Given (List α)) (m : Nat) (gp : PadArgs α) (x : Tensor α) (ax : Axes) (axes : List Nat) : Prop where
  axes_eq : axesOf x.ndim ax = some axes
  call : SameCall (PoolArgs.filter g) gp x (.seq (castV axes)) axes
  many : g.isMany = true → axes.length = m
  keep : ∀ i < axes.length, (gp.mode.entry .unknown i).isPeriodize = false ∨ x.shape.getD (axes.getD i 0) 0 % 2 = 0

end TI.Spec
