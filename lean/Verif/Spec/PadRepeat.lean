import Verif.Spec.Axes

/-!
# Padding requests in which an axis may occur several times
-/

namespace TI

variable {α : Type}

/-- modes whose 1-d function looks at the whole buffer along the axis: the ramp reaches its end value at
the border of the buffer, and `periodize` appends one sample to signals of odd length -/
def Mode.whole : Mode α → Bool
  | .linearRamp | .periodize => true
  | _ => false

namespace Spec

/-- As `PadCall`, but the axes need not be distinct: only the axes padded in mode `linear_ramp` or
`periodize` must occur once. -/
structure PadCallRep [Field α] [LinearOrder α] (p : Padder α) (x : Tensor α) (ax : Axes) (axes : List Nat)
    (ss : List (AxisPad α)) : Prop where
  ndim_ne : x.ndim ≠ 0
  axes_eq : axesOf x.ndim ax = some axes
  once : ∀ o ∈ zipRight axes ss, o.2.mode.whole = true → ((zipRight axes ss).map Prod.fst).count o.1 = 1
  len : ss.length = if p.ndim > 0 then min axes.length p.ndim.toNat else axes.length
  reads : ∀ j (h : j < ss.length), Reads p ((j : Int) - ss.length) ss[j]
  valued : ∀ o ∈ zipRight axes ss, ¬ (o.2.before = 0 ∧ o.2.after = 0) →
    o.2.rule? ≠ none ∧ o.2.mode ≠ .zeros ∧ 0 < x.shape.getD o.1 0

end Spec

end TI
