import Verif.Spec.PadNd

/-!
# Which axes are meant by an `axes` argument, and which settings apply to them
-/

namespace TI.Spec

variable {α : Type}

/-- a possibly negative axis number of an `n`-dimensional tensor -/
def normAxis (n : Nat) (a : Int) : Option Nat :=
  if -(n : Int) ≤ a ∧ a < n then some (if a < 0 then (a + n).toNat else a.toNat) else none

/-- all axis numbers, or `none` if one is invalid -/
def normAxes (n : Nat) : List Int → Option (List Nat)
  | [] => some []
  | a :: l => match normAxis n a, normAxes n l with
    | some k, some ks => some (k :: ks)
    | _, _ => none

/-- the axes meant by an `axes` argument: all axes, a Python slice of `0 … n-1`, one axis, or a list -/
def axesOf (n : Nat) : Axes → Option (List Nat)
  | .none => some (List.range n)
  | .int a => normAxes n [a]
  | .seq l => normAxes n l
  | .slice s =>
    if s.step = 0 then none else
    let lo := match s.start with | none => 0 | some v => normBound n v
    let hi := match s.stop with | none => n | some v => normBound n v
    some ((List.range n).filter fun k => decide (lo ≤ k ∧ k < hi ∧ (k - lo) % s.step = 0))

/-- axis / settings pairs: the settings belong to the last axes -/
def zipRight (axes : List Nat) (ss : List (AxisPad α)) : List (Nat × AxisPad α) :=
  (axes.drop (axes.length - ss.length)).zip ss

/-- A padding request: `axes` are the distinct axes meant by `ax`, and `ss` are the settings prescribed by
the padder for the last `ss.length` of them, whatever the modes are. -/
structure PadReq (p : Padder α) (x : Tensor α) (ax : Axes) (axes : List Nat) (ss : List (AxisPad α)) :
    Prop where
  ndim_ne : x.ndim ≠ 0
  axes_eq : axesOf x.ndim ax = some axes
  nodup : axes.Nodup
  len : ss.length = if p.ndim > 0 then min axes.length p.ndim.toNat else axes.length
  reads : ∀ j (h : j < ss.length), Reads p ((j : Int) - ss.length) ss[j]

/-- A well-formed padding request: `axes` are the distinct axes meant by `ax`, and `ss` are the settings
prescribed by the padder for the last `ss.length` of them (right-justified; all axes if the padder has
no list-like setting).  On every axis that is actually widened the mode is one that defines values
(`zeros` is excluded, see `C20_zeros_false`), and the axis is not empty. -/
structure PadCall [Field α] [LinearOrder α] (p : Padder α) (x : Tensor α) (ax : Axes) (axes : List Nat)
    (ss : List (AxisPad α)) : Prop where
  ndim_ne : x.ndim ≠ 0
  axes_eq : axesOf x.ndim ax = some axes
  nodup : axes.Nodup
  len : ss.length = if p.ndim > 0 then min axes.length p.ndim.toNat else axes.length
  reads : ∀ j (h : j < ss.length), Reads p ((j : Int) - ss.length) ss[j]
  valued : ∀ o ∈ zipRight axes ss, ¬ (o.2.before = 0 ∧ o.2.after = 0) →
    o.2.rule? ≠ none ∧ o.2.mode ≠ .zeros ∧ 0 < x.shape.getD o.1 0

end TI.Spec
