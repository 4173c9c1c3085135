import Verif.Spec.Cfa
import Verif.Spec.Flt
import Verif.Spec.Rounding
import Mathlib.Algebra.Order.Group.Unbundled.Abs

/-!
# Demosaicing as a weighted sum, and weighted sums of numbers that are not finite
-/

namespace TI.Spec

/-- the offsets of a 5 x 5 window -/
def offsets : List (Int × Int) := [-2, -1, 0, 1, 2].flatMap fun di => [-2, -1, 0, 1, 2].map fun dj => (di, dj)

section
variable {α : Type} [Field α]

/-- the weight of the sample at offset `(di, dj)` when the colour is found from the samples at both sides in the row -/
def rowWeight (di dj : Int) : α :=
  match di.natAbs, dj.natAbs with
  | 0, 0 => 5 / 8
  | 0, 1 => 1 / 2
  | 1, 1 => -(1 / 8)
  | 0, 2 => -(1 / 8)
  | 2, 0 => 1 / 16
  | _, _ => 0

/-- the weight of the sample at offset `(di, dj)` in the estimate of colour `t` at a pixel of kind `k`, cf. `malvar` -/
def malvarWeight (k : Kind) (t : Color) (di dj : Int) : α :=
  match k, t with
  | .red, .green | .blue, .green =>
    match di.natAbs, dj.natAbs with
    | 0, 0 => 1 / 2
    | 0, 1 | 1, 0 => 1 / 4
    | 0, 2 | 2, 0 => -(1 / 8)
    | _, _ => 0
  | .red, .blue | .blue, .red =>
    match di.natAbs, dj.natAbs with
    | 0, 0 => 3 / 4
    | 1, 1 => 1 / 4
    | 0, 2 | 2, 0 => -(3 / 16)
    | _, _ => 0
  | .greenInRed, .red | .greenInBlue, .blue => rowWeight di dj
  | .greenInRed, .blue | .greenInBlue, .red => rowWeight dj di
  | _, _ => if di = 0 ∧ dj = 0 then 1 else 0

variable [LinearOrder α]

/-- a weighted sum (a list of weights and entries) that is not defined: an entry is NaN, an infinite entry has the weight zero, or there are infinite products of both signs -/
def Undefined (l : List (α × Flt α)) : Prop :=
  (∃ e ∈ l, e.2 = .nan) ∨ (∃ e ∈ l, e.1 = 0 ∧ ∃ s, e.2 = .inf s) ∨ ((∃ e ∈ l, Pulls e.1 e.2 true) ∧ ∃ e ∈ l, Pulls e.1 e.2 false)

/-- weights and entries of a convolution at one pixel, cf. `bayerFilter` -/
def filterWindow (x : Tensor (Flt α)) (bi : List Nat) (h w inC size : Nat) (weight : Nat → Nat → Nat → α) (i j : Nat) : List (α × Flt α) :=
  (List.range inC).flatMap fun k => (List.range size).flatMap fun a => (List.range size).map fun b =>
    (weight k a b, x.get (bi ++ [k, reflC h ((i : Int) + a - (size / 2 : Nat)), reflC w ((j : Int) + b - (size / 2 : Nat))]))

/-- weights and entries of the estimate of colour `t` at a pixel of kind `k` -/
def malvarWindow (k : Kind) (t : Color) (v : Int → Int → Flt α) : List (α × Flt α) := offsets.map fun d => (malvarWeight k t d.1 d.2, v d.1 d.2)

/-- the scale of the estimate: absolute weights and absolute values -/
def malvarScale (k : Kind) (t : Color) (v : Int → Int → α) : α := (offsets.map fun d => |malvarWeight (α := α) k t d.1 d.2| * |v d.1 d.2|).sum

end

end TI.Spec
