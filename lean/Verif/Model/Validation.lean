import Verif.Model.NdSpec

/-!
# torchimage/utils/validation.py and the width arithmetic of torchimage/padding/utils.py
-/

namespace TI

/-- the `axes` argument of `forward` methods -/
inductive Axes where
  | none
  | slice (s : PySlice)
  | int (a : Int)
  | seq (l : List Int)
  deriving DecidableEq, Repr

/-- utils/validation.py:3-34 `check_axes`; only `x.ndim` is used.  Slices have a positive step. -/
def checkAxes (ndim : Nat) : Axes → Except Err (List Int)
  | .none => .ok ((List.range ndim).map fun (k : Nat) => (k : Int))
  | .slice s =>
    let r := s.resolve ndim
    .ok ((List.range r.cnt).map fun (k : Nat) => ((r.lo + r.step * k : Nat) : Int))
  | .int a => .ok [if a ≥ 0 then a else ndim + a]
  | .seq l =>
    let l := l.map fun (a : Int) => if a ≥ 0 then a else ndim + a
    if l.all fun (a : Int) => decide (0 ≤ a ∧ a ≤ ndim) then .ok l else .error .assertion

/-- utils/validation.py:37-48 `check_stride` on an item: `None` stays, a list is rejected with ValueError -/
def checkStride : Py (Option Int) → Except Err (Py (Option Int))
  | .leaf none => .ok (.leaf none)
  | .leaf (some s) => if s < 1 then .error .value else .ok (.leaf (some s))
  | .seq _ => .error .value

/-- utils/validation.py:51-59 `check_pad_width`, applied to an item by `starmap`
(`func(*item)`: TypeError unless the item has two entries) -/
def checkPadWidth : Py Int → Except Err (Py Int)
  | .leaf _ => .error .type
  | .seq [.leaf b, .leaf a] =>
    if b < 0 ∨ a < 0 then .error .value else .ok (.seq [.leaf b, .leaf a])
  | .seq [_, _] => .error .value
  | .seq _ => .error .type

/-- padding/utils.py:64-117 `same_padding_width`; `stride = none` means `kernel_size`.
`ceil(in_size / stride)` is taken as the exact ceiling (the float quotient is exact enough for sizes
below 2^53). -/
def samePaddingWidth (kernel : Int) (stride inSize : Option Int) : Except Err (Int × Int) :=
  let total : Except Err Int :=
    if stride = some 1 then .ok (kernel - 1)
    else match inSize with
      | none => .error .value
      | some n =>
        let s := stride.getD kernel
        if s = 0 then .error .zeroDivision
        else
          let out := - ((-n).fdiv s)
          .ok ((out - 1) * s + kernel - n)
  match total with
  | .error e => .error e
  | .ok t =>
    let t := max t 0
    let after := t.fdiv 2
    .ok (t - after, after)

/-- filtering/utils.py:4-40 `_same_padding_pair` (the warnings are not modelled) -/
def samePaddingPair (kernel : Int) : Int × Int :=
  if kernel ≤ 1 then (0, 0)
  else
    let beg := kernel.fdiv 2
    if kernel.fmod 2 = 1 then (beg, beg) else (beg, beg - 1)

end TI
