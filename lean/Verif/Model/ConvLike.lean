import Verif.Model.Pad1d
import Verif.Model.Validation
import Verif.Model.Misc

/-!
# torchimage/shapes/conv_like.py and `pad_width_format` of torchimage/padding/utils.py
-/

namespace TI

/-- conv_like.py:8-30 `conv_1d` -/
def conv1d (inSize kernel stride dilation : Int) : Except Err Int := do
  let q ← pyDiv (inSize - dilation * (kernel - 1) - 1) stride
  .ok (q + 1)

/-- an item that must be a plain integer -/
def asInt : Py Int → Except Err Int
  | .leaf a => .ok a
  | .seq _ => .error .type

/-- conv_like.py:33-35 `conv_nd` -/
def convNd (inSize kernel stride dilation : NdSpec Int) : Except Err (NdSpec Int) :=
  NdSpec.apply4 (fun n k s d => do
    let n ← asInt n
    let k ← asInt k
    let s ← asInt s
    let d ← asInt d
    let r ← conv1d n k s d
    .ok (.leaf r)) inSize kernel stride dilation

/-- conv_like.py:86-88, `for i in range(n_rising)`: the values appended and the new `pad_before` -/
def risingLoop (kernel stride : Int) : Nat → List Int → Int → List Int × Int
  | 0, ret, padBefore => (ret, padBefore)
  | n + 1, ret, padBefore => risingLoop kernel stride n (ret ++ [kernel - padBefore]) (padBefore - stride)

/-- conv_like.py:94-96, `while pad_before > 0`; `none` means the fuel ran out -/
def plateauLoop (inSize stride : Int) : Nat → List Int → Int → Option (List Int × Int)
  | fuel, ret, padBefore =>
    if padBefore > 0 then
      match fuel with
      | 0 => none
      | fuel + 1 => plateauLoop inSize stride fuel (ret ++ [inSize]) (padBefore - stride)
    else some (ret, padBefore)

/-- `range(start, 0, -stride)` for a positive stride -/
def rangeDown (start stride : Int) : List Int :=
  (List.range ((start + stride - 1).fdiv stride).toNat).map fun (j : Nat) => start - j * stride

/-- conv_like.py:103-105, `for s in range(min(in_size, kernel_size), 0, -stride)` -/
def fallingLoop (stride : Int) : List Int → List Int → Int → List Int × Int
  | [], ret, inSize => (ret, inSize)
  | s :: ss, ret, inSize => fallingLoop stride ss (ret ++ [s]) (inSize - stride)

/-- `[a] * n` -/
def pyRep (n : Int) (a : Int) : List Int := List.replicate n.toNat a

/-- `l[:n]` -/
def pyTake (n : Int) (l : List Int) : List Int := if n < 0 then l.take (l.length + n).toNat else l.take n.toNat

/-- conv_like.py:79-82, skip the windows that see only padding before the signal -/
def skipBefore (padBefore kernel stride : Int) : Except Err (List Int × Int) :=
  if padBefore > kernel then do
    let q ← pyDiv (padBefore - kernel) stride
    let r ← pyMod (padBefore - kernel) stride
    .ok (pyRep (q + 1) 0, kernel - (stride - r))
  else .ok ([], padBefore)

/-- conv_like.py:98-109, everything after the plateau -/
def afterPlateau (padAfter kernel stride : Int) (ret : List Int) (inSize : Int) : Except Err (List Int) :=
  if inSize < 0 then do
    let z ← pyDiv (inSize + padAfter - kernel) stride
    .ok (ret ++ pyRep (z + 1) 0)
  else do
    let (ret, inSize) := fallingLoop stride (rangeDown (min inSize kernel) stride) ret inSize
    let z ← pyDiv (padAfter + inSize - kernel) stride
    .ok (ret ++ pyRep (z + 1) 0)

/-- conv_like.py:38-110 `n_original_elements_1d` -/
def nOriginal1d (inSize : Int) (padWidth : Int × Int) (kernel stride : Int) : Except Err (List Int) := do
  let outSize ← conv1d (inSize + padWidth.1 + padWidth.2) kernel stride 1
  if kernel > padWidth.1 + padWidth.2 + inSize then return []
  let (ret, padBefore) ← skipBefore padWidth.1 kernel stride
  let q ← pyDiv (padBefore + inSize - kernel) stride
  let nRisingMonotone := q + 1
  let q ← pyDiv padBefore stride
  let nRising := min nRisingMonotone (q + 1)
  let (ret, padBefore) := risingLoop kernel stride nRising.toNat ret padBefore
  let nSame := max (nRisingMonotone - nRising) 0
  let ret := ret ++ pyRep nSame kernel
  let padBefore := padBefore - stride * nSame
  match plateauLoop inSize stride padBefore.toNat ret padBefore with
  | none => .error .diverge
  | some (ret, padBefore) =>
    let ret ← afterPlateau padWidth.2 kernel stride ret (inSize + padBefore)
    .ok (pyTake outSize ret)

/-- an item that must be a pair of integers -/
def asPair : Py Int → Except Err (Int × Int)
  | .seq [.leaf a, .leaf b] => .ok (a, b)
  | .seq [_, _] => .error .type
  | .seq _ => .error .value
  | .leaf _ => .error .type

/-- an item that must be a list of integers: `torch.tensor(x, dtype=..)` -/
def asInts : Py Int → Except Err (List Int)
  | .leaf _ => .error .type
  | .seq l => NdSpec.sequence (l.map asInt)

/-- `functools.reduce(outer, l)`; TypeError on an empty sequence -/
def reduceOuter {α : Type} [Zero α] [Mul α] : List (Tensor α) → Except Err (Tensor α)
  | [] => .error .type
  | t :: ts => ts.foldl (fun acc v => acc.bind fun u => outer u v) (.ok t)

/-- conv_like.py:113-122 `n_original_elements_nd` with the entries left as integers -/
def nOriginalNd (inSize padWidth kernel stride : Py Int) : Except Err (Tensor Int) := do
  let inSize ← NdSpec.ofItem [] inSize
  let padWidth ← NdSpec.ofItem [2] padWidth
  let kernel ← NdSpec.ofItem [] kernel
  let stride ← NdSpec.ofItem [] stride
  let r ← NdSpec.apply4 (fun n w k s => do
    let n ← asInt n
    let w ← asPair w
    let k ← asInt k
    let s ← asInt s
    let l ← nOriginal1d n w k s
    .ok (.seq (l.map .leaf))) inSize padWidth kernel stride
  -- `.map(torch.tensor)` and the iteration of `reduce` visit the same items
  let items ← r.toList
  let lists ← NdSpec.sequence (items.map asInts)
  reduceOuter (lists.map Tensor.vec)

/-- padding/utils.py:170-173, numpy format to torch format -/
def numpyToTorch {α : Type} (padding : List (List α)) : List α := padding.reverse.flatten

/-- `padding[i:i+2] for i in range(0, len(padding), 2)` -/
def pairsOf {α : Type} : List α → List (List α)
  | [] => []
  | [a] => [[a]]
  | a :: b :: l => [a, b] :: pairsOf l

/-- padding/utils.py:174-178, torch format to numpy format -/
def torchToNumpy {α : Type} [Zero α] (ndim : Option Nat) (padding : List α) : Except Err (List (List α)) :=
  match ndim with
  | none => .error .assertion
  | some ndim => .ok (List.replicate (ndim - padding.length / 2) [0, 0] ++ (pairsOf padding).reverse)

/-- `tuple(x)`; a number is not iterable -/
def asRow {α : Type} : Py α → Except Err (List (Py α))
  | .leaf _ => .error .type
  | .seq r => .ok r

/-- padding/utils.py:128-181 `pad_width_format` on any nested list; a number where a list is needed is a TypeError -/
def padWidthFormat {α : Type} [Zero α] (padding : Py α) (source target : String) (ndim : Option Nat) : Except Err (Py α) :=
  if source = target then .ok padding
  else if source = "numpy" ∧ target = "torch" then
    match padding with
    | .leaf _ => .error .type
    | .seq l => do
      let rows ← NdSpec.sequence (l.map asRow)
      .ok (.seq rows.reverse.flatten)
  else if source = "torch" ∧ target = "numpy" then
    match padding with
    | .leaf _ => .error .type
    | .seq l =>
      match ndim with
      | none => .error .assertion
      | some ndim => .ok (.seq (List.replicate (ndim - l.length / 2) (.seq [.leaf 0, .leaf 0]) ++ ((pairsOf l).map .seq).reverse))
  else .error .value

/-- padding/utils.py:120-125 `_check_padding` for a tensor with `ndim` axes; an item that is not an integer fails the
last assertion -/
def checkPadding (ndim : Nat) : Py Int → Except Err Unit
  | .leaf _ => .error .assertion
  | .seq l =>
    if l.length % 2 ≠ 0 then .error .assertion
    else if l.length / 2 > ndim then .error .assertion
    else if l.all (fun
      | .leaf p => decide (0 ≤ p)
      | .seq _ => false) then .ok ()
    else .error .assertion

end TI
