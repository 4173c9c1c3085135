import Verif.Model.Pad1d
import Verif.Model.Validation

/-!
# torchimage/padding/generic_pad.py
-/

namespace TI

/-- values of `mode`: the strings of generic_pad.py:10-28, any other string, or a callable -/
inductive Mode (α : Type) where
  | replicate | smooth | circular | periodize | symmetric | reflect | antisymmetric
  | oddReflect | oddSymmetric
  | stat (s : Stat)
  | zeros | constant | linearRamp | empty
  | unknown
  | custom (f : Tensor α → List PySlice → Nat → Except Err (Tensor α))

namespace Mode
variable {α : Type}

/-- `mode == "periodize"` -/
def isPeriodize : Mode α → Bool
  | .periodize => true
  | _ => false

end Mode

/-- generic_pad.py:36-94, the attributes of a `Padder` -/
structure Padder (α : Type) where
  padWidth : NdSpec Int
  mode : NdSpec (Mode α)
  constantValues : NdSpec α
  endValues : NdSpec α
  statLength : NdSpec (Option Int)
  ndim : Int

namespace Padder
variable {α : Type}

/-- generic_pad.py:91-94 `_align_params` (the new value of `self.ndim`) -/
def alignParams (pw : NdSpec Int) (mode : NdSpec (Mode α)) (cv ev : NdSpec α)
    (sl : NdSpec (Option Int)) : Except Err Int :=
  NdSpec.aggIndexLen [pw.indexShape, mode.indexShape, cv.indexShape, ev.indexShape, sl.indexShape]

/-- generic_pad.py:82-83 `self.mode.map(_check_padding_mode)`; the result is thrown away, but a list
where a mode is expected is an unhashable set member (TypeError).  (A tuple is hashable and passes here, to raise
ValueError when it is used; `Py` does not tell tuples from lists.) -/
def checkMode : Py (Mode α) → Except Err (Py Unit)
  | .leaf _ => .ok (.leaf ())
  | .seq _ => .error .type

/-- generic_pad.py:37-89 `__init__` on raw (non-`NdSpec`) specifications -/
def init (padWidth : Py Int) (mode : Py (Mode α)) (constantValues endValues : Py α)
    (statLength : Py (Option Int)) : Except Err (Padder α) := do
  let pw ← NdSpec.ofItem [2] padWidth
  let pw ← pw.map checkPadWidth
  let mode ← NdSpec.ofItem [] mode
  let _ ← mode.map checkMode
  let cv ← NdSpec.ofItem [2] constantValues
  let ev ← NdSpec.ofItem [2] endValues
  let sl ← NdSpec.ofItem [2] statLength
  let ndim ← alignParams pw mode cv ev sl
  .ok ⟨pw, mode, cv, ev, sl, ndim⟩

/-- `spec[i][0], spec[i][1]` -/
def pairAt {β : Type} (s : NdSpec β) (i : Int) : Except Err (β × β) := do
  let p ← s.get i
  let a ← p.index 0
  let b ← p.index 1
  match a, b with
  | .leaf a, .leaf b => .ok (a, b)
  | _, _ => .error .type

/-- `self.mode[i]` -/
def modeAt (p : Padder α) (i : Int) : Except Err (Mode α) := do
  match ← p.mode.get i with
  | .leaf m => .ok m
  | .seq _ => .error .type

/-- an axis number used to index `head_vec`, `idx` and `x.shape`.  Out-of-range axes are IndexError;
negative ones (only possible for an `int` argument below `-ndim`) would wrap once more in Python and
are also rejected here. -/
def axisNat (ndim : Nat) (a : Int) : Except Err Nat :=
  if 0 ≤ a ∧ a < ndim then .ok a.toNat else .error .index

section
variable [Field α] [LinearOrder α]

/-- generic_pad.py:160-186: select and run the padding function.  The loops get the axis length as
fuel: `circular1d_spec` etc. show that this suffices on non-empty axes, `circular1d_diverges` that no
fuel suffices on empty ones. -/
def runMode (p : Padder α) (np : Bool) (i : Int) (mode : Mode α) (y : Tensor α) (idx : List PySlice) (axis : Nat) :
    Except Err (Tensor α) :=
  let fuel := y.shape.getD axis 0
  match mode with
  | .replicate => replicate1d y idx axis
  | .smooth => smooth1d y idx axis
  | .circular => circular1d fuel y idx axis
  | .periodize => periodize1d fuel y idx axis
  | .symmetric => symmetric1d np fuel false y idx axis
  | .reflect => reflect1d np fuel y idx axis
  | .antisymmetric => symmetric1d np fuel true y idx axis
  | .oddReflect => oddReflect1d fuel y idx axis
  | .oddSymmetric => oddSymmetric1d fuel y idx axis
  | .stat s => do
    let sl ← pairAt p.statLength i
    stat1d s sl.1 sl.2 y idx axis
  | .constant => do
    let cv ← pairAt p.constantValues i
    constant1d cv.1 cv.2 y idx axis
  | .linearRamp => do
    let ev ← pairAt p.endValues i
    linearRamp1d ev.1 ev.2 y idx axis
  | .zeros => .ok y
  | .empty => .ok y
  | .unknown => .error .value
  | .custom f => f y idx axis

/-- generic_pad.py:188-193, the widened region -/
def widen (mode : Mode α) (pw : Int × Int) (idx : List PySlice) (axis : Nat) :
    Except Err (List PySlice) := do
  let (head, tail) ← bounds idx axis
  let newTail := tail + pw.2 + (if mode.isPeriodize then (tail - head).fmod 2 else 0)
  .ok (modifyIdx (.between (head - pw.1) newTail) idx axis)

/-- generic_pad.py:127-193 `_fill_value_1d`.  The region `idx` is `none` when it is not a tuple of
slices: line 164 returns the function `pad_1d.zeros_1d` instead of calling it, so `idx` becomes a
function object and subscripting it later is a TypeError.  `np` says that the bounds
in `idx` are numpy integers, see `lengthDiv`. -/
def fillValue1d (p : Padder α) (np : Bool) (y : Tensor α) (i : Int) (axis : Int) (idx : Option (List PySlice)) :
    Except Err (Tensor α × Option (List PySlice)) := do
  let pw ← pairAt p.padWidth i
  if pw.1 = 0 ∧ pw.2 = 0 then return (y, idx)
  let mode ← p.modeAt i
  match mode with
  | .empty => return (y, idx)
  | .zeros => return (y, none)
  | .unknown => .error .value
  | _ =>
    match idx with
    | none => .error .type
    | some idx =>
      let axis ← axisNat y.ndim axis
      let y ← runMode p np i mode y idx axis
      let idx ← widen mode pw idx axis
      return (y, some idx)

end

/-- `v[a] += k` -/
def vecAdd (v : List Int) (a : Nat) (k : Int) : List Int := v.set a (v.getD a 0 + k)

/-- generic_pad.py:237-246, one iteration of the loop computing the widths per tensor axis -/
def accStep (p : Padder α) (shape : List Nat) (axes : List Int) (i : Int)
    (acc : List Int × List Int) : Except Err (List Int × List Int) := do
  let pw ← pairAt p.padWidth i
  if pw.1 = 0 ∧ pw.2 = 0 then return acc
  let a ← pyIndex axes i
  let a ← axisNat shape.length a
  let after := vecAdd acc.2 a pw.2
  let mode ← p.modeAt i
  let after := if mode.isPeriodize then vecAdd after a ((shape.getD a 0 : Int).fmod 2) else after
  return (vecAdd acc.1 a pw.1, after)

/-- generic_pad.py:237-246, the loop -/
def accLoop (p : Padder α) (shape : List Nat) (axes : List Int) :
    List Int → List Int × List Int → Except Err (List Int × List Int)
  | [], acc => .ok acc
  | i :: is, acc => do
    let acc ← accStep p shape axes i acc
    accLoop p shape axes is acc

/-- `range(-k, 0)` -/
def negRange (k : Nat) : List Int := (List.range k).map fun (j : Nat) => (j : Int) - k

/-- generic_pad.py:229-231, the number of padded axes -/
def nPadded (p : Padder α) (axes : List Int) : Nat :=
  if p.ndim > 0 then min axes.length p.ndim.toNat else axes.length

variable [Field α] [LinearOrder α]

/-- generic_pad.py:259-260, the loop filling the axes -/
def fillLoop (p : Padder α) (axes : List Int) :
    List Int → Tensor α → Option (List PySlice) → Except Err (Tensor α)
  | [], y, _ => .ok y
  | i :: is, y, idx => do
    let a ← pyIndex axes i
    let (y, idx) ← fillValue1d p true y i a idx
    fillLoop p axes is y idx

/-- generic_pad.py:195-262 `forward`.  `junk` is the content of `torch.empty`. -/
def forward (p : Padder α) (junk : List Nat → α) (x : Tensor α) (axes : Axes) :
    Except Err (Tensor α) := do
  if x.ndim = 0 then .error .assertion
  let axes ← checkAxes x.ndim axes
  if axes = [] then return x
  let is := negRange (p.nPadded axes)
  let zero := x.shape.map fun _ => (0 : Int)
  let (headV, afterV) ← accLoop p x.shape axes is (zero, zero)
  let tailV := List.zipWith (fun (h : Int) (n : Nat) => h + (n : Int)) headV x.shape
  let newV := List.zipWith (fun (t a : Int) => t + a) tailV afterV
  if newV = x.shape.map fun (n : Nat) => (n : Int) then return x
  if newV.any (· < 0) then .error .runtime
  let y := Tensor.empty junk (newV.map Int.toNat)
  let idx := List.zipWith PySlice.between headV tailV
  let y ← y.setSlice idx x
  fillLoop p axes is y (some idx)

/-- generic_pad.py:264-320 `pad_axis` -/
def padAxis (p : Padder α) (junk : List Nat → α) (x : Tensor α) (i : Int) (axis : Int) :
    Except Err (Tensor α) := do
  let axis := if axis ≥ 0 then axis else x.ndim + axis
  let pw ← pairAt p.padWidth i
  if pw.1 = 0 ∧ pw.2 = 0 then return x
  let a ← axisNat x.ndim axis
  let head := pw.1
  let tail := head + (x.shape.getD a 0 : Nat)
  let length := tail + pw.2
  if length < 0 then .error .runtime
  let idx := makeIdx (.between head tail) a x.ndim
  let y := Tensor.empty junk (x.shape.set a length.toNat)
  let y ← y.setSlice idx x
  let (y, _) ← fillValue1d p false y i axis (some idx)
  return y

/-- padding/utils.py:64-117 as applied by `to_same` to items -/
def sameItem (k s n : Py (Option Int)) : Except Err (Py Int) :=
  match k, s, n with
  | .leaf (some k), .leaf s, .leaf n => do
    let r ← samePaddingWidth k s n
    .ok (.seq [.leaf r.1, .leaf r.2])
  | _, _, _ => .error .type

/-- generic_pad.py:96-125 `to_same`.  The padder is updated in place: the first component is the state
of the object afterwards (also when an exception leaves the method), the second the outcome. -/
def toSame (p : Padder α) (kernel stride inShape : NdSpec (Option Int)) : Padder α × Except Err Unit :=
  match NdSpec.apply3 sameItem kernel stride inShape with
  | .error e => (p, .error e)
  | .ok pw =>
    let p' := { p with padWidth := pw }
    match alignParams pw p.mode p.constantValues p.endValues p.statLength with
    | .error e => (p', .error e)
    | .ok n => ({ p' with ndim := n }, .ok ())

end Padder

end TI
