import Verif.Model.Padder
import Verif.Model.Integers
import Mathlib.Data.BitVec

/-!
# torchimage/padding for images of an integer type

The buffer has the type of the image (generic_pad.py:252), so the arithmetic of the padding functions is that of machine integers, here
bit vectors, and everything assigned to the buffer is converted to the type of the image.
Simplifications: numbers assigned to the buffer are in the range of the type (PyTorch refuses others); the floating-point numbers between
an integer image and its ramp are exact; callables as modes are not covered.
-/

namespace TI

variable {α β : Type}

/-- an integer type of PyTorch: `uint8` is `⟨8, false⟩`, `int64` is `⟨64, true⟩` -/
structure IntType where
  bits : Nat
  signed : Bool

/-- machine integers of a type -/
abbrev IntType.Word (t : IntType) : Type := BitVec t.bits

/-- the number meant by a machine integer -/
def IntType.value (t : IntType) (v : t.Word) : ℤ := if t.signed then v.toInt else (v.toNat : ℤ)

/-- conversion of a number (assigned to a tensor of the type): digits after the point are dropped -/
def IntType.convert [Field α] [LinearOrder α] [FloorRing α] (t : IntType) (a : α) : t.Word := BitVec.ofInt t.bits (truncate a)

section Stat
variable [Zero β]

/-- pad_1d.py:371-400 `stat_1d` for a reduction `red`, cf. `stat1d` -/
def stat1dWith (red : Tensor β → Nat → Except Err (Tensor β)) (before after : Option Int) (x : Tensor β) (idx : List PySlice)
    (dim : Nat) : Except Err (Tensor β) := do
  let (head, tail) ← bounds idx dim
  let f := fun s => modifyIdx s idx dim
  let x ← (if (head > 0 ∧ tail < x.shape.getD dim 0) ∧ (before = none ∧ after = none) then do
      let result ← red (x.getSlice (f (.between head tail))) dim
      let x ← x.setSlice (f (.upto head)) result
      x.setSlice (f (.from tail)) result
    else pure x)
  let x ← (if head > 0 then do
      let r ← red (x.getSlice (f (.between head (match before with | none => tail | some b => head + min (tail - head) (max 1 b))))) dim
      x.setSlice (f (.upto head)) r
    else pure x)
  if tail < x.shape.getD dim 0 then do
    let r ← red (x.getSlice (f (.between (match after with | none => head | some a => tail - min (tail - head) (max 1 a)) tail))) dim
    x.setSlice (f (.from tail)) r
  else pure x

end Stat

/-- pad_1d.py:363-368 `_stat_funcs` on the integers of one fibre (not empty); there is no mean of integers -/
def Stat.evalInt : Stat → List ℤ → ℤ
  | .mean, _ => 0
  | .median, l => (l.mergeSort (fun a b => decide (a ≤ b))).getD ((l.length - 1) / 2) 0
  | .maximum, l => l.foldl max (l.headD 0)
  | .minimum, l => l.foldl min (l.headD 0)

/-- `sf(x, dim=dim)` with `keepdim=True`; `torch.mean` of integers is a RuntimeError -/
def Stat.reduceInt (t : IntType) (s : Stat) (x : Tensor t.Word) (dim : Nat) : Except Err (Tensor t.Word) :=
  if s = .mean then .error .runtime else
  if x.shape.getD dim 0 = 0 then .error .index else
  .ok (Tensor.ofFn (x.shape.set dim 1) fun ix =>
    BitVec.ofInt t.bits (s.evalInt ((List.range (x.shape.getD dim 0)).map fun j => t.value (x.get (ix.set dim j)))))

section
variable [Field α] [LinearOrder α] [FloorRing α]

/-- pad_1d.py:313-330 `linear_ramp_1d` for integers: `torch.linspace` is asked for the type of the image and drops the digits after the
point, the rest is done with the numbers of the end values and converted when it is assigned -/
def linearRampInt (t : IntType) (before after : α) (x : Tensor t.Word) (idx : List PySlice) (dim : Nat) : Except Err (Tensor t.Word) := do
  let (head, tail) ← bounds idx dim
  let f := fun s => modifyIdx s idx dim
  let x ← (if head > 0 then do
      let dist := Tensor.column (((linspace (0 : α) 1 (head.toNat + 1)).dropLast).map fun a => ((truncate a : ℤ) : α)) (x.ndim - dim - 1)
      let d := (x.getSlice (f (.between head (head + 1)))).map fun v => ((t.value v : ℤ) : α) - before
      let p ← Tensor.bop (· * ·) dist d
      x.setSlice (f (.upto head)) (p.map fun a => t.convert (before + a))
    else pure x)
  if tail < x.shape.getD dim 0 then do
    let dist := Tensor.column (((linspace (1 : α) 0 ((x.shape.getD dim 0 - tail).toNat + 1)).tail).map fun a => ((truncate a : ℤ) : α))
      (x.ndim - dim - 1)
    let d := (x.getSlice (f (.between (tail - 1) tail))).map fun v => after - ((t.value v : ℤ) : α)
    let p ← Tensor.bop (· * ·) dist d
    x.setSlice (f (.from tail)) (p.map fun a => t.convert (after - a))
  else pure x

namespace Padder

/-- generic_pad.py:160-186 for an integer buffer, cf. `Padder.runMode` -/
def runModeInt (t : IntType) (p : Padder α) (np : Bool) (i : Int) (mode : Mode α) (y : Tensor t.Word) (idx : List PySlice) (axis : Nat) :
    Except Err (Tensor t.Word) :=
  let fuel := y.shape.getD axis 0
  match mode with
  | .replicate => replicate1d y idx axis
  | .smooth => smooth1d y idx axis
  | .circular => circular1d fuel y idx axis
  | .periodize => periodize1d fuel y idx axis
  | .symmetric => symmetric1d np fuel false y idx axis
  | .reflect => reflect1d np fuel y idx axis
  | .antisymmetric => symmetric1d np fuel true y idx axis
  | .oddReflect => oddReflect1d fuel y idx axis
  | .oddSymmetric => oddSymmetric1d fuel y idx axis
  | .stat s => do
    let sl ← pairAt p.statLength i
    stat1dWith (s.reduceInt t) sl.1 sl.2 y idx axis
  | .constant => do
    let cv ← pairAt p.constantValues i
    constant1d (t.convert cv.1) (t.convert cv.2) y idx axis
  | .linearRamp => do
    let ev ← pairAt p.endValues i
    linearRampInt t ev.1 ev.2 y idx axis
  | .zeros => .ok y
  | .empty => .ok y
  | .unknown => .error .value
  | .custom _ => .error .type

end Padder
end

namespace Padder

section
variable (run : Int → Mode α → Tensor β → List PySlice → Nat → Except Err (Tensor β))

/-- generic_pad.py:127-193 `_fill_value_1d` with the padding functions `run`, cf. `Padder.fillValue1d` -/
def fillValueWith (p : Padder α) (y : Tensor β) (i : Int) (axis : Int) (idx : Option (List PySlice)) :
    Except Err (Tensor β × Option (List PySlice)) := do
  let pw ← pairAt p.padWidth i
  if pw.1 = 0 ∧ pw.2 = 0 then return (y, idx)
  let mode ← p.modeAt i
  match mode with
  | .empty => return (y, idx)
  | .zeros => return (y, none)
  | .unknown => .error .value
  | _ =>
    match idx with
    | none => .error .type
    | some idx =>
      let axis ← axisNat y.ndim axis
      let y ← run i mode y idx axis
      let idx ← widen mode pw idx axis
      return (y, some idx)

/-- generic_pad.py:259-260, the loop filling the axes -/
def fillLoopWith (p : Padder α) (axes : List Int) : List Int → Tensor β → Option (List PySlice) → Except Err (Tensor β)
  | [], y, _ => .ok y
  | i :: is, y, idx => do
    let a ← pyIndex axes i
    let (y, idx) ← fillValueWith run p y i a idx
    fillLoopWith p axes is y idx

/-- generic_pad.py:195-262 `forward` with the padding functions `run`, cf. `Padder.forward` -/
def forwardWith [Zero β] (p : Padder α) (junk : List Nat → β) (x : Tensor β) (axes : Axes) : Except Err (Tensor β) := do
  if x.ndim = 0 then .error .assertion
  let axes ← checkAxes x.ndim axes
  if axes = [] then return x
  let is := negRange (p.nPadded axes)
  let zero := x.shape.map fun _ => (0 : Int)
  let (headV, afterV) ← accLoop p x.shape axes is (zero, zero)
  let tailV := List.zipWith (fun (h : Int) (n : Nat) => h + (n : Int)) headV x.shape
  let newV := List.zipWith (fun (t a : Int) => t + a) tailV afterV
  if newV = x.shape.map fun (n : Nat) => (n : Int) then return x
  if newV.any (· < 0) then .error .runtime
  let y := Tensor.empty junk (newV.map Int.toNat)
  let idx := List.zipWith PySlice.between headV tailV
  let y ← y.setSlice idx x
  fillLoopWith run p axes is y (some idx)

end

/-- generic_pad.py:195-262 `forward` for an image of type `t` -/
def forwardInt [Field α] [LinearOrder α] [FloorRing α] (t : IntType) (p : Padder α) (junk : List Nat → t.Word) (x : Tensor t.Word) (axes : Axes) :
    Except Err (Tensor t.Word) :=
  forwardWith (runModeInt t p true) p junk x axes

end Padder

end TI
