import Verif.Model.Tensor
import Mathlib.Algebra.Field.Defs
import Mathlib.Order.Defs.LinearOrder

/-!
# torchimage/padding/pad_1d.py

All functions update the buffer `x` in place in Python; here they return the updated buffer.
`idx : List PySlice` marks the ground-truth region, `dim` is a non-negative axis number
(`Padder` only passes axes normalised by `check_axes`).
`while` loops carry a `fuel` argument; `Err.diverge` means the loop did not finish within it.
-/

namespace TI

variable {α : Type}

/-- Python `//` on ints -/
def pyDiv (a b : Int) : Except Err Int := if b = 0 then .error .zeroDivision else .ok (a.fdiv b)

/-- Python `%` on ints -/
def pyMod (a b : Int) : Except Err Int := if b = 0 then .error .zeroDivision else .ok (a.fmod b)

/-- `x.shape[dim] // length` in pad_1d.py:156 and 207.  `Padder.forward` cuts its slices from numpy arrays (generic_pad.py:233-256),
so there `length` is a numpy integer, and numpy divides by zero with a warning and the result 0; `Padder.pad_axis` uses Python
integers (generic_pad.py:306-311), which raise ZeroDivisionError.  `np` tells the two apart. -/
def lengthDiv (np : Bool) (a b : Int) : Except Err Int :=
  if b = 0 then (if np then .ok 0 else .error .zeroDivision) else .ok (a.fdiv b)

/-- padding/utils.py:8-33 `make_idx` for a non-negative `dim`:
`(slice(None),) * dim + (slice(*args),) + (slice(None),) * (ndim - dim - 1)` -/
def makeIdx (s : PySlice) (dim ndim : Nat) : List PySlice :=
  List.replicate dim PySlice.full ++ s :: List.replicate (ndim - dim - 1) PySlice.full

/-- padding/utils.py:36-61 `modify_idx` (callers have evaluated `idx[dim]` before, so `dim` is in range) -/
def modifyIdx (s : PySlice) (idx : List PySlice) (dim : Nat) : List PySlice := idx.set dim s

/-- `head, tail = idx[dim].start, idx[dim].stop` (pad_1d.py:79 and the first line of every function).
IndexError if `dim` is out of range, TypeError if a bound is `None` (the later arithmetic fails). -/
def bounds (idx : List PySlice) (dim : Nat) : Except Err (Int × Int) :=
  match idx[dim]? with
  | none => .error .index
  | some ⟨some a, some b, _⟩ => .ok (a, b)
  | some _ => .error .type

section Copy
variable [Zero α]

/-- pad_1d.py:78-90 `replicate_1d` -/
def replicate1d (x : Tensor α) (idx : List PySlice) (dim : Nat) : Except Err (Tensor α) := do
  let (head, tail) ← bounds idx dim
  let f := fun s => modifyIdx s idx dim
  let x ← (if head > 0 then
      x.setSlice (f (.upto head)) (x.getSlice (f (.between head (head + 1)))) else pure x)
  if tail < x.shape.getD dim 0 then
    x.setSlice (f (.from tail)) (x.getSlice (f (.between (tail - 1) tail))) else pure x

/-- pad_1d.py:104-108, the loop padding before -/
def circularBefore (f : PySlice → List PySlice) (tail length : Int) :
    Nat → Tensor α → Int → Except Err (Tensor α)
  | fuel, x, curr =>
    if curr > 0 then
      match fuel with
      | 0 => .error .diverge
      | fuel + 1 => do
        let c := min curr length
        let x ← x.setSlice (f (.between (curr - c) curr)) (x.getSlice (f (.between (tail - c) tail)))
        circularBefore f tail length fuel x (curr - c)
    else .ok x

/-- pad_1d.py:110-114, the loop padding after -/
def circularAfter (f : PySlice → List PySlice) (dim : Nat) (head length : Int) :
    Nat → Tensor α → Int → Except Err (Tensor α)
  | fuel, x, curr =>
    if curr < x.shape.getD dim 0 then
      match fuel with
      | 0 => .error .diverge
      | fuel + 1 => do
        let c := min (x.shape.getD dim 0 - curr) length
        let x ← x.setSlice (f (.between curr (curr + c))) (x.getSlice (f (.between head (head + c))))
        circularAfter f dim head length fuel x (curr + c)
    else .ok x

/-- pad_1d.py:93-116 `circular_1d` -/
def circular1d (fuel : Nat) (x : Tensor α) (idx : List PySlice) (dim : Nat) :
    Except Err (Tensor α) := do
  let (head, tail) ← bounds idx dim
  let length := tail - head
  if length = 1 then replicate1d x idx dim else
  let f := fun s => modifyIdx s idx dim
  let x ← circularBefore f tail length fuel x head
  circularAfter f dim head length fuel x tail

/-- pad_1d.py:119-137 `periodize_1d` -/
def periodize1d (fuel : Nat) (x : Tensor α) (idx : List PySlice) (dim : Nat) :
    Except Err (Tensor α) := do
  let (head, tail) ← bounds idx dim
  let f := fun s => modifyIdx s idx dim
  let length := tail - head
  if length.fmod 2 = 0 then circular1d fuel x idx dim
  else
    let newIdx := modifyIdx (.between head (tail + 1)) idx dim
    let x ← x.setSlice (f (.between tail (tail + 1))) (x.getSlice (f (.between (tail - 1) tail)))
    circular1d fuel x newIdx dim

end Copy

section Ring
variable [Zero α]

/-- `direct if cache_flipped is None else cache_flipped[sl]` (pad_1d.py:168-169, 180-181, 219-220,
231-232) -/
def cachedOr (cache : Option (Tensor α)) (sl : List PySlice) (direct : Tensor α) : Tensor α :=
  match cache with
  | none => direct
  | some cf => cf.getSlice sl

/-- pad_1d.py:163-173 (`symmetric_1d`) and 214-224 (`reflect_1d`), the loop padding before.
`lenFlip` is the chunk length of flipped chunks (`length` for symmetric, `length - 2` for reflect),
`o` is 0 for symmetric and 1 for reflect (offset of the mirrored source), `h` the optional negation. -/
def mirrorBefore (f g : PySlice → List PySlice) (h : Tensor α → Tensor α) (dim : Nat)
    (cache : Option (Tensor α)) (o tail length lenFlip : Int) :
    Nat → Tensor α → Int → Bool → Except Err (Tensor α)
  | fuel, x, curr, flip =>
    if curr > 0 then
      match fuel with
      | 0 => .error .diverge
      | fuel + 1 => do
        let c := min curr (if flip then lenFlip else length)
        let v := if flip then
            cachedOr cache (g (.from (-c)))
              (h ((x.getSlice (f (.between (curr + o) (curr + o + c)))).flip dim))
          else x.getSlice (f (.between (tail - c) tail))
        let x ← x.setSlice (f (.between (curr - c) curr)) v
        mirrorBefore f g h dim cache o tail length lenFlip fuel x (curr - c) (!flip)
    else .ok x

/-- pad_1d.py:175-185 (`symmetric_1d`) and 226-236 (`reflect_1d`), the loop padding after -/
def mirrorAfter (f g : PySlice → List PySlice) (h : Tensor α → Tensor α) (dim : Nat)
    (cache : Option (Tensor α)) (o head length lenFlip : Int) :
    Nat → Tensor α → Int → Bool → Except Err (Tensor α)
  | fuel, x, curr, flip =>
    if curr < x.shape.getD dim 0 then
      match fuel with
      | 0 => .error .diverge
      | fuel + 1 => do
        let c := min (x.shape.getD dim 0 - curr) (if flip then lenFlip else length)
        let v := if flip then
            cachedOr cache (g (.upto c))
              (h ((x.getSlice (f (.between (curr - o - c) (curr - o)))).flip dim))
          else x.getSlice (f (.between head (head + c)))
        let x ← x.setSlice (f (.between curr (curr + c))) v
        mirrorAfter f g h dim cache o head length lenFlip fuel x (curr + c) (!flip)
    else .ok x

/-- pad_1d.py:140-187 `symmetric_1d` -/
def symmetric1d [Neg α] (np : Bool) (fuel : Nat) (negate : Bool) (x : Tensor α) (idx : List PySlice) (dim : Nat) :
    Except Err (Tensor α) := do
  let (head, tail) ← bounds idx dim
  let length := tail - head
  if length = 1 ∧ negate = false then replicate1d x idx dim else
  let f := fun s => modifyIdx s idx dim
  let g := fun s => makeIdx s dim x.ndim
  let h := fun (a : Tensor α) => if negate then a.map (- ·) else a
  let q ← lengthDiv np (x.shape.getD dim 0) length
  let cache := if q ≥ 2 then some (h ((x.getSlice idx).flip dim)) else none
  let x ← mirrorBefore f g h dim cache 0 tail length length fuel x head true
  mirrorAfter f g h dim cache 0 head length length fuel x tail true

/-- pad_1d.py:190-237 `reflect_1d` -/
def reflect1d (np : Bool) (fuel : Nat) (x : Tensor α) (idx : List PySlice) (dim : Nat) :
    Except Err (Tensor α) := do
  let (head, tail) ← bounds idx dim
  let length := tail - head
  if length = 1 then replicate1d x idx dim else
  if length = 2 then circular1d fuel x idx dim else
  let f := fun s => modifyIdx s idx dim
  let g := fun s => makeIdx s dim x.ndim
  let lengthFlipped := length - 2
  let q ← lengthDiv np (x.shape.getD dim 0) length
  let cache := if q ≥ 2 then some ((x.getSlice (f (.between (head + 1) (tail - 1)))).flip dim) else none
  let x ← mirrorBefore f g id dim cache 1 tail length lengthFlipped fuel x head true
  mirrorAfter f g id dim cache 1 head length lengthFlipped fuel x tail true

/-- pad_1d.py:248-252 (`odd_symmetric_1d`, `o = 0`) and 276-280 (`odd_reflect_1d`, `o = 1`) -/
def oddBefore [Sub α] [Mul α] [OfNat α 2] (f : PySlice → List PySlice) (dim : Nat) (o length : Int) :
    Nat → Tensor α → Int → Except Err (Tensor α)
  | fuel, x, curr =>
    if curr > 0 then
      match fuel with
      | 0 => .error .diverge
      | fuel + 1 => do
        let c := min curr length
        let v ← Tensor.bop (· - ·) ((x.getSlice (f (.between curr (curr + 1)))).map (2 * ·))
          ((x.getSlice (f (.between (curr + o) (curr + o + c)))).flip dim)
        let x ← x.setSlice (f (.between (curr - c) curr)) v
        oddBefore f dim o length fuel x (curr - c)
    else .ok x

/-- pad_1d.py:254-258 (`odd_symmetric_1d`, `o = 0`) and 282-286 (`odd_reflect_1d`, `o = 1`) -/
def oddAfter [Sub α] [Mul α] [OfNat α 2] (f : PySlice → List PySlice) (dim : Nat) (o length : Int) :
    Nat → Tensor α → Int → Except Err (Tensor α)
  | fuel, x, curr =>
    if curr < x.shape.getD dim 0 then
      match fuel with
      | 0 => .error .diverge
      | fuel + 1 => do
        let c := min (x.shape.getD dim 0 - curr) length
        let v ← Tensor.bop (· - ·) ((x.getSlice (f (.between (curr - 1) curr))).map (2 * ·))
          ((x.getSlice (f (.between (curr - o - c) (curr - o)))).flip dim)
        let x ← x.setSlice (f (.between curr (curr + c))) v
        oddAfter f dim o length fuel x (curr + c)
    else .ok x

/-- pad_1d.py:240-259 `odd_symmetric_1d` -/
def oddSymmetric1d [Sub α] [Mul α] [OfNat α 2] (fuel : Nat) (x : Tensor α) (idx : List PySlice) (dim : Nat) :
    Except Err (Tensor α) := do
  let (head, tail) ← bounds idx dim
  let f := fun s => modifyIdx s idx dim
  let length := tail - head
  let x ← oddBefore f dim 0 length fuel x head
  oddAfter f dim 0 length fuel x tail

/-- pad_1d.py:262-287 `odd_reflect_1d` -/
def oddReflect1d [Sub α] [Mul α] [OfNat α 2] (fuel : Nat) (x : Tensor α) (idx : List PySlice) (dim : Nat) :
    Except Err (Tensor α) := do
  let (head, tail) ← bounds idx dim
  let f := fun s => modifyIdx s idx dim
  let length := tail - head
  if length = 1 then replicate1d x idx dim else
  let lengthFlipped := length - 1
  let x ← oddBefore f dim 1 lengthFlipped fuel x head
  oddAfter f dim 1 lengthFlipped fuel x tail

/-- `torch.arange(start, end, step)` as in pad_1d.py:299-300, for the two uses
`arange(head, 0, -1)` and `arange(1, m + 1, 1)` (both non-empty) -/
def arangeDown [IntCast α] (head : Int) : List α := (List.range head.toNat).map fun (k : Nat) => ((head - k : Int) : α)
@[inherit_doc arangeDown]
def arangeUp [IntCast α] (m : Int) : List α := (List.range m.toNat).map fun (k : Nat) => ((1 + k : Int) : α)

/-- pad_1d.py:290-310 `smooth_1d` -/
def smooth1d [Add α] [Sub α] [Mul α] [IntCast α] (x : Tensor α) (idx : List PySlice) (dim : Nat) : Except Err (Tensor α) := do
  let (head, tail) ← bounds idx dim
  if tail - head = 1 then replicate1d x idx dim else
  let f := fun s => modifyIdx s idx dim
  let x ← (if head > 0 then do
      let dist := Tensor.column (arangeDown (α := α) head) (x.ndim - dim - 1)
      let d ← Tensor.bop (· - ·) (x.getSlice (f (.between (head + 1) (head + 2))))
        (x.getSlice (f (.between head (head + 1))))
      let p ← Tensor.bop (· * ·) dist d
      let v ← Tensor.bop (· - ·) (x.getSlice (f (.between head (head + 1)))) p
      x.setSlice (f (.upto head)) v
    else pure x)
  if tail < x.shape.getD dim 0 then do
    let dist := Tensor.column (arangeUp (α := α) (x.shape.getD dim 0 - tail)) (x.ndim - dim - 1)
    let d ← Tensor.bop (· - ·) (x.getSlice (f (.between (tail - 1) tail)))
      (x.getSlice (f (.between (tail - 2) (tail - 1))))
    let p ← Tensor.bop (· * ·) dist d
    let v ← Tensor.bop (· + ·) (x.getSlice (f (.between (tail - 1) tail))) p
    x.setSlice (f (.from tail)) v
  else pure x

/-- pad_1d.py:333-345 `zeros_1d` (never called by `Padder`, see `Padder.fillValue1d`) -/
def zeros1d (x : Tensor α) (idx : List PySlice) (dim : Nat) : Except Err (Tensor α) := do
  let (head, tail) ← bounds idx dim
  let f := fun s => modifyIdx s idx dim
  let x ← (if head > 0 then x.setSlice (f (.upto head)) (.scalar 0) else pure x)
  if tail < x.shape.getD dim 0 then x.setSlice (f (.from tail)) (.scalar 0) else pure x

/-- pad_1d.py:348-360 `constant_1d` -/
def constant1d (before after : α) (x : Tensor α) (idx : List PySlice) (dim : Nat) :
    Except Err (Tensor α) := do
  let (head, tail) ← bounds idx dim
  let f := fun s => modifyIdx s idx dim
  let x ← (if head > 0 then x.setSlice (f (.upto head)) (.scalar before) else pure x)
  if tail < x.shape.getD dim 0 then x.setSlice (f (.from tail)) (.scalar after) else pure x

end Ring

section Field
variable [Field α]

/-- `torch.linspace(start, end, steps)` for `steps ≥ 2` -/
def linspace (start stop : α) (steps : Nat) : List α :=
  (List.range steps).map fun (k : Nat) => start + (k : α) * ((stop - start) / ((steps - 1 : Nat) : α))

/-- pad_1d.py:313-330 `linear_ramp_1d`; `[:-1]` / `[1:]` on the linspace are `dropLast` / `tail` -/
def linearRamp1d (before after : α) (x : Tensor α) (idx : List PySlice) (dim : Nat) :
    Except Err (Tensor α) := do
  let (head, tail) ← bounds idx dim
  let f := fun s => modifyIdx s idx dim
  let x ← (if head > 0 then do
      let dist := Tensor.column (linspace (0 : α) 1 (head.toNat + 1)).dropLast (x.ndim - dim - 1)
      let d := (x.getSlice (f (.between head (head + 1)))).map (· - before)
      let p ← Tensor.bop (· * ·) dist d
      x.setSlice (f (.upto head)) (p.map (before + ·))
    else pure x)
  if tail < x.shape.getD dim 0 then do
    let dist := Tensor.column (linspace (1 : α) 0 ((x.shape.getD dim 0 - tail).toNat + 1)).tail
      (x.ndim - dim - 1)
    let d := (x.getSlice (f (.between (tail - 1) tail))).map (after - ·)
    let p ← Tensor.bop (· * ·) dist d
    x.setSlice (f (.from tail)) (p.map (after - ·))
  else pure x

variable [LinearOrder α]

/-- the keys of `_stat_funcs`, pad_1d.py:363-368 -/
inductive Stat where
  | mean | median | maximum | minimum
  deriving DecidableEq, Repr

/-- pad_1d.py:363-368 `_stat_funcs` on one fibre.  `torch.median` returns the lower median.
An empty fibre raises IndexError in torch for median / max / min; for mean it yields NaN, which is
outside the model and reported as the same error. -/
def Stat.eval : Stat → List α → Except Err α
  | _, [] => .error .index
  | .mean, l => .ok (l.sum / (l.length : α))
  | .median, l => .ok ((l.mergeSort (fun a b => decide (a ≤ b))).getD ((l.length - 1) / 2) 0)
  | .maximum, a :: l => .ok (l.foldl max a)
  | .minimum, a :: l => .ok (l.foldl min a)

/-- the fibre of `x` through `ix` along `dim` -/
def Tensor.fibre (x : Tensor α) (dim : Nat) (ix : List Nat) : List α :=
  (List.range (x.shape.getD dim 0)).map fun j => x.get (ix.set dim j)

/-- `sf(x, dim=dim)` with `keepdim=True` -/
def Stat.reduce (s : Stat) (x : Tensor α) (dim : Nat) : Except Err (Tensor α) :=
  if x.shape.getD dim 0 = 0 then .error .index else
  .ok (Tensor.ofFn (x.shape.set dim 1) fun ix =>
    match s.eval (x.fibre dim ix) with
    | .ok v => v
    | .error _ => 0)

/-- pad_1d.py:380-384, `before` and `after` both `None` and both sides padded -/
def statBoth (s : Stat) (x : Tensor α) (f : PySlice → List PySlice) (head tail : Int) (dim : Nat) :
    Except Err (Tensor α) := do
  let result ← s.reduce (x.getSlice (f (.between head tail))) dim
  let x ← x.setSlice (f (.upto head)) result
  x.setSlice (f (.from tail)) result

/-- pad_1d.py:386-391, the side before -/
def statBefore (s : Stat) (before : Option Int) (x : Tensor α) (f : PySlice → List PySlice)
    (head tail : Int) (dim : Nat) : Except Err (Tensor α) :=
  match before with
  | none => do
    let r ← s.reduce (x.getSlice (f (.between head tail))) dim
    x.setSlice (f (.upto head)) r
  | some b => do
    let r ← s.reduce (x.getSlice (f (.between head (head + min (tail - head) (max 1 b))))) dim
    x.setSlice (f (.upto head)) r

/-- pad_1d.py:393-398, the side after -/
def statAfter (s : Stat) (after : Option Int) (x : Tensor α) (f : PySlice → List PySlice)
    (head tail : Int) (dim : Nat) : Except Err (Tensor α) :=
  match after with
  | none => do
    let r ← s.reduce (x.getSlice (f (.between head tail))) dim
    x.setSlice (f (.from tail)) r
  | some a => do
    let r ← s.reduce (x.getSlice (f (.between (tail - min (tail - head) (max 1 a)) tail))) dim
    x.setSlice (f (.from tail)) r

/-- pad_1d.py:371-400 `stat_1d` -/
def stat1d (s : Stat) (before after : Option Int) (x : Tensor α) (idx : List PySlice) (dim : Nat) :
    Except Err (Tensor α) := do
  let (head, tail) ← bounds idx dim
  let f := fun s => modifyIdx s idx dim
  let x ← (if (head > 0 ∧ tail < x.shape.getD dim 0) ∧ (before = none ∧ after = none) then
    statBoth s x f head tail dim else pure x)
  let x ← (if head > 0 then statBefore s before x f head tail dim else pure x)
  if tail < x.shape.getD dim 0 then statAfter s after x f head tail dim else pure x

end Field

end TI
