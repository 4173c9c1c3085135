import Verif.Model.IntImage

/-!
# Images with entries that are not finite

The same code as in `Model/Padder.lean`, `Model/Pool.lean`, `Model/Edges.lean` and `Model/Metrics.lean` for floating-point numbers which may be infinite or NaN.
Simplifications: finite numbers are exact (no rounding, no overflow), there is one zero, weights, constants and end values are finite, callables as modes are not covered.
-/

namespace TI

/-- a floating-point number: a finite one, an infinity (`true` for the negative one) or NaN -/
inductive Flt (α : Type) where
  | num (a : α)
  | inf (neg : Bool)
  | nan
  deriving DecidableEq

namespace Flt
variable {α : Type}

section
variable [Field α] [LinearOrder α]

instance : Zero (Flt α) := ⟨num 0⟩
instance : OfNat (Flt α) 2 := ⟨num 2⟩
instance : IntCast (Flt α) := ⟨fun n => num (n : α)⟩

/-- IEEE 754 negation -/
instance : Neg (Flt α) where
  neg
    | num a => num (-a)
    | inf s => inf (!s)
    | nan => nan

/-- IEEE 754 addition -/
instance : Add (Flt α) where
  add
    | num a, num b => num (a + b)
    | nan, _ => nan
    | _, nan => nan
    | inf s, inf r => if s = r then inf s else nan
    | inf s, num _ => inf s
    | num _, inf r => inf r

instance : Sub (Flt α) := ⟨fun a b => a + -b⟩

/-- IEEE 754 multiplication -/
instance : Mul (Flt α) where
  mul
    | num a, num b => num (a * b)
    | nan, _ => nan
    | _, nan => nan
    | inf s, inf r => inf (s != r)
    | inf s, num b => if b = 0 then nan else inf (s != decide (b < 0))
    | num a, inf r => if a = 0 then nan else inf (decide (a < 0) != r)

/-- `a <= b`, for numbers that are not NaN -/
def le : Flt α → Flt α → Bool
  | inf true, _ => true
  | _, inf false => true
  | num a, num b => decide (a ≤ b)
  | _, _ => false

/-- `abs(a) < c`; false for NaN -/
def absLt : Flt α → α → Bool
  | num a, c => decide (|a| < c)
  | _, _ => false

/-- NaN or not -/
def isNan : Flt α → Bool
  | nan => true
  | _ => false

end
end Flt

section
variable {α : Type} [Field α] [LinearOrder α]

/-- pad_1d.py:363-368 `_stat_funcs` on one fibre (not empty); all of them return NaN if there is one -/
def Stat.evalFlt (s : Stat) (l : List (Flt α)) : Flt α :=
  if l.any Flt.isNan then .nan else
  match s with
  | .mean => l.sum * .num (1 / (l.length : α))
  | .median => (l.mergeSort Flt.le).getD ((l.length - 1) / 2) 0
  | .maximum => l.foldl (fun a b => if a.le b then b else a) (l.headD 0)
  | .minimum => l.foldl (fun a b => if a.le b then a else b) (l.headD 0)

/-- `sf(x, dim=dim)` with `keepdim=True`, cf. `Stat.reduce` -/
def Stat.reduceFlt (s : Stat) (x : Tensor (Flt α)) (dim : Nat) : Except Err (Tensor (Flt α)) :=
  if x.shape.getD dim 0 = 0 then .error .index else
  .ok (Tensor.ofFn (x.shape.set dim 1) fun ix => s.evalFlt ((List.range (x.shape.getD dim 0)).map fun j => x.get (ix.set dim j)))

/-- pad_1d.py:313-330 `linear_ramp_1d`, cf. `linearRamp1d` -/
def linearRampFlt (before after : α) (x : Tensor (Flt α)) (idx : List PySlice) (dim : Nat) : Except Err (Tensor (Flt α)) := do
  let (head, tail) ← bounds idx dim
  let f := fun s => modifyIdx s idx dim
  let x ← (if head > 0 then do
      let dist := Tensor.column (((linspace (0 : α) 1 (head.toNat + 1)).dropLast).map Flt.num) (x.ndim - dim - 1)
      let d := (x.getSlice (f (.between head (head + 1)))).map (· - .num before)
      let p ← Tensor.bop (· * ·) dist d
      x.setSlice (f (.upto head)) (p.map (.num before + ·))
    else pure x)
  if tail < x.shape.getD dim 0 then do
    let dist := Tensor.column (((linspace (1 : α) 0 ((x.shape.getD dim 0 - tail).toNat + 1)).tail).map Flt.num) (x.ndim - dim - 1)
    let d := (x.getSlice (f (.between (tail - 1) tail))).map (.num after - ·)
    let p ← Tensor.bop (· * ·) dist d
    x.setSlice (f (.from tail)) (p.map (.num after - ·))
  else pure x

namespace Padder

/-- generic_pad.py:160-186, cf. `Padder.runMode` -/
def runModeFlt (p : Padder α) (np : Bool) (i : Int) (mode : Mode α) (y : Tensor (Flt α)) (idx : List PySlice) (axis : Nat) :
    Except Err (Tensor (Flt α)) :=
  let fuel := y.shape.getD axis 0
  match mode with
  | .replicate => replicate1d y idx axis
  | .smooth => smooth1d y idx axis
  | .circular => circular1d fuel y idx axis
  | .periodize => periodize1d fuel y idx axis
  | .symmetric => symmetric1d np fuel false y idx axis
  | .reflect => reflect1d np fuel y idx axis
  | .antisymmetric => symmetric1d np fuel true y idx axis
  | .oddReflect => oddReflect1d fuel y idx axis
  | .oddSymmetric => oddSymmetric1d fuel y idx axis
  | .stat s => do
    let sl ← pairAt p.statLength i
    stat1dWith s.reduceFlt sl.1 sl.2 y idx axis
  | .constant => do
    let cv ← pairAt p.constantValues i
    constant1d (.num cv.1) (.num cv.2) y idx axis
  | .linearRamp => do
    let ev ← pairAt p.endValues i
    linearRampFlt ev.1 ev.2 y idx axis
  | .zeros => .ok y
  | .empty => .ok y
  | .unknown => .error .value
  | .custom _ => .error .type

/-- generic_pad.py:195-262 `forward` -/
def forwardFlt (p : Padder α) (junk : List Nat → Flt α) (x : Tensor (Flt α)) (axes : Axes) : Except Err (Tensor (Flt α)) :=
  forwardWith (runModeFlt p true) p junk x axes

end Padder

namespace SepPool

/-- pooling/base.py:74-97 `pad`, cf. `SepPool.pad` -/
def padFlt (pool : SepPool α) (padder : Option (Padder α)) (junk : List Nat → Flt α) (x : Tensor (Flt α)) (axes : Axes) :
    Option (Padder α) × Except Err (Tensor (Flt α)) :=
  match checkAxes x.ndim axes with
  | .error e => (padder, .error e)
  | .ok axes =>
    match padder with
    | none => (none, .ok x)
    | some p =>
      match NdSpec.sequence (axes.map fun a => pyIndex x.shape a) with
      | .error e => (some p, .error e)
      | .ok sizes =>
        match NdSpec.ofItem [] (.seq (sizes.map fun (n : Nat) => Py.leaf (some (n : Int)))) with
        | .error e => (some p, .error e)
        | .ok inShape =>
          match p.toSame pool.kernelSize pool.stride inShape with
          | (p', .error e) => (some p', .error e)
          | (p', .ok _) => (some p', p'.forwardFlt junk x (.seq axes))

/-- pooling/base.py:222-227, one pass of the loop, cf. `SepPool.poolStep` -/
def poolStepFlt (pool : SepPool α) (i : Nat) (axis : Int) (x : Tensor (Flt α)) : Except Err (Tensor (Flt α)) := do
  let k ← pool.kernelSize.get (i : Int)
  let k ← asSize k
  if k = 0 then return x
  let s ← pool.stride.get (i : Int)
  let s ← asSize s
  let a ← convDim x.ndim axis
  let y ← x.unfold a k s
  let w ← pool.kernel.get (i : Int)
  let w ← asVec w
  y.matvec (w.map Flt.num)

/-- pooling/base.py:222-227, the loop -/
def poolLoopFlt (pool : SepPool α) : Nat → List Int → Tensor (Flt α) → Except Err (Tensor (Flt α))
  | _, [], x => .ok x
  | i, a :: as, x => do
    let x ← poolStepFlt pool i a x
    poolLoopFlt pool (i + 1) as x

/-- pooling/base.py:191-228 `forward`, cf. `SepPool.forward` -/
def forwardFlt (pool : SepPool α) (padder : Option (Padder α)) (junk : List Nat → Flt α) (x : Tensor (Flt α)) (axes : Axes) :
    Option (Padder α) × Except Err (Tensor (Flt α)) :=
  match checkAxes x.ndim axes with
  | .error e => (padder, .error e)
  | .ok axes =>
    if pool.ndim = 0 ∨ pool.ndim = (axes.length : Int) then
      match padFlt pool padder junk x (.seq axes) with
      | (p', .error e) => (p', .error e)
      | (p', .ok y) => (p', poolLoopFlt pool 0 axes y)
    else (padder, .error .assertion)

end SepPool

end

namespace EdgeFilter
variable {α : Type} [Field α] [LinearOrder α] [IsStrictOrderedRing α] [FloorRing α]

/-- edges.py:57-69 `_conv_edge`, cf. `EdgeFilter.convEdge` -/
def convEdgeFlt (f : EdgeFilter α) (ps : EdgePadders α) (junk : List Nat → Flt α) (x : Tensor (Flt α)) (axis : Int) :
    EdgePadders α × Except Err (Tensor (Flt α)) :=
  match (f.edgeKernel.get 0).bind SepPool.asVec with
  | .error e => (ps, .error e)
  | .ok w =>
    let discrete := w.map truncInt
    if discrete = [-1, 0, 1] then
      match f.edgePool.padFlt ps.edge junk x (.int axis) with
      | (p, r) => (ps.setEdge p, r.bind fun y => firstDiff y axis)
    else if discrete = [1, -2, 1] then
      match f.edgePool.padFlt ps.edge junk x (.int axis) with
      | (p, r) => (ps.setEdge p, r.bind fun y => secondDiff y axis)
    else
      match f.edgePool.forwardFlt ps.edge junk x (.int axis) with
      | (p, r) => (ps.setEdge p, r)

/-- edges.py:71-72 `_conv_smooth`, cf. `EdgeFilter.convSmooth` -/
def convSmoothFlt (f : EdgeFilter α) (ps : EdgePadders α) (junk : List Nat → Flt α) (x : Tensor (Flt α)) (axes : List Int) :
    EdgePadders α × Except Err (Tensor (Flt α)) :=
  match f.smoothPool.forwardFlt ps.smooth junk x (.seq axes) with
  | (p, r) => (ps.setSmooth p, r)

/-- edges.py:74-87 `component`, cf. `EdgeFilter.component` -/
def componentFlt (f : EdgeFilter α) (ps : EdgePadders α) (junk : List Nat → Flt α) (x : Tensor (Flt α)) (edgeAxis smoothAxes : Axes) :
    EdgePadders α × Except Err (Tensor (Flt α)) :=
  match checkAxes x.ndim edgeAxis with
  | .error e => (ps, .error e)
  | .ok ea =>
    match ea with
    | [a] =>
      match checkAxes x.ndim smoothAxes with
      | .error e => (ps, .error e)
      | .ok sa =>
        let sa := sa.filter fun b => b ≠ a
        match convEdgeFlt f ps junk x a with
        | (ps, .error e) => (ps, .error e)
        | (ps, .ok y) => convSmoothFlt f ps junk y sa
    | _ => (ps, .error .value)

end EdgeFilter

section
variable {α : Type} [Field α] [LinearOrder α]

/-- sharpen.py:43-49 `forward`, cf. `UnsharpMask.forward`; NaN is not smaller than the threshold -/
def UnsharpMask.forwardFlt (u : UnsharpMask α) (padder : Option (Padder α)) (junk : List Nat → Flt α) (x : Tensor (Flt α)) (axes : Axes) :
    Option (Padder α) × Except Err (Tensor (Flt α)) :=
  match checkAxes x.ndim axes with
  | .error e => (padder, .error e)
  | .ok axes =>
    match u.blur.forwardFlt padder junk x (.seq axes) with
    | (p, .error e) => (p, .error e)
    | (p, .ok blurred) => (p, do
      let y ← Tensor.bop (· - ·) x blurred
      let y := if 0 < u.threshold then y.map fun v => if v.absLt u.threshold then 0 else v else y
      Tensor.bop (· + ·) x (y.map fun v => .num u.amount * v))

/-- mse.py:6-8 and base.py:36-54 `forward` of `MSE`; the mean of no entries is NaN -/
def mseFlt (r : Reduction) (x y : Tensor (Flt α)) (reduceAxes : Axes) : Except Err (Tensor (Flt α)) := do
  if x.shape ≠ y.shape then .error .assertion
  else
    let axes ← checkAxes x.ndim reduceAxes
    let d ← Tensor.bop (· - ·) x y
    let d := d.map fun v => v * v
    match r with
    | .mean => d.reduce (fun l => if l = [] then .nan else l.sum * .num (1 / (l.length : α))) axes false
    | .sum => d.reduce (fun l => l.sum) axes false
    | .none => .ok d
    | .unknown => .error .value

end

end TI
