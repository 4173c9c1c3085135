import Verif.Model.Padder
import Verif.Model.ConvLike
import Mathlib.Data.List.Sort

/-!
# torchimage/pooling/base.py, pooling/uniform.py, pooling/operator.py

Not modelled: dtype and device moves (`move_tensor`, pooling/base.py:12-15, is the identity on the values), the
choice between a string and a `Padder` for `same_padder` (pooling/base.py:64-72; a string is `Padder(mode=..)`),
kernels whose items are not plain lists of numbers.
-/

namespace TI

section
variable {α : Type}

/-- PyTorch `x.unfold(dim, size, step)`: windows along `dim`, their content in a new last axis.
RuntimeError if the window does not fit or the step is not positive; a 0-d tensor has no valid `dim` here. -/
def Tensor.unfold [Zero α] (x : Tensor α) (dim : Nat) (size step : Int) : Except Err (Tensor α) :=
  if dim < x.ndim then
    if size < 0 ∨ size > x.shape.getD dim 0 ∨ step ≤ 0 then .error .runtime
    else
      let count := (x.shape.getD dim 0 - size.toNat) / step.toNat + 1
      .ok (Tensor.ofFn (x.shape.set dim count ++ [size.toNat]) fun ix =>
        x.get (ix.dropLast.set dim (ix.getD dim 0 * step.toNat + ix.getLastD 0)))
  else .error .index

/-- PyTorch `x @ w` for a vector `w`: contract the last axis of `x` -/
def Tensor.matvec [Zero α] [Add α] [Mul α] (x : Tensor α) (w : List α) : Except Err (Tensor α) :=
  if x.shape ≠ [] ∧ x.shape.getLastD 0 = w.length then
    .ok (Tensor.ofFn x.shape.dropLast fun ix =>
      ((List.range w.length).map fun j => x.get (ix ++ [j]) * w.getD j 0).sum)
  else .error .runtime

end

/-- A dimension number of PyTorch or an index of a list of length `ndim`: negative values count from the end, once. -/
def convDim (ndim : Nat) (dim : Int) : Except Err Nat :=
  let d := if dim < 0 then dim + ndim else dim
  if 0 ≤ d ∧ d < ndim then .ok d.toNat else .error .index

/-- pooling/base.py:155-186, the attributes of a `SeparablePoolNd` except `same_padder` -/
structure SepPool (α : Type) where
  kernel : NdSpec α
  kernelSize : NdSpec (Option Int)
  stride : NdSpec (Option Int)
  ndim : Int

namespace SepPool
variable {α : Type}

/-- `len(item)` -/
def itemLen : Py α → Except Err (Py (Option Int))
  | .seq l => .ok (.leaf (some (l.length : Int)))
  | .leaf _ => .error .type

/-- pooling/base.py:118 `lambda s, ks: ks if s is None else s` -/
def strideOr (s ks : Py (Option Int)) : Except Err (Py (Option Int)) :=
  match s with
  | .leaf none => .ok ks
  | s => .ok s

/-- pooling/base.py:99-119 `read_stride` -/
def readStride (kernelSize : NdSpec (Option Int)) (stride : Py (Option Int)) :
    Except Err (NdSpec (Option Int)) := do
  let st ← NdSpec.ofItem [] stride
  let st ← st.map checkStride
  NdSpec.apply2 strideOr st kernelSize

/-- pooling/base.py:188-189 `_align_params` (the new value of `self.ndim`) -/
def alignParams (kernel : NdSpec α) (stride : NdSpec (Option Int)) : Except Err Int :=
  NdSpec.aggIndexLen [kernel.indexShape, stride.indexShape]

/-- pooling/base.py:181-186 `__init__` when `kernel` already is an `NdSpec` (its `item_shape` is then left alone) -/
def ofSpec (kernel : NdSpec α) (stride : Py (Option Int)) : Except Err (SepPool α) := do
  let ks ← kernel.map itemLen
  let st ← readStride ks stride
  let n ← alignParams kernel st
  .ok ⟨kernel, ks, st, n⟩

/-- pooling/base.py:155-186 `__init__` on a raw kernel -/
def init (kernel : Py α) (stride : Py (Option Int)) : Except Err (SepPool α) := do
  let k ← NdSpec.ofItem [-1] kernel
  ofSpec k stride

/-- pooling/base.py:121-151 `to_filter` (the padder is a separate argument of `forward` here) -/
def toFilter (pool : SepPool α) : Except Err (SepPool α) := do
  let st ← NdSpec.ofItem [] (.leaf (some 1))
  let n ← alignParams pool.kernel st
  .ok { pool with stride := st, ndim := n }

/-- an item that must be an integer -/
def asSize : Py (Option Int) → Except Err Int
  | .leaf (some k) => .ok k
  | _ => .error .type

/-- an item that must be a number -/
def asScalar : Py α → Except Err α
  | .leaf a => .ok a
  | .seq _ => .error .type

/-- an item that must be a list of numbers: `torch.tensor(k)` -/
def asVec : Py α → Except Err (List α)
  | .seq l => NdSpec.sequence (l.map asScalar)
  | .leaf _ => .error .type

section
variable [Field α] [LinearOrder α]

/-- pooling/base.py:74-97 `pad`.  The padder is an object shared with the caller: its state afterwards is the first
component. -/
def pad (pool : SepPool α) (padder : Option (Padder α)) (junk : List Nat → α) (x : Tensor α) (axes : Axes) :
    Option (Padder α) × Except Err (Tensor α) :=
  match checkAxes x.ndim axes with
  | .error e => (padder, .error e)
  | .ok axes =>
    match padder with
    | none => (none, .ok x)
    | some p =>
      match NdSpec.sequence (axes.map fun a => pyIndex x.shape a) with
      | .error e => (some p, .error e)
      | .ok sizes =>
        match NdSpec.ofItem [] (.seq (sizes.map fun (n : Nat) => Py.leaf (some (n : Int)))) with
        | .error e => (some p, .error e)
        | .ok inShape =>
          match p.toSame pool.kernelSize pool.stride inShape with
          | (p', .error e) => (some p', .error e)
          | (p', .ok _) => (some p', p'.forward junk x (.seq axes))

/-- pooling/base.py:222-227, one pass of the loop -/
def poolStep (pool : SepPool α) (i : Nat) (axis : Int) (x : Tensor α) : Except Err (Tensor α) := do
  let k ← pool.kernelSize.get (i : Int)
  let k ← asSize k
  if k = 0 then return x
  let s ← pool.stride.get (i : Int)
  let s ← asSize s
  let a ← convDim x.ndim axis
  let y ← x.unfold a k s
  let w ← pool.kernel.get (i : Int)
  let w ← asVec w
  y.matvec w

/-- pooling/base.py:222-227, the loop -/
def poolLoop (pool : SepPool α) : Nat → List Int → Tensor α → Except Err (Tensor α)
  | _, [], x => .ok x
  | i, a :: as, x => do
    let x ← poolStep pool i a x
    poolLoop pool (i + 1) as x

/-- pooling/base.py:191-228 `forward` -/
def forward (pool : SepPool α) (padder : Option (Padder α)) (junk : List Nat → α) (x : Tensor α) (axes : Axes) :
    Option (Padder α) × Except Err (Tensor α) :=
  match checkAxes x.ndim axes with
  | .error e => (padder, .error e)
  | .ok axes =>
    if pool.ndim = 0 ∨ pool.ndim = (axes.length : Int) then
      match pad pool padder junk x (.seq axes) with
      | (p', .error e) => (p', .error e)
      | (p', .ok y) => (p', poolLoop pool 0 axes y)
    else (padder, .error .assertion)

/-- uniform.py:14 `np.ones(ks) / ks` -/
def avgItem : Py (Option Int) → Except Err (Py α)
  | .leaf (some k) =>
    if k < 0 then .error .value
    else .ok (.seq ((List.replicate k.toNat (1 / (k : α))).map Py.leaf))
  | _ => .error .type

/-- uniform.py:12-22 `AvgPoolNd.__init__` -/
def avgInit (kernelSize : Py (Option Int)) (stride : Py (Option Int)) : Except Err (SepPool α) := do
  let ks ← NdSpec.ofItem [] kernelSize
  let k ← ks.map avgItem
  ofSpec k stride

/-- numpy `argsort` (the axes are distinct, see the assertion in line 35): positions ordered by value -/
def argsort (l : List Int) : List Nat :=
  (List.range l.length).insertionSort fun i j => l.getD i 0 ≤ l.getD j 0

/-- `[f(i) for i in idx]` -/
def collect {γ : Type} (f : Nat → Except Err γ) (idx : List Nat) : Except Err (List γ) :=
  NdSpec.sequence (idx.map f)

/-- uniform.py:46-47: `new_shape[axes[i]] = z.shape[i]` for `i` in `idx` -/
def countShape (axes : List Int) (zshape : List Nat) : List Nat → List Nat → Except Err (List Nat)
  | [], s => .ok s
  | i :: is, s => do
    let a ← pyIndex axes (i : Int)
    let a ← convDim s.length a
    let n ← pyIndex zshape (i : Int)
    countShape axes zshape is (s.set a n)

/-- uniform.py:24-51 `AvgPoolNd.forward` with `count_include_pad=False` -/
def avgForwardExclude (pool : SepPool α) (padder : Option (Padder α)) (junk : List Nat → α) (x : Tensor α)
    (axes : Axes) : Option (Padder α) × Except Err (Tensor α) :=
  match checkAxes x.ndim axes with
  | .error e => (padder, .error e)
  | .ok axes =>
    match collect (fun i => (pool.kernelSize.get (i : Int)).bind asSize) (List.range axes.length) with
    | .error e => (padder, .error e)
    | .ok ks =>
      let zOld : α := ((ks.prod : Int) : α)
      let idx := argsort axes
      if axes.Nodup then
        match forward pool padder junk x (.seq axes) with
        | (p', .error e) => (p', .error e)
        | (p', .ok y) => (p', do
          let inSize ← collect (fun i => (pyIndex axes (i : Int)).bind fun a => pyIndex x.shape a) idx
          let p ← match p' with
            | some p => .ok p
            | none => (.error .type : Except Err (Padder α)) -- AttributeError
          let pw ← collect (fun i => p.padWidth.get (i : Int)) idx
          let ks ← collect (fun i => (pool.kernelSize.get (i : Int)).bind asSize) idx
          let st ← collect (fun i => (pool.stride.get (i : Int)).bind asSize) idx
          let z ← nOriginalNd (.seq (inSize.map fun (n : Nat) => Py.leaf (n : Int))) (.seq pw)
            (.seq (ks.map Py.leaf)) (.seq (st.map Py.leaf))
          let newShape ← countShape axes z.shape idx (List.replicate y.ndim 1)
          let z ← (z.map fun c => ((c : Int) : α)).reshape newShape
          let v ← Tensor.bop (· * ·) y (Tensor.scalar zOld)
          Tensor.bop (· / ·) v z)
      else (padder, .error .assertion)

end

end SepPool

section
variable {α : Type} [Field α]

/-- PyTorch `x.view(*s)` with one entry `-1`, given as the entries before and after it: RuntimeError unless
the missing size is determined -/
def Tensor.viewInfer (x : Tensor α) (pre post : List Nat) : Except Err (Tensor α) :=
  let k := numel (pre ++ post)
  if k = 0 then .error .runtime
  else if numel x.shape % k = 0 then x.reshape (pre ++ [numel x.shape / k] ++ post)
  else .error .runtime

/-- PyTorch `F.conv2d` of a `(N, 1, H, W)` input with a `(1, 1, k, 1)` kernel, stride `(s, 1)`, dilation
`(d, 1)`, no padding.  RuntimeError if the dilated kernel does not fit or a parameter is not positive. -/
def conv2dColumn (x : Tensor α) (w : List α) (stride dilation : Int) : Except Err (Tensor α) :=
  match x.shape with
  | [n, 1, h, c] =>
    if stride ≤ 0 ∨ dilation ≤ 0 ∨ w = [] ∨ (h : Int) < dilation * ((w.length : Int) - 1) + 1 then .error .runtime
    else .ok (Tensor.ofFn [n, 1, ((h : Int) - dilation * ((w.length : Int) - 1) - 1).toNat / stride.toNat + 1, c] fun ix =>
      ((List.range w.length).map fun j =>
        w.getD j 0 * x.get [ix.getD 0 0, 0, ix.getD 2 0 * stride.toNat + j * dilation.toNat, ix.getD 3 0]).sum)
  | _ => .error .runtime

/-- PyTorch `F.conv1d` of a `(N, 1, W)` input with a `(1, 1, k)` kernel, no padding -/
def conv1dRow (x : Tensor α) (w : List α) (stride dilation : Int) : Except Err (Tensor α) :=
  match x.shape with
  | [n, 1, h] =>
    if stride ≤ 0 ∨ dilation ≤ 0 ∨ w = [] ∨ (h : Int) < dilation * ((w.length : Int) - 1) + 1 then .error .runtime
    else .ok (Tensor.ofFn [n, 1, ((h : Int) - dilation * ((w.length : Int) - 1) - 1).toNat / stride.toNat + 1] fun ix =>
      ((List.range w.length).map fun j =>
        w.getD j 0 * x.get [ix.getD 0 0, 0, ix.getD 2 0 * stride.toNat + j * dilation.toNat]).sum)
  | _ => .error .runtime

/-- operator.py:6-43 `any_conv_1d`; the kernel is the list of its entries.  `view` is taken on contiguous
tensors. -/
def anyConv1d (x : Tensor α) (w : List α) (dim stride dilation : Int) : Except Err (Tensor α) := do
  let bigShape := x.shape
  let d ← convDim x.ndim dim
  let y ← (if dim = -1 ∨ dim = (x.ndim : Int) - 1 then do
      let x ← x.viewInfer [] [1, x.shape.getLastD 0]
      conv1dRow x w stride dilation
    else do
      let x ← x.viewInfer [numel (x.shape.take d), 1, x.shape.getD d 0] []
      conv2dColumn x w stride dilation)
  y.viewInfer (bigShape.take d) (bigShape.drop (d + 1))

end

end TI
