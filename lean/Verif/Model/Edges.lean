import Verif.Model.Gaussian
import Verif.Model.Alias
import Mathlib.Algebra.Order.Floor.Ring

/-!
# torchimage/filtering/edges.py, filtering/sharpen.py

Aliasing: `magnitude += ..` modifies a tensor in place.  The result of `component` is a new tensor except when there is nothing
to do (both kernels are empty), in which case it is the input itself; `magnitudeLoop` keeps track of that.  The other in-place
operations (`y[..] = 0` and the like) are on tensors created in the same function.
-/

namespace TI

/-- The padders of the two filters of an `EdgeFilter`.  `None` or a `Padder` object is shared by both (edges.py:54-55), a mode
string makes a padder for each (pooling/base.py:67-68). -/
inductive EdgePadders (α : Type) where
  | shared (p : Option (Padder α))
  | separate (edge smooth : Padder α)

namespace EdgePadders
variable {α : Type}

/-- `self.edge_filter.same_padder` -/
def edge : EdgePadders α → Option (Padder α)
  | shared p => p
  | separate e _ => some e

/-- `self.smooth_filter.same_padder` -/
def smooth : EdgePadders α → Option (Padder α)
  | shared p => p
  | separate _ s => some s

/-- the object bound to the edge filter changes its state -/
def setEdge : EdgePadders α → Option (Padder α) → EdgePadders α
  | shared _, p => shared p
  | separate e s, p => separate (p.getD e) s

/-- the object bound to the smoothing filter changes its state -/
def setSmooth : EdgePadders α → Option (Padder α) → EdgePadders α
  | shared _, p => shared p
  | separate e s, p => separate e (p.getD s)

end EdgePadders

/-- edges.py:33-55, the attributes of an `EdgeFilter` (the padders are arguments of the methods here) -/
structure EdgeFilter (α : Type) where
  edgeKernel : NdSpec α
  edgePool : SepPool α
  smoothPool : SepPool α

/-- Python `int(a)` of a float: drop the fractional part -/
def truncInt {α : Type} [Field α] [LinearOrder α] [IsStrictOrderedRing α] [FloorRing α] (a : α) : Int :=
  if 0 ≤ a then ⌊a⌋ else ⌈a⌉

/-- `x[make_idx(start, stop, dim=dim, ndim=x.ndim)]`; IndexError if the index tuple is longer than `x.ndim`, which happens
exactly if `dim` is out of range -/
def Tensor.sliceAt {α : Type} [Zero α] (x : Tensor α) (s : PySlice) (dim : Int) : Except Err (Tensor α) := do
  let d ← convDim x.ndim dim
  .ok (x.getSlice (makeIdx s d x.ndim))

/-- `m += c`, in place: `c` has to broadcast to the shape of `m` -/
def Tensor.iadd {α : Type} [Zero α] [Add α] (m c : Tensor α) : Except Err (Tensor α) :=
  if bcastable c.shape m.shape then .ok (Tensor.ofFn m.shape fun ix => m.get ix + c.get (bidx c.shape ix))
  else .error .runtime

namespace EdgeFilter

section
variable {α : Type} [Field α]

/-- edges.py:43-46 `_reweight`.  Numpy division: a sum of zero gives infinite or undefined weights, here zero weights. -/
def reweight (k : Py α) : Except Err (Py α) := do
  let w ← SepPool.asVec k
  .ok (.seq (w.map fun a => .leaf (a / w.sum)))

/-- edges.py:33-55 `__init__` when the kernels already are `NdSpec`s -/
def ofSpecs (edge smooth : NdSpec α) (normalize : Bool) : Except Err (EdgeFilter α) := do
  if edge.indexShape ≠ [] then .error .value
  else
    let smooth ← (if normalize then smooth.map reweight else .ok smooth)
    let ep ← SepPool.ofSpec edge (.leaf none)
    let ep ← ep.toFilter
    let sp ← SepPool.ofSpec smooth (.leaf none)
    let sp ← sp.toFilter
    .ok ⟨edge, ep, sp⟩

/-- edges.py:33-55 `__init__` -/
def init (edge smooth : Py α) (normalize : Bool) : Except Err (EdgeFilter α) := do
  let e ← NdSpec.ofItem [-1] edge
  if e.indexShape ≠ [] then .error .value
  else
    let s ← NdSpec.ofItem [-1] smooth
    ofSpecs e s normalize

/-- a kernel written as a tuple of numbers -/
def pyVec (l : List α) : Py α := .seq (l.map .leaf)

/-- edges.py:139-141 `Sobel` -/
def sobel (normalize : Bool) : Except Err (EdgeFilter α) := init (pyVec [-1, 0, 1]) (pyVec [1, 2, 1]) normalize

/-- edges.py:144-146 `Prewitt` -/
def prewitt (normalize : Bool) : Except Err (EdgeFilter α) := init (pyVec [-1, 0, 1]) (pyVec [1, 1, 1]) normalize

/-- edges.py:149-151 `Scharr` -/
def scharr (normalize : Bool) : Except Err (EdgeFilter α) := init (pyVec [-1, 0, 1]) (pyVec [3, 10, 3]) normalize

/-- edges.py:161, the decimal fractions of the smoothing kernel -/
def faridSmooth : List α :=
  [376593171958126 / 10 ^ 16, 249153396177344 / 10 ^ 15, 426374573253687 / 10 ^ 15, 249153396177344 / 10 ^ 15,
    376593171958126 / 10 ^ 16]

/-- edges.py:162, the decimal fractions of the edge kernel -/
def faridEdge : List α :=
  [-(109603762960254 / 10 ^ 15), -(276690988455557 / 10 ^ 15), 0, 276690988455557 / 10 ^ 15, 109603762960254 / 10 ^ 15]

/-- edges.py:154-163 `Farid` -/
def farid (normalize : Bool) : Except Err (EdgeFilter α) := init (pyVec faridEdge) (pyVec faridSmooth) normalize

/-- edges.py:213-215 `Laplace.__init__` -/
def laplace : Except Err (EdgeFilter α) := init (pyVec [1, -2, 1]) (pyVec []) false

end

/-- edges.py:62-63, the difference of the samples after and before -/
def firstDiff {α : Type} [Zero α] [Sub α] (x : Tensor α) (axis : Int) : Except Err (Tensor α) := do
  let a ← x.sliceAt (.from 2) axis
  let b ← x.sliceAt (.between 0 (-2)) axis
  Tensor.bop (· - ·) a b

/-- edges.py:66-68, the second difference -/
def secondDiff {α : Type} [Zero α] [Add α] [Sub α] [Mul α] [OfNat α 2] (x : Tensor α) (axis : Int) : Except Err (Tensor α) := do
  let a ← x.sliceAt (.from 2) axis
  let b ← x.sliceAt (.between 0 (-2)) axis
  let s ← Tensor.bop (· + ·) a b
  let c ← x.sliceAt (.between 1 (-1)) axis
  let c := c.map fun v => 2 * v
  Tensor.bop (· - ·) s c

section
variable {α : Type} [Field α] [LinearOrder α]

/-- edges.py:71-72 `_conv_smooth` -/
def convSmooth (f : EdgeFilter α) (ps : EdgePadders α) (junk : List Nat → α) (x : Tensor α) (axes : List Int) :
    EdgePadders α × Except Err (Tensor α) :=
  match f.smoothPool.forward ps.smooth junk x (.seq axes) with
  | (p, r) => (ps.setSmooth p, r)

variable [IsStrictOrderedRing α] [FloorRing α]

/-- edges.py:57-69 `_conv_edge` -/
def convEdge (f : EdgeFilter α) (ps : EdgePadders α) (junk : List Nat → α) (x : Tensor α) (axis : Int) :
    EdgePadders α × Except Err (Tensor α) :=
  match (f.edgeKernel.get 0).bind SepPool.asVec with
  | .error e => (ps, .error e)
  | .ok w =>
    let discrete := w.map truncInt
    if discrete = [-1, 0, 1] then
      match f.edgePool.pad ps.edge junk x (.int axis) with
      | (p, r) => (ps.setEdge p, r.bind fun y => firstDiff y axis)
    else if discrete = [1, -2, 1] then
      match f.edgePool.pad ps.edge junk x (.int axis) with
      | (p, r) => (ps.setEdge p, r.bind fun y => secondDiff y axis)
    else
      match f.edgePool.forward ps.edge junk x (.int axis) with
      | (p, r) => (ps.setEdge p, r)

/-- edges.py:74-87 `component` -/
def component (f : EdgeFilter α) (ps : EdgePadders α) (junk : List Nat → α) (x : Tensor α) (edgeAxis smoothAxes : Axes) :
    EdgePadders α × Except Err (Tensor α) :=
  match checkAxes x.ndim edgeAxis with
  | .error e => (ps, .error e)
  | .ok ea =>
    match ea with
    | [a] =>
      match checkAxes x.ndim smoothAxes with
      | .error e => (ps, .error e)
      | .ok sa =>
        let sa := sa.filter fun b => b ≠ a
        match convEdge f ps junk x a with
        | (ps, .error e) => (ps, .error e)
        | (ps, .ok y) => convSmooth f ps junk y sa
    | _ => (ps, .error .value)

/-- edges.py:96-99, the loop -/
def componentLoop (f : EdgeFilter α) (junk : List Nat → α) (x : Tensor α) (axes : List Int) :
    List Int → EdgePadders α → EdgePadders α × Except Err (List (Tensor α))
  | [], ps => (ps, .ok [])
  | a :: as, ps =>
    match component f ps junk x (.int a) (.seq axes) with
    | (ps, .error e) => (ps, .error e)
    | (ps, .ok c) =>
      match componentLoop f junk x axes as ps with
      | (ps, .error e) => (ps, .error e)
      | (ps, .ok cs) => (ps, .ok (c :: cs))

/-- edges.py:89-100 `all_components` -/
def allComponents (f : EdgeFilter α) (ps : EdgePadders α) (junk : List Nat → α) (x : Tensor α) (axes : Axes) :
    EdgePadders α × Except Err (List (Tensor α)) :=
  match checkAxes x.ndim axes with
  | .error e => (ps, .error e)
  | .ok axes => if axes.length < 2 then (ps, .error .value) else componentLoop f junk x axes axes ps

/-- edges.py:102-103 `horizontal` -/
def horizontal (f : EdgeFilter α) (ps : EdgePadders α) (junk : List Nat → α) (x : Tensor α) : EdgePadders α × Except Err (Tensor α) :=
  component f ps junk x (.int (-2)) (.int (-1))

/-- edges.py:105-106 `vertical` -/
def vertical (f : EdgeFilter α) (ps : EdgePadders α) (junk : List Nat → α) (x : Tensor α) : EdgePadders α × Except Err (Tensor α) :=
  component f ps junk x (.int (-1)) (.int (-2))

/-- edges.py:57-69 `_conv_edge`: is the returned object `x` itself?  (a difference is a new tensor) -/
def convEdgeReturnsArg (f : EdgeFilter α) (ps : EdgePadders α) (x : Tensor α) (axis : Int) : Bool :=
  match (f.edgeKernel.get 0).bind SepPool.asVec with
  | .error _ => false
  | .ok w =>
    let discrete := w.map truncInt
    if discrete = [-1, 0, 1] ∨ discrete = [1, -2, 1] then false
    else f.edgePool.forwardReturnsArg ps.edge x (.int axis)

/-- edges.py:74-87 `component`: is the returned object `x` itself? -/
def componentReturnsArg (f : EdgeFilter α) (ps : EdgePadders α) (junk : List Nat → α) (x : Tensor α) (edgeAxis smoothAxes : Axes) : Bool :=
  match checkAxes x.ndim edgeAxis, checkAxes x.ndim smoothAxes with
  | .ok [a], .ok sa =>
    match convEdge f ps junk x a with
    | (_, .error _) => false
    | (ps', .ok y) => convEdgeReturnsArg f ps x a && f.smoothPool.forwardReturnsArg ps'.smooth y (.seq (sa.filter fun b => b ≠ a))
  | _, _ => false

/-- the object bound to the variable `magnitude`: nothing yet, the caller's tensor `x`, or a tensor of its own -/
inductive Accum (α : Type) where
  | unset
  | arg
  | own (t : Tensor α)

/-- edges.py:118-128, the loop; `p = 1` skips the power.  The state has the padders, the content of the caller's tensor `x` and
the object bound to `magnitude`. -/
def magnitudeLoop (f : EdgeFilter α) (junk : List Nat → α) (axes : List Int) (p : Nat) :
    List Int → EdgePadders α → Tensor α → Accum α → EdgePadders α × Tensor α × Except Err (Accum α)
  | [], ps, x, m => (ps, x, .ok m)
  | a :: as, ps, x, m =>
    let same := componentReturnsArg f ps junk x (.int a) (.seq axes)
    match component f ps junk x (.int a) (.seq axes) with
    | (ps, .error e) => (ps, x, .error e)
    | (ps, .ok c) =>
      let c := if p = 1 then c else c.map fun v => v ^ p
      match m with
      | .unset => magnitudeLoop f junk axes p as ps x (if p = 1 ∧ same = true then .arg else .own c)
      | .arg =>
        match x.iadd c with
        | .error e => (ps, x, .error e)
        | .ok x => magnitudeLoop f junk axes p as ps x .arg
      | .own m =>
        match m.iadd c with
        | .error e => (ps, x, .error e)
        | .ok m => magnitudeLoop f junk axes p as ps x (.own m)

/-- edges.py:108-136 `magnitude` for a non-negative integer `p`; `root` is the power `v ** (1 / p)`.  Also returns what the caller
then finds in `x`. -/
def magnitudeInPlace (root : α → α) (f : EdgeFilter α) (ps : EdgePadders α) (junk : List Nat → α) (x : Tensor α) (axes : Axes)
    (epsilon : α) (p : Nat) : EdgePadders α × Tensor α × Except Err (Tensor α) :=
  match checkAxes x.ndim axes with
  | .error e => (ps, x, .error e)
  | .ok axes =>
    if axes.length < 2 then (ps, x, .error .value)
    else
      match magnitudeLoop f junk axes p axes ps x .unset with
      | (ps, x, .error e) => (ps, x, .error e)
      | (ps, x, .ok .unset) => (ps, x, .error .type)
      | (ps, x, .ok .arg) =>
        let x := if epsilon = 0 then x else x.map fun v => v + epsilon
        if p = 1 then (ps, x, .ok x)
        else if p = 0 then (ps, x, .error .zeroDivision)
        else (ps, x, .ok (x.map root))
      | (ps, x, .ok (.own m)) =>
        let m := if epsilon = 0 then m else m.map fun v => v + epsilon
        if p = 1 then (ps, x, .ok m)
        else if p = 0 then (ps, x, .error .zeroDivision)
        else (ps, x, .ok (m.map root))

/-- edges.py:108-136 `magnitude`, its result alone -/
def magnitude (root : α → α) (f : EdgeFilter α) (ps : EdgePadders α) (junk : List Nat → α) (x : Tensor α) (axes : Axes) (epsilon : α)
    (p : Nat) : EdgePadders α × Except Err (Tensor α) :=
  match magnitudeInPlace root f ps junk x axes epsilon p with
  | (ps, _, r) => (ps, r)

/-- edges.py:217-218 `Laplace.forward` -/
def laplaceForward (f : EdgeFilter α) (ps : EdgePadders α) (junk : List Nat → α) (x : Tensor α) (axes : Axes) :
    EdgePadders α × Except Err (Tensor α) := magnitude id f ps junk x axes 0 1

end

/-- edges.py:171 `lambda ks, s: gaussian_kernel_1d(kernel_size=ks, sigma=s, order=0)` -/
noncomputable def gaussItem (ks : Py Int) (s : Py ℝ) : Except Err (Py ℝ) :=
  match ks, s with
  | .leaf ks, .leaf s => do
    let k ← gaussianKernel ks s 0
    .ok (.seq (k.map .leaf))
  | _, _ => .error .type

/-- edges.py:173-179: the argument, or else the item of the other argument, which must be a single one -/
def itemOr {β : Type} (given : Option β) (spec : NdSpec β) : Except Err β :=
  match given with
  | some v => .ok v
  | none =>
    if spec.indexPos = 0 then
      match spec.data with
      | .leaf v => .ok v
      | .seq _ => .error .type
    else .error .assertion

/-- edges.py:167-182 `GaussianGrad.__init__` -/
noncomputable def gaussianGrad (kernelSize : Py Int) (sigma : Py ℝ) (edgeKernelSize : Option Int) (edgeSigma : Option ℝ)
    (normalize : Bool) (edgeOrder : Int) : Except Err (EdgeFilter ℝ) := do
  let ks ← NdSpec.ofItem [] kernelSize
  let s ← NdSpec.ofItem [] sigma
  let smooth ← NdSpec.apply2 gaussItem ks s
  let eks ← itemOr edgeKernelSize ks
  let es ← itemOr edgeSigma s
  let edge ← gaussianKernel eks es edgeOrder
  let e ← NdSpec.ofItem [-1] (pyVec edge)
  ofSpecs e smooth normalize

/-- edges.py:226-230 `LaplacianOfGaussian.__init__` -/
noncomputable def laplacianOfGaussian (kernelSize : Py Int) (sigma : Py ℝ) : Except Err (EdgeFilter ℝ) :=
  gaussianGrad kernelSize sigma none none true 2

end EdgeFilter

/-- sharpen.py:34-41, the attributes of an `UnsharpMask` (the padder is an argument of `forward` here) -/
structure UnsharpMask (α : Type) where
  blur : SepPool α
  amount : α
  threshold : α

namespace UnsharpMask
variable {α : Type} [Field α] [LinearOrder α]

/-- sharpen.py:34-41 `__init__`: `to_filter` modifies the given module in place -/
def init (blur : SepPool α) (amount threshold : α) : Except Err (UnsharpMask α) := do
  let blur ← blur.toFilter
  .ok ⟨blur, amount, threshold⟩

/-- sharpen.py:47-48: `y[y.abs() < threshold] = 0` -/
def dropSmall (threshold : α) (y : Tensor α) : Tensor α :=
  if 0 < threshold then y.map fun v => if |v| < threshold then 0 else v else y

/-- sharpen.py:43-49 `forward` with any blurring module: `blur` is its `forward` method, with the state of its padder -/
def forwardWith (blur : Option (Padder α) → Tensor α → Axes → Option (Padder α) × Except Err (Tensor α)) (amount threshold : α)
    (padder : Option (Padder α)) (x : Tensor α) (axes : Axes) : Option (Padder α) × Except Err (Tensor α) :=
  match checkAxes x.ndim axes with
  | .error e => (padder, .error e)
  | .ok axes =>
    match blur padder x (.seq axes) with
    | (p, .error e) => (p, .error e)
    | (p, .ok blurred) => (p, do
      let y ← Tensor.bop (· - ·) x blurred
      let y := dropSmall threshold y
      Tensor.bop (· + ·) x (y.map fun v => amount * v))

/-- sharpen.py:43-49 `forward` with a `SeparablePoolNd` -/
def forward (u : UnsharpMask α) (padder : Option (Padder α)) (junk : List Nat → α) (x : Tensor α) (axes : Axes) :
    Option (Padder α) × Except Err (Tensor α) :=
  forwardWith (fun p x ax => u.blur.forward p junk x ax) u.amount u.threshold padder x axes

end UnsharpMask

end TI
