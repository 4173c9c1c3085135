import Verif.Model.EdgeLoss
import Verif.Model.IntImage

/-!
# torchimage/contrib/edge_loss.py for images of integers

The edges are tensors of the type of the images; their means do not exist (`mean` of a tensor of integers is a RuntimeError), their quotients are floating-point numbers, which
are exact here.  Not modelled: the mean of no entries (NaN in PyTorch) is 0 here.
-/

namespace TI

namespace EdgeFilter
variable {α : Type} [Field α] [LinearOrder α] [IsStrictOrderedRing α] [FloorRing α] (t : IntType)

/-- edges.py:96-99, the loop, cf. `EdgeFilter.componentLoop` -/
def componentLoopWord (f : EdgeFilter α) (junk : List Nat → t.Word) (x : Tensor t.Word) (axes : List Int) :
    List Int → EdgePadders α → EdgePadders α × Except Err (List (Tensor t.Word))
  | [], ps => (ps, .ok [])
  | a :: as, ps =>
    match componentWord t f ps junk x (.int a) (.seq axes) with
    | (ps, .error e) => (ps, .error e)
    | (ps, .ok c) =>
      match componentLoopWord f junk x axes as ps with
      | (ps, .error e) => (ps, .error e)
      | (ps, .ok cs) => (ps, .ok (c :: cs))

/-- edges.py:89-100 `all_components`, cf. `EdgeFilter.allComponents` -/
def allComponentsWord (f : EdgeFilter α) (ps : EdgePadders α) (junk : List Nat → t.Word) (x : Tensor t.Word) (axes : Axes) :
    EdgePadders α × Except Err (List (Tensor t.Word)) :=
  match checkAxes x.ndim axes with
  | .error e => (ps, .error e)
  | .ok axes => if axes.length < 2 then (ps, .error .value) else componentLoopWord t f junk x axes axes ps

end EdgeFilter

namespace EdgeLoss

section
variable {α : Type} [Field α] [LinearOrder α] [IsStrictOrderedRing α] [FloorRing α] (t : IntType)

/-- edge_loss.py:12-13 `_get_edge_tensor`, cf. `EdgeLoss.edgeTensor` -/
def edgeTensorWord (f : EdgeFilter α) (ps : EdgePadders α) (junk : List Nat → t.Word) (y : Tensor t.Word) : EdgePadders α × Except Err (Tensor t.Word) :=
  match f.allComponentsWord t ps junk y (.seq [2, 3]) with
  | (ps, .error e) => (ps, .error e)
  | (ps, .ok cs) => (ps, Tensor.cat cs 1)

/-- edge_loss.py:17-18, 24-25, 31-32, 38-39, cf. `EdgeLoss.withEdges` -/
def withEdgesWord {β : Type} (loss : Tensor t.Word → Tensor t.Word → Except Err β) (f : EdgeFilter α) (ps : EdgePadders α) (junk : List Nat → t.Word)
    (pred true : Tensor t.Word) : EdgePadders α × Except Err β :=
  match edgeTensorWord t f ps junk pred with
  | (ps, .error e) => (ps, .error e)
  | (ps, .ok ep) =>
    match edgeTensorWord t f ps junk true with
    | (ps, .error e) => (ps, .error e)
    | (ps, .ok et) => (ps, loss ep et)

/-- `torch.abs`: the smallest number of a signed type is its own absolute value -/
def absWord (v : t.Word) : t.Word := BitVec.ofInt t.bits |t.value v|

/-- `torch.mean` of a tensor of integers -/
def meanWord (_ : Tensor t.Word) : Except Err (Tensor α) := .error .runtime

/-- edge_loss.py:10, 19 `nn.L1Loss()`, cf. `EdgeLoss.l1` -/
def l1Word (ep et : Tensor t.Word) : Except Err (Tensor α) := do
  let d ← Tensor.bop (· - ·) ep et
  meanWord t (d.map (absWord t))

/-- edge_loss.py:26, cf. `EdgeLoss.mulLoss` -/
def mulLossWord (ep et : Tensor t.Word) : Except Err (Tensor α) := do
  let d ← Tensor.bop (· - ·) et ep
  let m ← Tensor.bop (· * ·) (d.map (absWord t)) et
  meanWord t m

/-- edge_loss.py:40, cf. `EdgeLoss.sumLoss` -/
def sumLossWord (ep et : Tensor t.Word) : Except Err (Tensor α) := do
  let a ← meanWord (α := α) t (et.map (absWord t))
  let p ← meanWord (α := α) t (ep.map (absWord t))
  let d ← Tensor.bop (· - ·) a p
  (d.map fun v => |v|).meanDims [] false

end

section
variable (t : IntType)

/-- edge_loss.py:33, cf. `EdgeLoss.divLoss`: the quotient of two tensors of integers is a tensor of floating-point numbers -/
noncomputable def divLossWord (ep et : Tensor t.Word) : Except Err Val := do
  let d ← Tensor.bop (· - ·) et ep
  let m ← Tensor.bop (fun a b : ℝ => (a / b, b)) (t.floats (d.map (absWord t))) (t.floats et)
  if m.data.any fun r => decide (r.2 = 0) then .ok .bad
  else
    let q ← (m.map fun r => r.1).meanDims [] false
    .ok (.real (q.get []))

end

end EdgeLoss

end TI
