import Verif.Model.Metrics
import Verif.Model.Power

/-!
# torchimage/contrib/edge_loss.py

Not modelled: the mean of no entries (NaN in PyTorch) is 0 here.
-/

namespace TI

section
variable {α : Type} [Zero α]

/-- `torch.cat([a, b], dim=d)` -/
def Tensor.cat2 (d : Nat) (a b : Tensor α) : Tensor α :=
  Tensor.ofFn (a.shape.set d (a.shape.getD d 0 + b.shape.getD d 0)) fun ix =>
    if ix.getD d 0 < a.shape.getD d 0 then a.get ix else b.get (ix.set d (ix.getD d 0 - a.shape.getD d 0))

/-- `torch.cat(ts, dim=dim)`: the shapes have to agree except in `dim` (the exception made for tensors of shape `(0,)` is not
modelled) -/
def Tensor.cat (ts : List (Tensor α)) (dim : Int) : Except Err (Tensor α) :=
  match ts with
  | [] => .error .runtime
  | t :: ts => do
    let d ← convDim t.ndim dim
    if ts.all fun u => u.shape.set d 0 = t.shape.set d 0 then .ok (ts.foldl (Tensor.cat2 d) t) else .error .runtime

end

namespace EdgeLoss

/-- edge_loss.py:7-9 `__init__`: the gradient filter and its two padders (pooling/base.py:67-68) -/
noncomputable def init (kernelSize : Py Int) (sigma : Py ℝ) (order : Int) : Except Err (EdgeFilter ℝ × EdgePadders ℝ) := do
  let f ← EdgeFilter.gaussianGrad kernelSize sigma none none true order
  let p ← Padder.init (.leaf 0) (.leaf .reflect) (.leaf 0) (.leaf 0) (.leaf none)
  .ok (f, .separate p p)

variable {α : Type} [Field α] [LinearOrder α] [IsStrictOrderedRing α] [FloorRing α]

/-- edge_loss.py:12-13 `_get_edge_tensor` -/
def edgeTensor (f : EdgeFilter α) (ps : EdgePadders α) (junk : List Nat → α) (y : Tensor α) : EdgePadders α × Except Err (Tensor α) :=
  match f.allComponents ps junk y (.seq [2, 3]) with
  | (ps, .error e) => (ps, .error e)
  | (ps, .ok cs) => (ps, Tensor.cat cs 1)

/-- edge_loss.py:17-18, 24-25, 31-32, 38-39: both edge tensors, then `loss` of the predicted and the true one -/
def withEdges {β : Type} (loss : Tensor α → Tensor α → Except Err β) (f : EdgeFilter α) (ps : EdgePadders α) (junk : List Nat → α)
    (pred true : Tensor α) : EdgePadders α × Except Err β :=
  match edgeTensor f ps junk pred with
  | (ps, .error e) => (ps, .error e)
  | (ps, .ok ep) =>
    match edgeTensor f ps junk true with
    | (ps, .error e) => (ps, .error e)
    | (ps, .ok et) => (ps, loss ep et)

/-- edge_loss.py:10, 19 `nn.L1Loss()`: `(a - b).abs().mean()` after broadcasting -/
def l1 (ep et : Tensor α) : Except Err (Tensor α) := do
  let d ← Tensor.bop (· - ·) ep et
  (d.map fun v => |v|).meanDims [] false

/-- edge_loss.py:26 -/
def mulLoss (ep et : Tensor α) : Except Err (Tensor α) := do
  let d ← Tensor.bop (· - ·) et ep
  let m ← Tensor.bop (· * ·) (d.map fun v => |v|) et
  m.meanDims [] false

/-- edge_loss.py:40 -/
def sumLoss (ep et : Tensor α) : Except Err (Tensor α) := do
  let t ← (et.map fun v => |v|).meanDims [2, 3] false
  let p ← (ep.map fun v => |v|).meanDims [2, 3] false
  let d ← Tensor.bop (· - ·) t p
  (d.map fun v => |v|).meanDims [] false

/-- edge_loss.py:16-19 `GaussianEdgeLoss.forward` -/
def forward (f : EdgeFilter α) (ps : EdgePadders α) (junk : List Nat → α) (pred true : Tensor α) : EdgePadders α × Except Err (Tensor α) :=
  withEdges l1 f ps junk pred true

/-- edge_loss.py:23-26 `WeightedMul.forward` -/
def weightedMul (f : EdgeFilter α) (ps : EdgePadders α) (junk : List Nat → α) (pred true : Tensor α) : EdgePadders α × Except Err (Tensor α) :=
  withEdges mulLoss f ps junk pred true

/-- edge_loss.py:37-40 `WeightedSum.forward` -/
def weightedSum (f : EdgeFilter α) (ps : EdgePadders α) (junk : List Nat → α) (pred true : Tensor α) : EdgePadders α × Except Err (Tensor α) :=
  withEdges sumLoss f ps junk pred true

/-- edge_loss.py:33.  An entry divided by zero is NaN or infinite, so the mean is not a real number either. -/
noncomputable def divLoss (ep et : Tensor ℝ) : Except Err Val := do
  let d ← Tensor.bop (· - ·) et ep
  let m ← Tensor.bop (fun a b => (a / b, b)) (d.map fun v => |v|) et
  if m.data.any fun r => decide (r.2 = 0) then .ok .bad
  else
    let q ← (m.map fun r => r.1).meanDims [] false
    .ok (.real (q.get []))

/-- edge_loss.py:30-33 `WeightedDiv.forward` -/
noncomputable def weightedDiv (f : EdgeFilter ℝ) (ps : EdgePadders ℝ) (junk : List Nat → ℝ) (pred true : Tensor ℝ) :
    EdgePadders ℝ × Except Err Val := withEdges divLoss f ps junk pred true

end EdgeLoss

end TI
