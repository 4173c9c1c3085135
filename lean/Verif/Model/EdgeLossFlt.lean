import Verif.Model.EdgeLoss
import Verif.Model.FltSsim

/-!
# torchimage/contrib/edge_loss.py for images with entries that are not finite

As in `Model/Flt.lean`, finite numbers are exact and there is one zero.
-/

namespace TI

namespace EdgeFilter
variable {α : Type} [Field α] [LinearOrder α] [IsStrictOrderedRing α] [FloorRing α]

/-- edges.py:96-99, the loop, cf. `EdgeFilter.componentLoop` -/
def componentLoopFlt (f : EdgeFilter α) (junk : List Nat → Flt α) (x : Tensor (Flt α)) (axes : List Int) :
    List Int → EdgePadders α → EdgePadders α × Except Err (List (Tensor (Flt α)))
  | [], ps => (ps, .ok [])
  | a :: as, ps =>
    match componentFlt f ps junk x (.int a) (.seq axes) with
    | (ps, .error e) => (ps, .error e)
    | (ps, .ok c) =>
      match componentLoopFlt f junk x axes as ps with
      | (ps, .error e) => (ps, .error e)
      | (ps, .ok cs) => (ps, .ok (c :: cs))

/-- edges.py:89-100 `all_components`, cf. `EdgeFilter.allComponents` -/
def allComponentsFlt (f : EdgeFilter α) (ps : EdgePadders α) (junk : List Nat → Flt α) (x : Tensor (Flt α)) (axes : Axes) :
    EdgePadders α × Except Err (List (Tensor (Flt α))) :=
  match checkAxes x.ndim axes with
  | .error e => (ps, .error e)
  | .ok axes => if axes.length < 2 then (ps, .error .value) else componentLoopFlt f junk x axes axes ps

end EdgeFilter

/-- `torch.abs` -/
def Flt.abs {α : Type} [Field α] [LinearOrder α] : Flt α → Flt α
  | .num a => .num |a|
  | .inf _ => .inf false
  | .nan => .nan

namespace EdgeLoss
variable {α : Type} [Field α] [LinearOrder α] [IsStrictOrderedRing α] [FloorRing α]

/-- edge_loss.py:12-13 `_get_edge_tensor`, cf. `EdgeLoss.edgeTensor` -/
def edgeTensorFlt (f : EdgeFilter α) (ps : EdgePadders α) (junk : List Nat → Flt α) (y : Tensor (Flt α)) : EdgePadders α × Except Err (Tensor (Flt α)) :=
  match f.allComponentsFlt ps junk y (.seq [2, 3]) with
  | (ps, .error e) => (ps, .error e)
  | (ps, .ok cs) => (ps, Tensor.cat cs 1)

/-- edge_loss.py:17-18, 24-25, 31-32, 38-39, cf. `EdgeLoss.withEdges` -/
def withEdgesFlt {β : Type} (loss : Tensor (Flt α) → Tensor (Flt α) → Except Err β) (f : EdgeFilter α) (ps : EdgePadders α) (junk : List Nat → Flt α)
    (pred true : Tensor (Flt α)) : EdgePadders α × Except Err β :=
  match edgeTensorFlt f ps junk pred with
  | (ps, .error e) => (ps, .error e)
  | (ps, .ok ep) =>
    match edgeTensorFlt f ps junk true with
    | (ps, .error e) => (ps, .error e)
    | (ps, .ok et) => (ps, loss ep et)

/-- edge_loss.py:10, 19 `nn.L1Loss()`, cf. `EdgeLoss.l1` -/
def l1Flt (ep et : Tensor (Flt α)) : Except Err (Tensor (Flt α)) := do
  let d ← Tensor.bop (· - ·) ep et
  meanDimsFlt (d.map Flt.abs) [] false

/-- edge_loss.py:26, cf. `EdgeLoss.mulLoss` -/
def mulLossFlt (ep et : Tensor (Flt α)) : Except Err (Tensor (Flt α)) := do
  let d ← Tensor.bop (· - ·) et ep
  let m ← Tensor.bop (· * ·) (d.map Flt.abs) et
  meanDimsFlt m [] false

/-- edge_loss.py:40, cf. `EdgeLoss.sumLoss` -/
def sumLossFlt (ep et : Tensor (Flt α)) : Except Err (Tensor (Flt α)) := do
  let t ← meanDimsFlt (et.map Flt.abs) [2, 3] false
  let p ← meanDimsFlt (ep.map Flt.abs) [2, 3] false
  let d ← Tensor.bop (· - ·) t p
  meanDimsFlt (d.map Flt.abs) [] false

/-- edge_loss.py:33, cf. `EdgeLoss.divLoss` -/
def divLossFlt (ep et : Tensor (Flt α)) : Except Err (Tensor (Flt α)) := do
  let d ← Tensor.bop (· - ·) et ep
  let m ← Tensor.bop (· / ·) (d.map Flt.abs) et
  meanDimsFlt m [] false

end EdgeLoss

end TI
