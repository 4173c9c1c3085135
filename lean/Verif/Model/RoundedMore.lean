import Verif.Model.Rounded
import Verif.Model.Edges

/-!
# torchimage/filtering/edges.py:57-87 and filtering/sharpen.py:43-49 with the arithmetic left open

The code of `EdgeFilter.component` and `UnsharpMask.forward` once more, with the arithmetic as parameters like in `Model/Rounded.lean`.  Comparisons with the
threshold and padding are exact here; overflow, underflow and NaN are not modelled.
-/

namespace TI

namespace EdgeFilter

/-- edges.py:62-63, the difference of the samples after and before -/
def firstDiffWith {α : Type} [Zero α] (sub : α → α → α) (x : Tensor α) (axis : Int) : Except Err (Tensor α) := do
  let a ← x.sliceAt (.from 2) axis
  let b ← x.sliceAt (.between 0 (-2)) axis
  Tensor.bop sub a b

/-- edges.py:66-68, the second difference -/
def secondDiffWith {α : Type} [Zero α] (add sub : α → α → α) (twice : α → α) (x : Tensor α) (axis : Int) : Except Err (Tensor α) := do
  let a ← x.sliceAt (.from 2) axis
  let b ← x.sliceAt (.between 0 (-2)) axis
  let s ← Tensor.bop add a b
  let c ← x.sliceAt (.between 1 (-1)) axis
  Tensor.bop sub s (c.map twice)

variable {α : Type} [Field α] [LinearOrder α]

/-- edges.py:71-72 `_conv_smooth` -/
def convSmoothWith (dot : Nat → List Nat → List α → List α → α) (f : EdgeFilter α) (ps : EdgePadders α) (junk : List Nat → α) (x : Tensor α) (axes : List Int) :
    EdgePadders α × Except Err (Tensor α) :=
  match f.smoothPool.forwardWith dot ps.smooth junk x (.seq axes) with
  | (p, r) => (ps.setSmooth p, r)

variable [IsStrictOrderedRing α] [FloorRing α]

/-- edges.py:57-69 `_conv_edge` -/
def convEdgeWith (dot : Nat → List Nat → List α → List α → α) (add sub : α → α → α) (twice : α → α) (f : EdgeFilter α) (ps : EdgePadders α) (junk : List Nat → α)
    (x : Tensor α) (axis : Int) : EdgePadders α × Except Err (Tensor α) :=
  match (f.edgeKernel.get 0).bind SepPool.asVec with
  | .error e => (ps, .error e)
  | .ok w =>
    let discrete := w.map truncInt
    if discrete = [-1, 0, 1] then
      match f.edgePool.pad ps.edge junk x (.int axis) with
      | (p, r) => (ps.setEdge p, r.bind fun y => firstDiffWith sub y axis)
    else if discrete = [1, -2, 1] then
      match f.edgePool.pad ps.edge junk x (.int axis) with
      | (p, r) => (ps.setEdge p, r.bind fun y => secondDiffWith add sub twice y axis)
    else
      match f.edgePool.forwardWith dot ps.edge junk x (.int axis) with
      | (p, r) => (ps.setEdge p, r)

/-- edges.py:74-87 `component`; `dot` and `dot'` are the scalar products of the edge kernel and of the smoothing kernels -/
def componentWith (dot dot' : Nat → List Nat → List α → List α → α) (add sub : α → α → α) (twice : α → α) (f : EdgeFilter α) (ps : EdgePadders α)
    (junk : List Nat → α) (x : Tensor α) (edgeAxis smoothAxes : Axes) : EdgePadders α × Except Err (Tensor α) :=
  match checkAxes x.ndim edgeAxis with
  | .error e => (ps, .error e)
  | .ok ea =>
    match ea with
    | [a] =>
      match checkAxes x.ndim smoothAxes with
      | .error e => (ps, .error e)
      | .ok sa =>
        let sa := sa.filter fun b => b ≠ a
        match convEdgeWith dot add sub twice f ps junk x a with
        | (ps, .error e) => (ps, .error e)
        | (ps, .ok y) => convSmoothWith dot' f ps junk y sa
    | _ => (ps, .error .value)

end EdgeFilter

namespace UnsharpMask
variable {α : Type} [Field α] [LinearOrder α]

/-- sharpen.py:43-49 `forward`; `scale v` is `self.amount * v` -/
def forwardRounded (dot : Nat → List Nat → List α → List α → α) (add sub : α → α → α) (scale : α → α) (u : UnsharpMask α) (padder : Option (Padder α))
    (junk : List Nat → α) (x : Tensor α) (axes : Axes) : Option (Padder α) × Except Err (Tensor α) :=
  match checkAxes x.ndim axes with
  | .error e => (padder, .error e)
  | .ok axes =>
    match u.blur.forwardWith dot padder junk x (.seq axes) with
    | (p, .error e) => (p, .error e)
    | (p, .ok blurred) => (p, do
      let y ← Tensor.bop sub x blurred
      let y := dropSmall u.threshold y
      Tensor.bop add x (y.map scale))

end UnsharpMask

end TI
