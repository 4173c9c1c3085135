import Verif.Model.Pool

/-!
# When a result is the argument itself

Tensors are mutable objects.  Padding and pooling create new tensors except when there is nothing to do: then the very tensor
passed in is returned.  The functions of this file say when that happens; `EdgeFilter.magnitude` (edges.py:108-136) adds to such
results in place.
-/

namespace TI

namespace Padder
variable {α : Type}

/-- generic_pad.py:195-262 `forward`: is the returned object `x` itself?  (lines 227 and 252) -/
def returnsArg (p : Padder α) (x : Tensor α) (axes : Axes) : Bool :=
  if x.ndim = 0 then false
  else
  match checkAxes x.ndim axes with
  | .error _ => false
  | .ok axes =>
    if axes = [] then true
    else
      let zero := x.shape.map fun _ => (0 : Int)
      match accLoop p x.shape axes (negRange (p.nPadded axes)) (zero, zero) with
      | .error _ => false
      | .ok (headV, afterV) =>
        let tailV := List.zipWith (fun (h : Int) (n : Nat) => h + (n : Int)) headV x.shape
        decide (List.zipWith (fun (t a : Int) => t + a) tailV afterV = x.shape.map fun (n : Nat) => (n : Int))

end Padder

namespace SepPool
variable {α : Type} [Field α] [LinearOrder α]

/-- pooling/base.py:74-97 `pad`: is the returned object `x` itself? -/
def padReturnsArg (pool : SepPool α) (padder : Option (Padder α)) (x : Tensor α) (axes : Axes) : Bool :=
  match checkAxes x.ndim axes with
  | .error _ => false
  | .ok axes =>
    match padder with
    | none => true
    | some p =>
      match NdSpec.sequence (axes.map fun a => pyIndex x.shape a) with
      | .error _ => false
      | .ok sizes =>
        match NdSpec.ofItem [] (.seq (sizes.map fun (n : Nat) => Py.leaf (some (n : Int)))) with
        | .error _ => false
        | .ok inShape =>
          match p.toSame pool.kernelSize pool.stride inShape with
          | (_, .error _) => false
          | (p', .ok _) => p'.returnsArg x (.seq axes)

/-- pooling/base.py:222-227: do all passes of the loop, from the `i`-th on, `continue`? -/
def loopReturnsArg (pool : SepPool α) : Nat → List Int → Bool
  | _, [] => true
  | i, _ :: as =>
    match (pool.kernelSize.get (i : Int)).bind asSize with
    | .error _ => false
    | .ok k => decide (k = 0) && loopReturnsArg pool (i + 1) as

/-- pooling/base.py:191-228 `forward`: is the returned object `x` itself?  (`unfold(..) @ kernel` is a new tensor) -/
def forwardReturnsArg (pool : SepPool α) (padder : Option (Padder α)) (x : Tensor α) (axes : Axes) : Bool :=
  match checkAxes x.ndim axes with
  | .error _ => false
  | .ok axes =>
    if pool.ndim = 0 ∨ pool.ndim = (axes.length : Int) then padReturnsArg pool padder x (.seq axes) && loopReturnsArg pool 0 axes
    else false

end SepPool

end TI
