import Verif.Model.Tensor
import Mathlib.Algebra.Field.Defs

/-!
# torchimage/misc: outer products and polynomials
-/

namespace TI

namespace Tensor
variable {α : Type}

/-- `x.reshape(shape)` / `x.view(shape)` without `-1`: same data, RuntimeError if the sizes do not match -/
def reshape (x : Tensor α) (s : List Nat) : Except Err (Tensor α) :=
  if h : x.data.length = numel s then .ok ⟨s, x.data, h⟩ else .error .runtime

end Tensor

/-- misc/outer.py:27 `outer` -/
def outer {α : Type} [Zero α] [Mul α] (u v : Tensor α) : Except Err (Tensor α) := do
  let u ← u.reshape (u.shape ++ List.replicate v.ndim 1)
  Tensor.bop (· * ·) u v

section
variable {α : Type} [Semiring α]

/-- polynomial.py:30-38, the loop.  `y = none` is Python's `None`; `xx` is the running power.
`rest` is what is left of `weight`, so the test `i < len(weight) - 1` is "the rest is not empty". -/
def polyLoop (x : Tensor α) : List α → Option (Tensor α) → Tensor α → Except Err (Option (Tensor α))
  | [], y, _ => .ok y
  | w :: rest, y, xx => do
    let y ← (match y with
      | none => pure (xx.map (w * ·))
      | some y => Tensor.bop (fun a b => a + w * b) y xx)
    let xx ← (if rest.isEmpty then pure xx else Tensor.bop (· * ·) xx x)
    polyLoop x rest (some y) xx

/-- polynomial.py:4-40 `poly1d`.  IndexError for an empty `p`, TypeError (`None += bias`) for a single
coefficient. -/
def poly1d (x : Tensor α) (p : List α) : Except Err (Tensor α) := do
  match p.reverse with
  | [] => .error .index
  | bias :: weight =>
    match ← polyLoop x weight none x with
    | none => .error .type
    | some y => .ok (y.map (· + bias))

end

end TI
