import Verif.Model.Flt
import Verif.Model.Misc

/-!
# torchimage/misc/polynomial.py and misc/outer.py for tensors of integers, with entries that are not finite, and with the arithmetic left open

The code of `poly1d` once more, with the arithmetic as parameters: `β` are the entries of `x`, `γ` those of `y`, `κ` the coefficients.
-/

namespace TI

section
variable {κ β γ : Type} [Zero β] [Zero γ]

/-- polynomial.py:30-38, the loop, cf. `polyLoop`; `scale w v` is `w * xx`, `addScaled w a v` is `y.add_(xx, alpha=w)` -/
def polyLoopWith (mul : β → β → β) (scale : κ → β → γ) (addScaled : κ → γ → β → γ) (x : Tensor β) :
    List κ → Option (Tensor γ) → Tensor β → Except Err (Option (Tensor γ))
  | [], y, _ => .ok y
  | w :: rest, y, xx => do
    let y ← (match y with
      | none => pure (xx.map (scale w))
      | some y => Tensor.bop (addScaled w) y xx)
    let xx ← (if rest.isEmpty then pure xx else Tensor.bop mul xx x)
    polyLoopWith mul scale addScaled x rest (some y) xx

/-- polynomial.py:4-40 `poly1d`, cf. `poly1d`; `shift b a` is `y += bias` -/
def poly1dWith (mul : β → β → β) (scale : κ → β → γ) (addScaled : κ → γ → β → γ) (shift : κ → γ → γ) (x : Tensor β) (p : List κ) : Except Err (Tensor γ) := do
  match p.reverse with
  | [] => .error .index
  | bias :: weight =>
    match ← polyLoopWith mul scale addScaled x weight none x with
    | none => .error .type
    | some y => .ok (y.map (shift bias))

end

section
variable {α : Type} [Field α] [LinearOrder α]

/-- `poly1d` of a tensor of floating-point numbers; the coefficients are finite -/
def poly1dFlt (x : Tensor (Flt α)) (p : List α) : Except Err (Tensor (Flt α)) :=
  poly1dWith (fun a b => a * b) (fun w v => .num w * v) (fun w a v => a + .num w * v) (fun b a => a + .num b) x p

/-- misc/outer.py:27 `outer` with the multiplication left open -/
def outerWith (mul : α → α → α) (u v : Tensor α) : Except Err (Tensor α) := @outer α _ ⟨mul⟩ u v

/-- a coefficient: a Python `int` or `float` -/
inductive Coef (α : Type) where
  | int (n : ℤ)
  | float (a : α)

/-- the number meant by a coefficient -/
def Coef.number : Coef α → α
  | .int n => (n : α)
  | .float a => a

/-- a tensor of integers, or of floating-point numbers -/
inductive IntOrFloat (α : Type) (t : IntType) where
  | int (y : Tensor t.Word)
  | float (y : Tensor α)

variable (t : IntType)

/-- the integers among the coefficients; `none` if one is a float -/
def Coef.ints? : List (Coef α) → Option (List ℤ)
  | [] => some []
  | .int n :: l => (Coef.ints? l).map (n :: ·)
  | .float _ :: _ => none

/-- `poly1d` of a tensor of integers.  The powers of `x` are computed in its type.  The type of `y = w * xx` is that of `x` if `w` is an `int`, and floating-point numbers if it is a `float`;
in the first case `y.add_(xx, alpha=w)` and `y += bias` raise RuntimeError for a `float`.  Simplifications: integer coefficients are in the range of the type
(PyTorch refuses others as `alpha`); floating-point numbers are exact. -/
def poly1dWord (x : Tensor t.Word) (p : List (Coef α)) : Except Err (IntOrFloat α t) :=
  match p.reverse with
  | [] => .error .index
  | [_] => .error .type
  | _ :: .float _ :: _ =>
    (poly1dWith (fun a b : t.Word => a * b) (fun w v => w.number * ((t.value v : ℤ) : α)) (fun w a v => a + w.number * ((t.value v : ℤ) : α))
      (fun b a => a + b.number) x p).map .float
  | _ =>
    match Coef.ints? p with
    | none => .error .runtime
    | some ns => (poly1d x (ns.map fun n => BitVec.ofInt t.bits n)).map .int

end

end TI
