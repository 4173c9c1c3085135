import Verif.Model.Flt
import Verif.Spec.IntImage

/-!
# Images with entries that are not finite
-/

namespace TI.Spec

variable {α : Type}

/-- neither infinite nor NaN -/
def IsFinite (b : Flt α) : Prop := ∃ a, b = .num a

/-- an image of numbers with the finite entries of the other one; the rest is filled in arbitrarily -/
def FillsIn [Field α] [LinearOrder α] (x : Tensor α) (X : Tensor (Flt α)) : Prop :=
  x.shape = X.shape ∧ ∀ ix, InB X.shape ix → ∀ a, X.get ix = .num a → x.get ix = a

/-- 1 for entries that are not finite, else 0 -/
def spoiled [Zero α] [One α] : Flt α → α
  | .num _ => 0
  | _ => 1

/-- the same windows with all weights one -/
def counting [One α] (o : PoolOp α) : PoolOp α := { o with kernel := o.kernel.map fun _ => 1 }

/-- the mode writes copies of entries or constants -/
def copies : Mode α → Bool
  | .replicate | .circular | .periodize | .symmetric | .reflect | .constant | .zeros | .empty | .unknown => true
  | _ => false

/-- the mode is a callable -/
def callable : Mode α → Bool
  | .custom _ => true
  | _ => false

/-- neither statistics nor callables -/
def PlainModes (p : Padder α) : Prop := ∀ i m, p.modeAt i = .ok m → callable m = false ∧ isStat m = false

/-- the modes only write copies of entries and zeros -/
def CopyModes [Zero α] (p : Padder α) : Prop :=
  ∀ i m, p.modeAt i = .ok m → copies m = true ∧ (m = .constant → ∀ c, Padder.pairAt p.constantValues i = .ok c → c = (0, 0))

/-- the outcomes of a call on an image of numbers and on an image with entries that are not finite: the same exception, or images of the same shape with the
same finite entries -/
def AlikeOutcome [Field α] [LinearOrder α] (r : Except Err (Tensor α)) (s : Except Err (Tensor (Flt α))) : Prop :=
  (∃ e, r = .error e ∧ s = .error e) ∨ ∃ z Z, r = .ok z ∧ s = .ok Z ∧ FillsIn z Z

/-- the terms of a weighted sum over a window, for window offsets `j` as in `corrNd` -/
def windowTerms [Field α] [LinearOrder α] (X : Tensor (Flt α)) (ops : List (PoolOp α)) (ix : List Nat) : List (Flt α) :=
  (indices (ops.map fun o => o.kernel.length)).map fun j => .num (corrWeight ops j) * X.get (corrSource ops ix j)

/-- an infinite entry with a weight other than zero: the sign of their product -/
def Pulls [Field α] [LinearOrder α] (w : α) (b : Flt α) (neg : Bool) : Prop := (0 < w ∧ b = .inf neg) ∨ (w < 0 ∧ b = .inf (!neg))

/-- the order of numbers and infinities -/
inductive FltLe [Field α] [LinearOrder α] : Flt α → Flt α → Prop
  | low (b : Flt α) : b ≠ .nan → FltLe (.inf true) b
  | high (b : Flt α) : b ≠ .nan → FltLe b (.inf false)
  | num {a b : α} : a ≤ b → FltLe (.num a) (.num b)

end TI.Spec
