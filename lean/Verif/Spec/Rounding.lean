import Verif.Spec.Pool
import Mathlib.Algebra.Order.Group.Unbundled.Abs

/-!
# Results which are off by rounding

The usual model of floating-point arithmetic without overflow and underflow: every operation gives the exact result up to a relative error of at most
`u`.  The order in which a sum is evaluated is left open.
-/

namespace TI.Spec

variable {α : Type} [Field α] [LinearOrder α]

/-- `v` is `a` up to a relative error of `u` -/
def Rounds (u a v : α) : Prop := |v - a| ≤ u * |a|

/-- `v` is a computed value of the sum of the terms `l`: every term is computed with one rounding, partial sums are added in any grouping and any order with
one rounding each, and a term may be multiplied and added to a partial sum with a single rounding. -/
inductive Evaluates (u : α) : List α → α → Prop
  | term {t v : α} : Rounds u t v → Evaluates u [t] v
  | add {l l' : List α} {a b v : α} : Evaluates u l a → Evaluates u l' b → Rounds u (a + b) v → Evaluates u (l ++ l') v
  | fused {l : List α} {t a v : α} : Evaluates u l a → Rounds u (t + a) v → Evaluates u (t :: l) v
  | perm {l l' : List α} {v : α} : l.Perm l' → Evaluates u l v → Evaluates u l' v

/-- The computed scalar products of a separable filter: the weights are rounded when they are converted to the type of the image, then the sum of the
products is evaluated.  (Arguments: number of the pass, output position, window, weights.) -/
def AccurateDot (u : α) (dot : Nat → List Nat → List α → List α → α) : Prop :=
  ∀ i ix xs w, w ≠ [] → xs.length = w.length → ∃ w' : List α, w'.length = w.length ∧ (∀ j < w.length, Rounds u (w.getD j 0) (w'.getD j 0)) ∧
    Evaluates u ((List.range w.length).map fun j => w'.getD j 0 * xs.getD j 0) (dot i ix xs w)

/-- the same filter with the absolute values of its weights -/
def absOp (o : PoolOp α) : PoolOp α := ⟨o.axis, o.kernel.map abs, o.stride⟩

/-- what the filters would make of the absolute values with the absolute weights: the scale on which rounding errors are measured -/
def magnitudeOf (x : Tensor α) (ops : List (PoolOp α)) : Tensor α := poolSeq (x.map abs) (ops.map absOp)

/-- number of roundings one sample goes through: one for the weight and one for every sample of the window, along every axis -/
def roundings (ops : List (PoolOp α)) : Nat := (ops.map fun o => if o.kernel = [] then 0 else o.kernel.length + 1).sum

/-- the bound of the relative error after `n` roundings -/
def roundingBound (u : α) (n : Nat) : α := (1 + u) ^ n - 1

/-- The computed operations of a squared error: subtraction, square, sum, mean. -/
structure AccurateOps (u : α) (sub : α → α → α) (square : α → α) (total average : List α → α) : Prop where
  sub : ∀ a b, Rounds u (a - b) (sub a b)
  square : ∀ a, Rounds u (a ^ 2) (square a)
  total : ∀ l, l ≠ [] → Evaluates u l (total l)
  average : ∀ l, l ≠ [] → ∃ s, Evaluates u l s ∧ Rounds u (s / (l.length : α)) (average l)

end TI.Spec
