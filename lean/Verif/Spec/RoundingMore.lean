import Verif.Spec.Rounding
import Verif.Spec.Edges
import Verif.Spec.Flt

/-!
# Rounding errors of sharpening and of edge filters: the scale on which they are measured
-/

namespace TI.Spec

variable {α : Type} [Field α] [LinearOrder α]

/-- the same setting with the absolute values of the constants -/
def absPad (o : Nat × AxisPad α) : Nat × AxisPad α := (o.1, { o.2 with cv := (|o.2.cv.1|, |o.2.cv.2|) })

/-- same-padded filtering with the absolute weights and the absolute constants: what it makes of the scale `A` of an image -/
def filteredScale (g : Given (List α)) (gp : PadArgs α) (A : Tensor α) (axes : List Nat) : Tensor α :=
  poolSeq (padSeq A ((sameOps (PoolArgs.filter g) gp A.shape axes).map absPad)) (((PoolArgs.filter g).ops axes).map absOp)

open Classical in
/-- number of roundings of the edge step: one for a difference, two for a second difference, else one for every weight and one for the sum of each -/
noncomputable def edgeRoundings (w : List α) : Nat :=
  if TakenForFirst w then 1 else if TakenForSecond w then 2 else if w = [] then 0 else w.length + 1

open Classical in
/-- scale of the edge step: a difference is rounded once, so its absolute value; else the absolute weights applied to the absolute values of the padded image -/
noncomputable def edgeScale (w : List α) (gp : PadArgs α) (x : Tensor α) (a : Nat) : Tensor α :=
  if TakenForFirst w then (filtered (.one [-1, 0, 1]) gp x [a]).map abs
  else magnitudeOf (padSeq x (sameOps (PoolArgs.filter (.one w)) gp x.shape [a])) [⟨a, usedKernel w, 1⟩]

/-- sums and differences with one rounding each, and a product with an amount which is rounded itself -/
structure AccurateSharpen (u amount : α) (add sub : α → α → α) (scale : α → α) : Prop where
  add : ∀ a b, Rounds u (a + b) (add a b)
  sub : ∀ a b, Rounds u (a - b) (sub a b)
  scale : ∀ v, ∃ c, Rounds u amount c ∧ Rounds u (c * v) (scale v)

/-- sums, differences and doubling with one rounding each -/
structure AccurateDiff (u : α) (add sub : α → α → α) (twice : α → α) : Prop where
  add : ∀ a b, Rounds u (a + b) (add a b)
  sub : ∀ a b, Rounds u (a - b) (sub a b)
  twice : ∀ a, Rounds u (2 * a) (twice a)

end TI.Spec
