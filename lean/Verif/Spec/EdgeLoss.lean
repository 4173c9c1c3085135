import Verif.Spec.Edges
import Verif.Spec.Metrics

/-!
# Losses on edges
-/

namespace TI.Spec

variable {α : Type} [Field α]

/-- mean over the two directions of the means over all positions -/
def overBoth (shape : List Nat) (h : Nat → List Nat → α) : α :=
  (mean ((indices shape).map (h 2)) + mean ((indices shape).map (h 3))) / 2

/-- mean over the last two of four axes -/
def planeMean (shape : List Nat) (u : List Nat → α) (jx : List Nat) : α := mean ((collected shape [2, 3] jx).map u)

variable [LinearOrder α]

/-- settings of `Padder(mode="reflect")` -/
def reflectArgs : PadArgs α := ⟨.one (0, 0), .one .reflect, .one (0, 0), .one (0, 0), .one (none, none)⟩

/-- the edges of an image of shape (n, c, h, w) in direction `a` (2 or 3), reflected at the borders -/
def edges (w : List α) (g : Given (List α)) (x : Tensor α) (a : Nat) : Tensor α := edgeResponse w g reflectArgs x [2, 3] a

end TI.Spec
