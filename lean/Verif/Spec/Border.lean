import Verif.Spec.EdgeSym

/-!
# Edges at reflected borders

Independent description for C115.
-/

namespace TI.Spec

variable {α : Type} [Field α]

/-- the edge kernel cancels on samples that are extended about a border sample: it changes its sign when it is read backwards and the samples
are reflected, or it reads the same backwards, has sum zero and the samples are reflected through the border sample -/
def CancelsAtBorder (mode : Mode α) (w : List α) : Prop :=
  mode = .reflect ∧ Parity (-1) w ∨ mode = .oddReflect ∧ Parity 1 w ∧ w.sum = 0

/-- the position lies on the first or last sample of axis `a` -/
def AtBorder (shape : List Nat) (a : Nat) (ix : List Nat) : Prop := ix.getD a 0 = 0 ∨ ix.getD a 0 = shape.getD a 0 - 1

end TI.Spec
