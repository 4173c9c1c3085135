import Verif.Spec.Flip
import Verif.Spec.Roll
import Verif.Spec.Grey
import Verif.Spec.Edges

/-!
# Symmetries of the edge filters
-/

namespace TI.Spec

variable {α : Type}

/-- the constants, end values and statistic lengths are the same before and after an axis -/
def EvenHanded [Zero α] (gp : PadArgs α) : Prop := (gp.cv.entry (0, 0) 0).swap = gp.cv.entry (0, 0) 0 ∧
  (gp.ev.entry (0, 0) 0).swap = gp.ev.entry (0, 0) 0 ∧ (gp.sl.entry (none, none) 0).swap = gp.sl.entry (none, none) 0

/-- read backwards, the kernel is multiplied by `s`: `s = 1` for second differences, `s = -1` for first differences -/
def Parity [Mul α] (s : α) (w : List α) : Prop := w.length % 2 = 1 ∧ w.reverse = w.map (s * ·)

/-- smoothing kernels that read the same backwards, each with a middle entry or empty -/
def SmoothsEvenly (g : Given (List α)) (n : Nat) : Prop := ∀ i < n, (g.entry [] i).reverse = g.entry [] i ∧
  ((g.entry [] i).length % 2 = 1 ∨ g.entry [] i = [])

end TI.Spec
