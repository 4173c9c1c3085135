import Verif.Spec.PadNd

/-!
# Padding functions supplied by the caller
-/

namespace TI.Spec

variable {α : Type}

/-- a padding function: buffer, region of known samples, axis -/
abbrev PadFn (α : Type) := Tensor α → List PySlice → Nat → Except Err (Tensor α)

/-- `E` looks at nothing but the samples of the signal. -/
def SamplesOnly (E : Ext α) : Prop :=
  ∀ n u u' z, 0 < n → (∀ j, j < n → u j = u' j) → E n u z = E n u' z

/-- `f` computes the rule `E` when `b` free places lie before and `a` after the known region: called on any buffer
with any region `W` of known samples (a pair of bounds per axis) that is not empty along `d`, it keeps the shape and leaves
the extension of the known samples along every line of the region.  It may do anything elsewhere. -/
def Computes [Zero α] (f : PadFn α) (b a : Nat) (E : Ext α) : Prop :=
  ∀ (y : Tensor α) (W : List (Nat × Nat)) (d : Nat), W.length = y.shape.length →
    (∀ k, k < W.length → (W.getD k (0, 0)).1 ≤ (W.getD k (0, 0)).2 ∧ (W.getD k (0, 0)).2 ≤ y.shape.getD k 0) →
    d < W.length → (W.getD d (0, 0)).1 = b → b < (W.getD d (0, 0)).2 → y.shape.getD d 0 = (W.getD d (0, 0)).2 + a →
    ∃ y', f y (W.map fun w => PySlice.between w.1 w.2) d = .ok y' ∧ y'.shape = y.shape ∧
      ∀ ix, InB y.shape ix →
        (∀ k, k < W.length → k ≠ d → (W.getD k (0, 0)).1 ≤ ix.getD k 0 ∧ ix.getD k 0 < (W.getD k (0, 0)).2) →
        y'.get ix = E ((W.getD d (0, 0)).2 - b) (fun j => y.get (ix.set d (b + j))) ((ix.getD d 0 : Int) - b)

/-- the settings of one axis amount to rule `E`: a named mode defines it, or the callable computes it -/
def Amounts [Field α] [LinearOrder α] (s : AxisPad α) (E : Ext α) : Prop :=
  match s.mode with
  | .custom f => Computes f s.before s.after E ∧ SamplesOnly E
  | .zeros => False
  | _ => s.rule? = some E

/-- pad one axis after the other, the rule of each being given by `R` -/
def padBy [Zero α] (R : AxisPad α → Ext α) (x : Tensor α) (ops : List (Nat × AxisPad α)) : Tensor α :=
  ops.foldl (fun x o => if o.2.before = 0 ∧ o.2.after = 0 then x
    else extendAxis (R o.2) o.1 o.2.before (o.2.total (x.shape.getD o.1 0)) x) x

end TI.Spec
