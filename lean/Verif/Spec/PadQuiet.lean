import Verif.Spec.Axes
import Verif.Spec.PadCoord

/-!
# Modes that write nothing
-/

namespace TI.Spec

variable {α : Type}

/-- modes for which a padder writes nothing: `"empty"`, and (contrary to its name) `"zeros"` -/
def AxisPad.quiet (s : AxisPad α) : Bool :=
  match s.mode with
  | .empty | .zeros => true
  | _ => false

/-- the axis gets longer -/
def AxisPad.widened (s : AxisPad α) : Prop := ¬ (s.before = 0 ∧ s.after = 0)

/-- the axes on which nothing is written -/
def quietOps (ops : List (Nat × AxisPad α)) : List (Nat × AxisPad α) := ops.filter fun o => o.2.quiet

/-- the other axes -/
def writingOps (ops : List (Nat × AxisPad α)) : List (Nat × AxisPad α) := ops.filter fun o => !o.2.quiet

/-- the position before the axes `ops` were padded -/
def back (ops : List (Nat × AxisPad α)) (ix : List Nat) : List Nat :=
  (List.range ix.length).map fun k => ix.getD k 0 - beforeAt ops k

/-- no `"zeros"` axis is handled before an axis on which something is to be written -/
def ZerosLast (ops : List (Nat × AxisPad α)) : Prop :=
  ops.Pairwise fun o o' => o.2.mode = .zeros → o.2.widened → o'.2.widened → o'.2.quiet = true

/-- A padding request all of whose modes are known: on every widened axis either nothing is written, or the mode defines values and the
axis is not empty. -/
structure KnownReq [Field α] [LinearOrder α] (p : Padder α) (x : Tensor α) (ax : Axes) (axes : List Nat) (ss : List (AxisPad α)) : Prop
    extends PadReq p x ax axes ss where
  known : ∀ o ∈ zipRight axes ss, o.2.widened → o.2.quiet = true ∨ o.2.rule? ≠ none ∧ 0 < x.shape.getD o.1 0

/-- shape of the padded tensor -/
def paddedSizes (shape : List Nat) (ops : List (Nat × AxisPad α)) : List Nat :=
  (List.range shape.length).map fun k => match settingAt ops k with
    | some s => s.before + shape.getD k 0 + s.total (shape.getD k 0)
    | none => shape.getD k 0

instance [Field α] (shape : List Nat) (ops : List (Nat × AxisPad α)) (ix : List Nat) : Decidable (Inside shape ops ix) :=
  inferInstanceAs (Decidable (∀ q ∈ ops, q.2.before ≤ ix.getD q.1 0 ∧ ix.getD q.1 0 < q.2.before + shape.getD q.1 0))

/-- Padding in which some axes are not written: between the original samples of those axes the other axes are padded one after the other,
elsewhere there is the content `junk` of the fresh buffer. -/
def quietPad [Field α] [LinearOrder α] (junk : List Nat → α) (x : Tensor α) (ops : List (Nat × AxisPad α)) : Tensor α :=
  Tensor.ofFn (paddedSizes x.shape ops) fun ix =>
    if Inside x.shape (quietOps ops) ix then (padSeq x (writingOps ops)).get (back (quietOps ops) ix) else junk ix

end TI.Spec
