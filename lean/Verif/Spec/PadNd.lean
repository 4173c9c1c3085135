import Verif.Spec.Extension
import Verif.Model.Padder

/-!
# Sequential n-d padding

Specification of what a padder does to a tensor: one axis at a time, each axis extended by the rule
named by the mode.
-/

namespace TI.Spec

variable {α : Type}

/-- the settings that apply to one padded axis -/
structure AxisPad (α : Type) where
  before : Nat
  after : Nat
  mode : Mode α
  cv : α × α
  ev : α × α
  sl : Option Int × Option Int

/-- statistic of a non-empty list of samples: arithmetic mean, lower median, largest, smallest -/
def statVal [Field α] [LinearOrder α] : Stat → List α → α
  | .mean, l => l.sum / (l.length : α)
  | .median, l => (l.mergeSort (fun a b => decide (a ≤ b))).getD ((l.length - 1) / 2) 0
  | .maximum, l => l.foldl max (l.headD 0)
  | .minimum, l => l.foldl min (l.headD 0)

/-- extension rule named by a mode; `none` for modes that do not define values -/
def AxisPad.rule? [Field α] [LinearOrder α] (s : AxisPad α) : Option (Ext α) :=
  match s.mode with
  | .replicate => some Spec.replicate
  | .smooth => some Spec.smooth
  | .circular => some Spec.circular
  | .periodize => some Spec.periodize
  | .symmetric => some Spec.symmetric
  | .reflect => some Spec.reflect
  | .antisymmetric => some Spec.antisymmetric
  | .oddReflect => some Spec.oddReflect
  | .oddSymmetric => some Spec.oddSymmetric
  | .stat st => some (Spec.border (statVal st) s.sl.1 s.sl.2)
  | .zeros => some (Spec.constant 0 0)
  | .constant => some (Spec.constant s.cv.1 s.cv.2)
  | .linearRamp => some (Spec.linearRamp s.before s.after s.ev.1 s.ev.2)
  | .empty | .unknown | .custom _ => none

/-- number of samples added after: `periodize` adds one more to signals of odd length -/
def AxisPad.total (s : AxisPad α) (n : Nat) : Nat :=
  if s.before = 0 ∧ s.after = 0 then 0
  else s.after + (if s.mode.isPeriodize then n % 2 else 0)

/-- pad one axis -/
def padStep [Field α] [LinearOrder α] (x : Tensor α) (o : Nat × AxisPad α) : Tensor α :=
  if o.2.before = 0 ∧ o.2.after = 0 then x
  else match o.2.rule? with
    | some E => extendAxis E o.1 o.2.before (o.2.total (x.shape.getD o.1 0)) x
    | none => x

/-- pad several axes, one after the other -/
def padSeq [Field α] [LinearOrder α] (x : Tensor α) (ops : List (Nat × AxisPad α)) : Tensor α :=
  ops.foldl padStep x

/-- The padder `p` prescribes the settings `s` at (Python) index `i`. -/
structure Reads (p : Padder α) (i : Int) (s : AxisPad α) : Prop where
  width : Padder.pairAt p.padWidth i = .ok ((s.before : Int), (s.after : Int))
  mode : p.modeAt i = .ok s.mode
  cv : Padder.pairAt p.constantValues i = .ok s.cv
  ev : Padder.pairAt p.endValues i = .ok s.ev
  sl : Padder.pairAt p.statLength i = .ok s.sl

end TI.Spec
