import Verif.Spec.Axes

/-!
# Ways to write a padder setting

A setting is one value for all axes or a list with one value per axis.
-/

namespace TI.Spec

variable {α β : Type}

/-- one value for every axis, or a list of values -/
inductive Given (β : Type) where
  | one (b : β)
  | many (l : List β)

namespace Given

/-- a list has length `m` -/
def Fits (m : Nat) : Given β → Prop
  | one _ => True
  | many l => l.length = m

/-- is it a list -/
def isMany : Given β → Bool
  | one _ => false
  | many _ => true

/-- the value for entry `j` of `m` -/
def entry (dflt : β) : Given β → Nat → β
  | one b, _ => b
  | many l, j => l.getD j dflt

/-- all values mentioned -/
def values : Given β → List β
  | one b => [b]
  | many l => l

/-- the Python value -/
def toPy (f : β → Py α) : Given β → Py α
  | one b => f b
  | many l => .seq (l.map f)

end Given

/-- the Python pair `(a, b)` -/
def pyPair (p : α × α) : Py α := .seq [.leaf p.1, .leaf p.2]

/-- the arguments of `Padder(...)` -/
structure PadArgs (α : Type) where
  width : Given (Nat × Nat)
  mode : Given (Mode α)
  cv : Given (α × α)
  ev : Given (α × α)
  sl : Given (Option Int × Option Int)

namespace PadArgs

/-- every list has length `m` -/
def Fits (g : PadArgs α) (m : Nat) : Prop :=
  g.width.Fits m ∧ g.mode.Fits m ∧ g.cv.Fits m ∧ g.ev.Fits m ∧ g.sl.Fits m

/-- some setting is a list -/
def isMany (g : PadArgs α) : Bool :=
  g.width.isMany || g.mode.isMany || g.cv.isMany || g.ev.isMany || g.sl.isMany

/-- the settings of entry `j` -/
def entry [Zero α] (g : PadArgs α) (j : Nat) : AxisPad α where
  before := (g.width.entry (0, 0) j).1
  after := (g.width.entry (0, 0) j).2
  mode := g.mode.entry .unknown j
  cv := g.cv.entry (0, 0) j
  ev := g.ev.entry (0, 0) j
  sl := g.sl.entry (none, none) j

/-- the settings for `k` axes: if lists of length `m` were given, the last `min m k` entries;
otherwise the single entry `k` times -/
def settings [Zero α] (g : PadArgs α) (m k : Nat) : List (AxisPad α) :=
  if g.isMany then ((List.range m).map g.entry).drop (m - k) else List.replicate k (g.entry 0)

/-- the widths as a pair of Python integers -/
def pyWidth (p : Nat × Nat) : Py Int := .seq [.leaf p.1, .leaf p.2]

end PadArgs

end TI.Spec
