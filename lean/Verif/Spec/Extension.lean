import Verif.Model.Tensor
import Mathlib.Algebra.Field.Defs

/-!
# One-dimensional signal extensions and their application along one axis

Specification used for the padding properties.  A rule `E : Ext α` receives the length `n` of the
signal, its samples `u 0 … u (n-1)` and an integer position `z` relative to the first sample, and
returns the value of the extended signal at `z`.
-/

namespace TI.Spec

variable {α : Type}

/-- extension rule: length, samples, position -/
abbrev Ext (α : Type) := Nat → (Nat → α) → Int → α

/-- Extend axis `d` of `x` by `before`/`after` positions using rule `E` on every fibre. -/
def extendAxis [Zero α] (E : Ext α) (d before after : Nat) (x : Tensor α) : Tensor α :=
  Tensor.ofFn (x.shape.set d (before + x.shape.getD d 0 + after)) fun ix =>
    E (x.shape.getD d 0) (fun j => x.get (ix.set d j)) ((ix.getD d 0 : Int) - before)

/-- `a a | a b c | c c` -/
def replicate : Ext α := fun n u z => if z < 0 then u 0 else if z < n then u z.toNat else u (n - 1)

/-- `b c | a b c | a b` -/
def circular : Ext α := fun n u z => u (z % n).toNat

/-- odd lengths are first extended by repeating the last sample -/
def periodize : Ext α := fun n u z =>
  if n % 2 = 0 then circular n u z else circular (n + 1) (fun j => if j < n then u j else u (n - 1)) z

/-- `b a | a b c | c b` -/
def symmetric : Ext α := fun n u z =>
  let j := (z % (2 * n)).toNat
  if j < n then u j else u (2 * n - 1 - j)

/-- `-b -a | a b c | -c -b` -/
def antisymmetric [Neg α] : Ext α := fun n u z =>
  let j := (z % (2 * n)).toNat
  if j < n then u j else - u (2 * n - 1 - j)

/-- `c b | a b c | b a`; one sample is repeated -/
def reflect : Ext α := fun n u z =>
  if n = 1 then u 0 else
  let j := (z % (2 * (n - 1) : Nat)).toNat
  if j < n then u j else u (2 * (n - 1) - j)

/-- Point reflection about the half-sample edges: quasi-periodic with period `2n` and drift
`2 (u_{n-1} - u_0)`. -/
def oddSymmetric [Ring α] : Ext α := fun n u z =>
  let j := (z % (2 * n)).toNat
  (if j < n then u j else 2 * u (n - 1) - u (2 * n - 1 - j))
    + ((z / (2 * n) : Int) : α) * (2 * (u (n - 1) - u 0))

/-- Point reflection about the edge samples: quasi-periodic with period `2(n-1)` and drift
`2 (u_{n-1} - u_0)`. -/
def oddReflect [Ring α] : Ext α := fun n u z =>
  if n = 1 then u 0 else
  let j := (z % (2 * (n - 1) : Nat)).toNat
  (if j < n then u j else 2 * u (n - 1) - u (2 * (n - 1) - j))
    + ((z / (2 * (n - 1) : Nat) : Int) : α) * (2 * (u (n - 1) - u 0))

/-- straight-line extrapolation from the two outermost samples -/
def smooth [Ring α] : Ext α := fun n u z =>
  if n = 1 then u 0 else
  if z < 0 then u 0 + (z : α) * (u 1 - u 0)
  else if z < n then u z.toNat
  else u (n - 1) + ((z - (n - 1 : Nat) : Int) : α) * (u (n - 1) - u (n - 2))

/-- constants before and after -/
def constant (vb va : α) : Ext α := fun n u z =>
  if z < 0 then vb else if z < n then u z.toNat else va

/-- Linear interpolation between the border sample and the end value, which is reached at distance
`before` / `after` from the border. -/
def linearRamp [Field α] (before after : Nat) (vb va : α) : Ext α := fun n u z =>
  if z < 0 then u 0 + ((-z : Int) : α) / (before : α) * (vb - u 0)
  else if z < n then u z.toNat
  else u (n - 1) + ((z - (n - 1 : Nat) : Int) : α) / (after : α) * (va - u (n - 1))

/-- number of samples used by a statistic: `none` means the whole signal, other values are clipped to
`[1, n]` -/
def window (n : Nat) : Option Int → Nat
  | none => n
  | some w => (min (n : Int) (max 1 w)).toNat

/-- a statistic of the first / last samples of the signal; `wb`, `wa` are the window lengths,
`stat` maps the samples of the window to a value -/
def border (stat : List α → α) (wb wa : Option Int) : Ext α := fun n u z =>
  if z < 0 then stat ((List.range (window n wb)).map u)
  else if z < n then u z.toNat
  else stat ((List.range (window n wa)).map fun j => u (n - window n wa + j))

end TI.Spec
