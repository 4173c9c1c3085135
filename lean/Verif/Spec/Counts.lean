import Verif.Spec.Given

/-!
# Counting windows and original samples
-/

namespace TI.Spec

/-- number of positions `t` such that a kernel of size `k` with dilation `d`, placed at `t * s`, ends inside `n`
samples: `t * s + d * (k - 1) < n` -/
def windowCount (n k s d : Nat) : Nat := (List.range n).countP fun t => decide (t * s + d * (k - 1) < n)

/-- `⌈n / s⌉`: the number of multiples of `s` below `n` -/
def ceilDiv (n s : Nat) : Nat := (List.range n).countP fun t => decide (t * s < n)

/-- number of original samples seen by window `t` (size `k`, stride `s`) when `before` samples are padded before
`n` original ones -/
def originals (n before k s t : Nat) : Nat :=
  (List.range k).countP fun j => decide (before ≤ t * s + j ∧ t * s + j < before + n)

/-- the same in several dimensions: number of offsets `j` inside the window whose position is original in every
axis.  Each axis is given as `(n, before, k, s)`. -/
def originalsNd (axes : List (Nat × Nat × Nat × Nat)) (t : List Nat) : Nat :=
  (indices (axes.map fun a => a.2.2.1)).countP fun j =>
    ((axes.zip (t.zip j)).all fun p =>
      decide (p.1.2.1 ≤ p.2.1 * p.1.2.2.2 + p.2.2 ∧ p.2.1 * p.1.2.2.2 + p.2.2 < p.1.2.1 + p.1.1))

/-- the arguments of `n_original_elements_nd`: one value for all axes or one per axis -/
structure CountArgs where
  n : Given Nat
  w : Given (Nat × Nat)
  k : Given Nat
  s : Given Nat

namespace CountArgs

/-- all lists have length `m` -/
def Fits (c : CountArgs) (m : Nat) : Prop := c.n.Fits m ∧ c.w.Fits m ∧ c.k.Fits m ∧ c.s.Fits m

/-- is any argument a list -/
def isMany (c : CountArgs) : Bool := c.n.isMany || c.w.isMany || c.k.isMany || c.s.isMany

/-- number of axes described: `m` if there is a list, else one -/
def count (c : CountArgs) (m : Nat) : Nat := if c.isMany then m else 1

/-- `(n, before, k, s)` of axis `i` -/
def axis (c : CountArgs) (i : Nat) : Nat × Nat × Nat × Nat :=
  (c.n.entry 0 i, (c.w.entry (0, 0) i).1, c.k.entry 1 i, c.s.entry 1 i)

/-- number of windows on axis `i` -/
def windows (c : CountArgs) (i : Nat) : Nat :=
  windowCount (c.n.entry 0 i + (c.w.entry (0, 0) i).1 + (c.w.entry (0, 0) i).2) (c.k.entry 1 i) (c.s.entry 1 i) 1

end CountArgs

/-- the Python integer -/
def pyNat (n : Nat) : Py Int := .leaf (n : Int)

end TI.Spec
