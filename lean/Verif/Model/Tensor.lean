/-!
# Tensors, Python slices and broadcasting

PyTorch is not part of /repo; this file is the reading of the PyTorch / Python primitives that the
code in /repo relies on.  A tensor is a shape and row-major data of the right length.

Not modelled: dtypes, devices, strides / views (every operation returns a fresh tensor; in-place
assignment returns the updated tensor), autograd.
-/

namespace TI

/-- Python exception classes raised by the code (or by the primitives it calls), as values.
`diverge` means a `while` loop ran out of fuel. -/
inductive Err where
  | value | index | type | assertion | zeroDivision | runtime | diverge
  deriving DecidableEq, Repr

/-- Equality of results is decidable (used to evaluate concrete witnesses). -/
instance decEqExcept {ε β : Type} [DecidableEq ε] [DecidableEq β] : DecidableEq (Except ε β)
  | .ok a, .ok b => if h : a = b then isTrue (by rw [h]) else isFalse (by intro e; cases e; exact h rfl)
  | .error a, .error b =>
    if h : a = b then isTrue (by rw [h]) else isFalse (by intro e; cases e; exact h rfl)
  | .ok _, .error _ => isFalse (by intro e; cases e)
  | .error _, .ok _ => isFalse (by intro e; cases e)

/-- number of elements of a shape -/
def numel : List Nat → Nat
  | [] => 1
  | n :: s => n * numel s

/-- `InB s ix`: the multi-index `ix` is valid for shape `s` -/
def InB : List Nat → List Nat → Prop
  | [], [] => True
  | n :: s, i :: ix => i < n ∧ InB s ix
  | _, _ => False

instance decInB : (s ix : List Nat) → Decidable (InB s ix)
  | [], [] => isTrue trivial
  | n :: s, i :: ix =>
    match decInB s ix with
    | isTrue h => if h' : i < n then isTrue ⟨h', h⟩ else isFalse (fun c => h' c.1)
    | isFalse h => isFalse (fun c => h c.2)
  | [], _ :: _ => isFalse (fun c => c)
  | _ :: _, [] => isFalse (fun c => c)

/-- row-major offset -/
def ravel : List Nat → List Nat → Nat
  | _ :: s, i :: ix => i * numel s + ravel s ix
  | _, _ => 0

/-- all multi-indices in row-major order -/
def indices : List Nat → List (List Nat)
  | [] => [[]]
  | n :: s => (List.range n).flatMap fun i => (indices s).map (i :: ·)

theorem indices_length : ∀ s : List Nat, (indices s).length = numel s
  | [] => rfl
  | n :: s => by
    simp [indices, numel, indices_length s, List.length_flatMap, List.map_const', List.sum_replicate_nat]

/-- tensors: a shape and row-major data -/
structure Tensor (α : Type) where
  shape : List Nat
  data : List α
  wf : data.length = numel shape
  deriving DecidableEq

namespace Tensor

variable {α β γ : Type}

/-- build a tensor from its entries -/
def ofFn (s : List Nat) (f : List Nat → α) : Tensor α :=
  ⟨s, (indices s).map f, by simp [indices_length]⟩

/-- entry at a multi-index (only meaningful for `InB x.shape ix`) -/
def get [Zero α] (x : Tensor α) (ix : List Nat) : α := x.data.getD (ravel x.shape ix) 0

/-- `x.ndim` -/
def ndim (x : Tensor α) : Nat := x.shape.length

/-- elementwise unary operation -/
def map (f : α → β) (x : Tensor α) : Tensor β := ⟨x.shape, x.data.map f, by simp [x.wf]⟩

/-- `torch.empty(shape)`: the content is arbitrary -/
def empty (junk : List Nat → α) (s : List Nat) : Tensor α := ofFn s junk

/-- a 0-d tensor (Python scalars in arithmetic and assignment) -/
def scalar (a : α) : Tensor α := ⟨[], [a], rfl⟩

end Tensor

/-- Python `slice(start, stop, step)` with positive step -/
structure PySlice where
  start : Option Int
  stop : Option Int
  step : Nat := 1
  deriving DecidableEq, Repr

/-- `slice(None)` -/
def PySlice.full : PySlice := ⟨none, none, 1⟩

/-- `slice(stop)` -/
def PySlice.upto (b : Int) : PySlice := ⟨none, some b, 1⟩

/-- `slice(start, stop)` -/
def PySlice.between (a b : Int) : PySlice := ⟨some a, some b, 1⟩

/-- `slice(start, None)` -/
def PySlice.from (a : Int) : PySlice := ⟨some a, none, 1⟩

/-- `slice(start, None, step)` -/
def PySlice.strided (a : Int) (st : Nat) : PySlice := ⟨some a, none, st⟩

/-- a resolved slice: first position, number of positions, distance -/
structure Rng where
  lo : Nat
  cnt : Nat
  step : Nat
  deriving DecidableEq, Repr

/-- a slice bound: negative values count from the end; then clamp to `[0, n]` -/
def normBound (n : Nat) (v : Int) : Nat :=
  if v < 0 then (v + n).toNat else min v.toNat n

/-- `slice.indices(n)` for positive step -/
def PySlice.resolve (s : PySlice) (n : Nat) : Rng :=
  let lo := match s.start with | none => 0 | some v => normBound n v
  let hi := match s.stop with | none => n | some v => normBound n v
  ⟨lo, (hi - lo + (s.step - 1)) / s.step, s.step⟩

/-- resolve a tuple of slices against a shape; missing trailing slices are full.
A tuple longer than the shape raises IndexError in Python; all index tuples in the code are built
with the length of the tensor's rank, extra slices are dropped here. -/
def resolveAll : List PySlice → List Nat → List Rng
  | _, [] => []
  | [], n :: s => PySlice.full.resolve n :: resolveAll [] s
  | sl :: sls, n :: s => sl.resolve n :: resolveAll sls s

/-- position in the base tensor of position `ix` of a sliced view -/
def rngMap (rs : List Rng) (ix : List Nat) : List Nat :=
  List.zipWith (fun r i => r.lo + r.step * i) rs ix

/-- is base position `i` selected by the range, and at which view position -/
def Rng.inv (r : Rng) (i : Nat) : Option Nat :=
  if r.lo ≤ i ∧ (i - r.lo) % r.step = 0 ∧ (i - r.lo) / r.step < r.cnt then
    some ((i - r.lo) / r.step) else none

/-- inverse of `rngMap` -/
def rngInv : List Rng → List Nat → Option (List Nat)
  | [], [] => some []
  | r :: rs, i :: ix => match r.inv i, rngInv rs ix with
    | some j, some jx => some (j :: jx)
    | _, _ => none
  | _, _ => none

/-- `bcastable v t`: shape `v` broadcasts to shape `t` (right-aligned, equal or 1) -/
def bcastable (v t : List Nat) : Bool :=
  v.length ≤ t.length &&
    (List.zipWith (fun a b => a == b || a == 1) v (t.drop (t.length - v.length))).all id

/-- index into a broadcast operand of shape `v` for index `jx` of the result -/
def bidx (v : List Nat) (jx : List Nat) : List Nat :=
  List.zipWith (fun n j => if n = 1 then 0 else j) v (jx.drop (jx.length - v.length))

/-- a shape padded with ones on the left to length `n` -/
def padOnes (n : Nat) (s : List Nat) : List Nat := List.replicate (n - s.length) 1 ++ s

/-- `torch.broadcast_shapes` for two shapes -/
def bshape (s t : List Nat) : Option (List Nat) :=
  let n := max s.length t.length
  if (List.zipWith (fun a b => a == b || a == 1 || b == 1) (padOnes n s) (padOnes n t)).all id then
    some (List.zipWith (fun a b => if a = 1 then b else a) (padOnes n s) (padOnes n t))
  else none

namespace Tensor

variable {α β γ : Type}

/-- `x[sl]` for a tuple of slices -/
def getSlice [Zero α] (x : Tensor α) (sl : List PySlice) : Tensor α :=
  let rs := resolveAll sl x.shape
  ofFn (rs.map (·.cnt)) (fun ix => x.get (rngMap rs ix))

/-- `y[sl] = v` (in place; the updated tensor is returned).  Raises RuntimeError if `v` does not
broadcast to the selected region. -/
def setSlice [Zero α] (y : Tensor α) (sl : List PySlice) (v : Tensor α) : Except Err (Tensor α) :=
  let rs := resolveAll sl y.shape
  if bcastable v.shape (rs.map (·.cnt)) then
    .ok (ofFn y.shape fun ix => match rngInv rs ix with
      | some jx => v.get (bidx v.shape jx)
      | none => y.get ix)
  else .error .runtime

/-- broadcasting binary operation -/
def bop [Zero α] [Zero β] (f : α → β → γ) (x : Tensor α) (y : Tensor β) : Except Err (Tensor γ) :=
  match bshape x.shape y.shape with
  | none => .error .runtime
  | some s => .ok (ofFn s fun ix => f (x.get (bidx x.shape ix)) (y.get (bidx y.shape ix)))

/-- `x.flip([dim])` -/
def flip [Zero α] (x : Tensor α) (dim : Nat) : Tensor α :=
  ofFn x.shape fun ix => x.get (ix.set dim (x.shape.getD dim 0 - 1 - ix.getD dim 0))

/-- 1-d tensor from a list -/
def vec (l : List α) : Tensor α := ⟨[l.length], l, by simp [numel]⟩

/-- `v.view([-1] + [1] * k)` of a 1-d tensor given as a list -/
def column (l : List α) (k : Nat) : Tensor α :=
  ⟨l.length :: List.replicate k 1, l, by
    have : ∀ k, numel (List.replicate k 1) = 1 := by
      intro k; induction k with
      | zero => rfl
      | succ k ih => simp [List.replicate_succ, numel, ih]
    simp [numel, this]⟩

end Tensor

end TI
