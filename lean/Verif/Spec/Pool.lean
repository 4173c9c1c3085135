import Verif.Spec.Counts
import Verif.Model.Pool

/-!
# Pooling: sliding windows and n-dimensional correlation
-/

namespace TI.Spec

variable {α : Type}

/-- pooling of one axis: weights and distance of the windows -/
structure PoolOp (α : Type) where
  axis : Nat
  kernel : List α
  stride : Nat

section
variable [Field α]

/-- Slide a window along one axis: position `t` becomes the weighted sum of the samples `t * stride + j`.
There is one position for every place where the window fits.  An empty kernel leaves the axis alone. -/
def slide (x : Tensor α) (o : PoolOp α) : Tensor α :=
  if o.kernel = [] then x
  else Tensor.ofFn (x.shape.set o.axis (windowCount (x.shape.getD o.axis 0) o.kernel.length o.stride 1)) fun ix =>
    ((List.range o.kernel.length).map fun j =>
      o.kernel.getD j 0 * x.get (ix.set o.axis (ix.getD o.axis 0 * o.stride + j))).sum

/-- one axis after the other -/
def poolSeq (x : Tensor α) (ops : List (PoolOp α)) : Tensor α := ops.foldl slide x

/-- the window fits on every axis at the time it is pooled (axes may be repeated) -/
def Fitting : Tensor α → List (PoolOp α) → Prop
  | _, [] => True
  | x, o :: ops => (o.kernel ≠ [] → o.axis < x.ndim ∧ 0 < o.stride ∧ o.kernel.length ≤ x.shape.getD o.axis 0) ∧
      Fitting (slide x o) ops

/-- position read by output position `ix` at window offset `j` (one offset per pooled axis) -/
def corrSource (ops : List (PoolOp α)) (ix j : List Nat) : List Nat :=
  (ops.zip j).foldl (fun jx p => jx.set p.1.axis (ix.getD p.1.axis 0 * p.1.stride + p.2)) ix

/-- weight of window offset `j`: the entry at `j` of the outer product of the kernels -/
def corrWeight (ops : List (PoolOp α)) (j : List Nat) : α :=
  (List.zipWith (fun (o : PoolOp α) i => o.kernel.getD i 0) ops j).prod

/-- n-dimensional correlation with the outer product of the kernels: every output entry is the weighted sum over
all window offsets -/
def corrNd (x : Tensor α) (ops : List (PoolOp α)) : Tensor α :=
  Tensor.ofFn (ops.foldl (fun s o => s.set o.axis (windowCount (x.shape.getD o.axis 0) o.kernel.length o.stride 1)) x.shape)
    fun ix => ((indices (ops.map fun o => o.kernel.length)).map fun j =>
      corrWeight ops j * x.get (corrSource ops ix j)).sum

/-- `a * x + b * y`, entry by entry -/
def lincomb (a : α) (x : Tensor α) (b : α) (y : Tensor α) : Tensor α :=
  Tensor.ofFn x.shape fun ix => a * x.get ix + b * y.get ix

variable [LinearOrder α]

/-- all entries lie between `lo` and `hi` -/
def Between (lo hi : α) (x : Tensor α) : Prop := ∀ ix, InB x.shape ix → lo ≤ x.get ix ∧ x.get ix ≤ hi

/-- weights of an average: non-negative, sum one -/
def IsAverage (w : List α) : Prop := (∀ a ∈ w, 0 ≤ a) ∧ w.sum = 1

/-- settings that fill with samples, averages of samples, or constants between `lo` and `hi` -/
def AxisPad.Within (lo hi : α) (s : AxisPad α) : Prop :=
  match s.mode with
  | .replicate | .circular | .periodize | .symmetric | .reflect | .stat _ => True
  | .constant => (lo ≤ s.cv.1 ∧ s.cv.1 ≤ hi) ∧ (lo ≤ s.cv.2 ∧ s.cv.2 ≤ hi)
  | _ => False

end

/-- the arguments of `SeparablePoolNd`: one kernel (stride) for all axes, or one per axis -/
structure PoolArgs (α : Type) where
  kernel : Given (List α)
  stride : Given (Option Nat)

namespace PoolArgs

/-- all lists have length `m` -/
def Fits (g : PoolArgs α) (m : Nat) : Prop := g.kernel.Fits m ∧ g.stride.Fits m

/-- is any argument a list -/
def isMany (g : PoolArgs α) : Bool := g.kernel.isMany || g.stride.isMany

/-- strides are positive -/
def Valid (g : PoolArgs α) : Prop := ∀ s ∈ g.stride.values, s ≠ some 0

/-- what happens on the `i`-th axis; the stride is the kernel size unless given -/
def op (g : PoolArgs α) (axes : List Nat) (i : Nat) : PoolOp α where
  axis := axes.getD i 0
  kernel := g.kernel.entry [] i
  stride := (g.stride.entry none i).getD (g.kernel.entry [] i).length

/-- what happens on all axes -/
def ops (g : PoolArgs α) (axes : List Nat) : List (PoolOp α) := (List.range axes.length).map (g.op axes)

/-- lists match the number of axes -/
def Matches (g : PoolArgs α) (axes : List Nat) : Prop := g.isMany = true → g.Fits axes.length ∧ axes ≠ []

/-- total same padding of an axis of `n` samples: enough for `⌈n/s⌉` windows of size `k` at distance `s` -/
def sameTotal (k s n : Nat) : Nat := ((ceilDiv n s : Int) * s - s + k - n).toNat

/-- same padding of one axis, one more before than after if the total is odd -/
def samePair (k s n : Nat) : Nat × Nat := (sameTotal k s n - sameTotal k s n / 2, sameTotal k s n / 2)

/-- same padding of all pooled axes -/
def widths (g : PoolArgs α) (shape axes : List Nat) : List (Nat × Nat) :=
  (List.range axes.length).map fun i =>
    samePair (g.op axes i).kernel.length (g.op axes i).stride (shape.getD (axes.getD i 0) 0)

/-- the Python value of a kernel -/
def pyKernel (k : List α) : Py α := .seq (k.map .leaf)

/-- the Python value of a stride -/
def pyStride (s : Option Nat) : Py (Option Int) := .leaf (s.map fun n : Nat => (n : Int))

end PoolArgs

/-- the settings of a padder with its widths replaced by `ws` -/
def PadArgs.withWidths (gp : PadArgs α) (ws : List (Nat × Nat)) : PadArgs α := { gp with width := .many ws }

/-- the settings other than the widths fit `m` axes -/
def PadArgs.FitsRest (gp : PadArgs α) (m : Nat) : Prop :=
  gp.mode.Fits m ∧ gp.cv.Fits m ∧ gp.ev.Fits m ∧ gp.sl.Fits m

/-- what is padded before pooling: axis `axes[i]` by its same-padding widths with the `i`-th setting of the padder -/
def sameOps [Zero α] (g : PoolArgs α) (gp : PadArgs α) (shape axes : List Nat) : List (Nat × AxisPad α) :=
  axes.zip ((List.range axes.length).map (gp.withWidths (g.widths shape axes)).entry)

end TI.Spec

namespace TI.Spec

variable {α : Type} [Field α] [LinearOrder α]

/-- things that can happen to a padder shared by several modules: a pooling call of one of them (either counting rule), a direct
call of `to_same`, or a padding call -/
inductive PadderEvent (α : Type) where
  | pool (pool : SepPool α) (junk : List Nat → α) (x : Tensor α) (axes : Axes)
  | average (pool : SepPool α) (junk : List Nat → α) (x : Tensor α) (axes : Axes)
  | toSame (kernel stride inShape : NdSpec (Option Int))
  | pad (junk : List Nat → α) (x : Tensor α) (axes : Axes)

/-- the padder after the event, whether or not the call raised -/
def PadderEvent.run (p : Padder α) : PadderEvent α → Padder α
  | .pool m junk x axes => ((SepPool.forward m (some p) junk x axes).1).getD p
  | .average m junk x axes => ((SepPool.avgForwardExclude m (some p) junk x axes).1).getD p
  | .toSame k s n => (p.toSame k s n).1
  | .pad _ _ _ => p

/-- the arguments that pool the axes of a list of (axis, kernel, stride) -/
def PoolArgs.ofList (l : List (Nat × List α × Option Nat)) : PoolArgs α :=
  ⟨.many (l.map fun e => e.2.1), .many (l.map fun e => e.2.2)⟩

/-- one setting for all axes -/
def PadArgs.Uniform (gp : PadArgs α) : Prop :=
  gp.mode.isMany = false ∧ gp.cv.isMany = false ∧ gp.ev.isMany = false ∧ gp.sl.isMany = false

end TI.Spec

namespace TI.Spec

variable {α : Type} [Field α]

/-- sliding window along axis `d` with dilation: position `t` becomes the weighted sum of the samples `t * stride + j * dil` -/
def slideDilated (x : Tensor α) (d : Nat) (w : List α) (stride dil : Nat) : Tensor α :=
  Tensor.ofFn (x.shape.set d (windowCount (x.shape.getD d 0) w.length stride dil)) fun ix =>
    ((List.range w.length).map fun j => w.getD j 0 * x.get (ix.set d (ix.getD d 0 * stride + j * dil))).sum

end TI.Spec

namespace TI.Spec

variable {α : Type} [Field α]

/-- samples padded before the axis of `o` by same padding -/
def PoolOp.before (shape : List Nat) (o : PoolOp α) : Nat :=
  (PoolArgs.samePair o.kernel.length o.stride (shape.getD o.axis 0)).1

/-- The window at output position `ix` contains the original sample `jx`: on pooled axes the sample lies between the first and the
last position of the window (which may begin before the first sample), on all other axes the positions agree. -/
def Sees (shape : List Nat) (ops : List (PoolOp α)) (ix jx : List Nat) : Prop :=
  (∀ o ∈ ops, ix.getD o.axis 0 * o.stride ≤ jx.getD o.axis 0 + o.before shape ∧
    jx.getD o.axis 0 + o.before shape < ix.getD o.axis 0 * o.stride + o.kernel.length) ∧
  ∀ k < shape.length, k ∉ ops.map (·.axis) → jx.getD k 0 = ix.getD k 0

instance (shape : List Nat) (ops : List (PoolOp α)) (ix jx : List Nat) : Decidable (Sees shape ops ix jx) := by
  unfold Sees
  infer_instance

/-- the positions of all original samples in the window -/
def seen (shape : List Nat) (ops : List (PoolOp α)) (ix : List Nat) : List (List Nat) :=
  (indices shape).filter fun jx => decide (Sees shape ops ix jx)

/-- arithmetic mean -/
def mean (l : List α) : α := l.sum / (l.length : α)

end TI.Spec
