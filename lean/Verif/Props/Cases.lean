import Verif.Props.Transpose
import Verif.Props.InteriorEdges
import Verif.Props.Order
import Verif.Props.Axiswise
import Verif.Props.Roll
import Verif.Props.Compose
import Verif.Props.Callable

/-!
# Concrete calls of paddings and poolings

Theorems whose hypotheses describe a call are applied here to concrete ones: images of shape `[2, 6, 9]`, the last two axes, two different
kernels, strides, padding modes and widths.
-/

set_option linter.unusedSectionVars false

set_option linter.unnecessarySeqFocus false

namespace TI.Case
open Tensor Spec

/-- `Padder(pad_width=[(2, 7), (1, 0)], mode=["symmetric", "constant"], constant_values=3)` -/
def padArgs : PadArgs ℚ := ⟨.many [(2, 7), (1, 0)], .many [.symmetric, .constant], .one (3, 3), .one (0, 0), .one (none, none)⟩

/-- `Padder(mode=["reflect", "smooth"])`, linear in the samples -/
def linearArgs : PadArgs ℚ := ⟨.one (0, 0), .many [.reflect, .smooth], .one (0, 0), .one (0, 0), .one (none, none)⟩

/-- `SeparablePoolNd(kernel=[[1/4, 1/2, 1/4], [1/3, 2/3]], stride=[1, None])` -/
def poolArgs : PoolArgs ℚ := ⟨.many [[1 / 4, 1 / 2, 1 / 4], [1 / 3, 2 / 3]], .many [some 1, none]⟩

/-- the same with the axes in the other order -/
def swappedArgs : PoolArgs ℚ := ⟨.many [[1 / 3, 2 / 3], [1 / 4, 1 / 2, 1 / 4]], .many [none, some 1]⟩

/-- the second kernel reversed -/
def reversedArgs : PoolArgs ℚ := ⟨.many [[1 / 4, 1 / 2, 1 / 4], [2 / 3, 1 / 3]], .many [some 1, none]⟩

theorem built : ∃ pool, SepPool.init (poolArgs.kernel.toPy PoolArgs.pyKernel) (poolArgs.stride.toPy PoolArgs.pyStride) = .ok pool ∧
    Built pool poolArgs 2 :=
  C30_constructor (by decide) ⟨rfl, rfl⟩ (by intro s hs; simp [poolArgs, Given.values] at hs; rcases hs with rfl | rfl <;> simp)

variable {x y : Tensor ℚ} (hx : x.shape = [2, 6, 9]) (hy : y.shape = x.shape)

section
include hx

theorem axes : axesOf x.ndim (.seq [1, -1]) = some [1, 2] := by rw [ndim, hx]; rfl

theorem size {a : Nat} (ha : a ∈ [1, 2]) : 6 ≤ x.shape.getD a 0 := by
  rw [hx]
  revert a
  decide

theorem padCall : PadCall (padArgs.padder 2) x (.seq [1, -1]) [1, 2] (padArgs.settings 2 2) := by
  apply call_args (g := padArgs) (m := 2) (by decide) ⟨rfl, rfl, trivial, trivial, trivial⟩ (by rw [ndim, hx]; decide) (axes hx) (by decide)
  intro o ho _
  have ho' : o ∈ [(1, (⟨2, 7, .symmetric, (3, 3), (0, 0), (none, none)⟩ : AxisPad ℚ)), (2, ⟨1, 0, .constant, (3, 3), (0, 0), (none, none)⟩)] := ho
  refine ⟨?_, ?_, ?_⟩
  · fin_cases ho' <;> simp [AxisPad.rule?]
  · fin_cases ho' <;> simp
  · have := size hx (a := o.1) (by fin_cases ho' <;> decide)
    omega

theorem sameCall {g : PoolArgs ℚ} {gp : PadArgs ℚ} (hf : g.isMany = true → g.Fits 2) (hs : ∀ i < 2, 0 < (g.op [1, 2] i).stride) (hr : gp.FitsRest 2)
    (hv : ∀ i < 2, ∀ s : AxisPad ℚ, s.mode = gp.mode.entry .unknown i → s.rule? ≠ none ∧ s.mode ≠ .zeros) :
    SameCall g gp x (.seq [1, -1]) [1, 2] where
  axes_eq := axes hx
  ne := by decide
  nodup := by decide
  fits := hf
  rest := hr
  stride := hs
  pos := by intro a ha; have := size hx ha; omega
  valued := by
    intro o ho _
    obtain ⟨i, hi, rfl⟩ := sameOps_mem ho
    exact hv i hi _ rfl

omit hx in
theorem valued {m m' : Mode ℚ} (h : ∀ s : AxisPad ℚ, s.mode = m → s.rule? ≠ none ∧ s.mode ≠ .zeros)
    (h' : ∀ s : AxisPad ℚ, s.mode = m' → s.rule? ≠ none ∧ s.mode ≠ .zeros) :
    ∀ i < 2, ∀ s : AxisPad ℚ, s.mode = (Given.many [m, m']).entry .unknown i → s.rule? ≠ none ∧ s.mode ≠ .zeros := by
  intro i hi
  have hi' : i = 0 ∨ i = 1 := by omega
  rcases hi' with rfl | rfl
  · exact h
  · exact h'

theorem poolSame : SameCall poolArgs padArgs x (.seq [1, -1]) [1, 2] :=
  sameCall hx (fun _ => ⟨rfl, rfl⟩) (by decide) ⟨rfl, trivial, trivial, trivial⟩
    (valued (by intro s e; simp [e, AxisPad.rule?]) (by intro s e; simp [e, AxisPad.rule?]))

theorem filterSame : SameCall (PoolArgs.filter poolArgs.kernel) padArgs x (.seq [1, -1]) [1, 2] :=
  sameCall hx (fun _ => ⟨rfl, trivial⟩) (by decide) ⟨rfl, trivial, trivial, trivial⟩
    (valued (by intro s e; simp [e, AxisPad.rule?]) (by intro s e; simp [e, AxisPad.rule?]))

theorem linearSame : SameCall poolArgs linearArgs x (.seq [1, -1]) [1, 2] :=
  sameCall hx (fun _ => ⟨rfl, rfl⟩) (by decide) ⟨rfl, trivial, trivial, trivial⟩
    (valued (by intro s e; simp [e, AxisPad.rule?]) (by intro s e; simp [e, AxisPad.rule?]))

omit hx in
theorem linear {g : PoolArgs ℚ} {shape : List Nat} : ∀ o ∈ sameOps g linearArgs shape [1, 2], o.2.Linear := by
  intro o ho
  obtain ⟨i, hi, rfl⟩ := sameOps_mem ho
  have hi' : i = 0 ∨ i = 1 := by have : i < 2 := hi; omega
  rcases hi' with rfl | rfl <;> simp [AxisPad.Linear, sameSetting, linearArgs, Given.entry]

theorem pairFits : ∀ o ∈ poolArgs.ops [1, 2], o.kernel.length ≤ x.shape.getD o.axis 0 := by
  rw [hx]
  decide

omit hx in
theorem averages : ∀ o ∈ poolArgs.ops [1, 2], o.kernel ≠ [] → IsAverage o.kernel := by
  intro o ho _
  have ho' : o = ⟨1, [1 / 4, 1 / 2, 1 / 4], 1⟩ ∨ o = ⟨2, [1 / 3, 2 / 3], 2⟩ := by simpa [PoolArgs.ops, PoolArgs.op, poolArgs, List.range_succ, Given.entry] using ho
  rcases ho' with rfl | rfl <;> constructor <;> simp <;> norm_num

theorem fits : ∀ i < ([1, 2] : List Nat).length, (poolArgs.op [1, 2] i).kernel.length ≤ x.shape.getD (([1, 2] : List Nat).getD i 0) 0 := by
  rw [hx]
  decide

theorem picks : Selects 0 [1, 1, 0] x.shape := by rw [hx]; exact ⟨by decide, by decide⟩

end

section
variable {pool : SepPool ℚ} (hb : Built pool poolArgs 2) (j j' j'' : List Nat → ℚ)

/-! C01, C31-C34 -/
example := C01_shape (padCall hx) j
example := C31_valid_shape hb (axes hx) (fun _ => rfl) (by decide) (pairFits hx) j
example := C31_wrong_number_of_axes hb (x := x) (ax := .none) (axes := [0, 1, 2]) (by rw [ndim, hx]; rfl) rfl (by decide) (some (padArgs.padder 2)) j
example {pool' : SepPool ℚ} (hf : pool.toFilter = .ok pool') := C31_filter_shape_partial hb hf (filterSame hx) (fun _ => rfl) (holds_padder padArgs 2)
  (by intro i hi; have : i = 0 ∨ i = 1 := by (have : i < 2 := hi); omega
      rcases this with rfl | rfl <;> exact Or.inl rfl) j

/-- a narrow image -/
example {z : Tensor ℚ} (hz : z.shape = [2, 6, 1]) := C31_kernel_too_long hb (x := z) (ax := .seq [1, -1]) (axes := [1, 2]) (by rw [ndim, hz]; rfl)
  (fun _ => rfl) (by decide) (by rw [hz]; decide) j

/-- the axes in the other order -/
example {pool' : SepPool ℚ} (hb' : Built pool' swappedArgs 2) := C32_axis_order hb hb' (axes hx) (ax' := .seq [2, -2]) (axes' := [2, 1]) (by rw [ndim, hx]; rfl)
  (fun _ => rfl) (fun _ => rfl) (by decide) (List.Perm.swap _ _ _) j j'

/-- a call whose result exists, with a padder used before for something else -/
example (z : Tensor ℚ) (hz : (SepPool.forward pool (some (padArgs.padder 2)) j x (.seq [1, -1])).2 = .ok z)
    (history : List (PadderEvent ℚ)) := C35_state_after_call pool (padArgs.padder 2) history j x (.seq [1, -1]) hz
example := C33_linear hb (axes hx) (fun _ => rfl) (by decide) hy.symm 2 (-3) j
example := C33_linear_same hb (linearSame hx) (fun _ => rfl) (holds_padder linearArgs 2) linear hy.symm 2 (-3) j

/-- grey values between 0 and 5, the border constant 3 -/
example (h : Between 0 5 x) := C34_range_same hb (poolSame hx) (fun _ => rfl) (holds_padder padArgs 2) (lo := 0) (hi := 5)
  (by
    intro o ho
    obtain ⟨i, hi, rfl⟩ := sameOps_mem ho
    have hi' : i = 0 ∨ i = 1 := by have : i < 2 := hi; omega
    rcases hi' with rfl | rfl <;> simp [AxisPad.Within, sameSetting, padArgs, Given.entry] <;> norm_num) averages h j

/-- the grey value 3 everywhere -/
example (h : ∀ ix, InB x.shape ix → x.get ix = 3) := C34_constant_same hb (poolSame hx) (fun _ => rfl) (holds_padder padArgs 2) (c := 3)
  (by
    intro o ho
    obtain ⟨i, hi, rfl⟩ := sameOps_mem ho
    have hi' : i = 0 ∨ i = 1 := by have : i < 2 := hi; omega
    rcases hi' with rfl | rfl <;> simp [AxisPad.Within, sameSetting, padArgs, Given.entry]) averages h j

/-! C90: a third pooling does the work of two -/
section
/-- `SeparablePoolNd([1, 2], stride=2)` -/
def next : PoolArgs ℚ := ⟨.one [1, 2], .one (some 2)⟩

theorem fitTwice {x : Tensor ℚ} (hx : x.shape = [2, 6, 9]) : FitTwice poolArgs next [1, 2] x.shape := by
  rw [hx]
  intro i hi
  have : i = 0 ∨ i = 1 := by (have : i < 2 := hi); omega
  rcases this with rfl | rfl <;> simp [poolArgs, next, PoolArgs.op, Given.entry]

example {pool₂ : SepPool ℚ} (h₂ : Built pool₂ next 1) := C90_constructor hb h₂ (axes hx) (by decide) (by decide) (fun _ => rfl) (by intro h; cases h) (fitTwice hx) j j' j''

example {pool₂ pool₃ : SepPool ℚ} (h₂ : Built pool₂ next 1)
    (h₃ : Built pool₃ ⟨.many [composed [1 / 4, 1 / 2, 1 / 4] 1 [1, 2], composed [1 / 3, 2 / 3] 2 [1, 2]], .many [some 2, some 4]⟩ 2) :=
  C90_twice hb h₂ h₃ (axes hx) (by decide) (fun _ => rfl) (by intro h; cases h) (fun _ => rfl) (fitTwice hx)
    (by
      intro i hi
      have : i = 0 ∨ i = 1 := by (have : i < 2 := hi); omega
      rcases this with rfl | rfl <;> exact ⟨rfl, rfl⟩) j j' j''
end

/-! C91, C92 -/

/-- axis 0 is not padded -/
example := C91_symmetric_partial (d := 0) (padCall hx)
  (by
    intro o ho h0
    have ho' : o ∈ [(1, (⟨2, 7, .symmetric, (3, 3), (0, 0), (none, none)⟩ : AxisPad ℚ)), (2, ⟨1, 0, .constant, (3, 3), (0, 0), (none, none)⟩)] := ho
    fin_cases ho' <;> cases h0)
  (by
    intro o ho h0
    have ho' : o ∈ [(1, (⟨2, 7, .symmetric, (3, 3), (0, 0), (none, none)⟩ : AxisPad ℚ)), (2, ⟨1, 0, .constant, (3, 3), (0, 0), (none, none)⟩)] := ho
    fin_cases ho' <;> cases h0) j j'

/-- on an axis of eight samples the windows of two samples reach the end -/
example {z : Tensor ℚ} (hz : z.shape = [2, 6, 8]) {pool' : SepPool ℚ} (hb' : Built pool' reversedArgs 2) :=
  C92_reversed (d := 2) hb hb' (x := z) (ax := .seq [1, -1]) (axes := [1, 2]) (by rw [ndim, hz]; rfl) (by decide) (fun _ => rfl) (fun _ => rfl) (by rfl)
    (by rw [hz]; decide)
    (by
      rw [hz]
      decide) j j'

/-! C93 -/
example := C93_mse hy.symm (axes hx) (by decide) (d := 2) (by rw [ndim, hx]; decide)

/-! C94 -/
example := C94_pad (padCall hx) (picks hx) (by decide) j j'
example := C94_pool hb (axes hx) (by decide) (fun _ => rfl) (fits hx) (picks hx) (by decide) j j'
example := C94_pool_same hb (poolSame hx) (fun _ => rfl) (holds_padder padArgs 2) (picks hx) (by decide) j j'
example := C94_mse hy.symm (axes hx) (by decide) (picks hx) (by rw [ndim, hx]; decide)

/-! C95: axes 0 and 2 are exchanged -/
example := C95_pad (padCall hx) (a := 0) (b := 2) (ax' := .seq [1, 0]) (by rw [ndim, hx]; decide) (by rw [ndim, hx]; decide) (by rw [ndim, hx]; rfl) j j'
example := C95_pool hb (axes hx) (by decide) (fun _ => rfl) (fits hx) (a := 0) (b := 2) (ax' := .seq [1, 0]) (by rw [ndim, hx]; decide)
  (by rw [ndim, hx]; decide) (by rw [ndim, hx]; rfl) j j'
example := C95_pool_same hb (poolSame hx) (fun _ => rfl) (holds_padder padArgs 2) (a := 0) (b := 2) (ax' := .seq [1, 0]) (by rw [ndim, hx]; decide)
  (by rw [ndim, hx]; decide) (by rw [ndim, hx]; rfl) j j'
example := C95_mse hy.symm (axes hx) (by decide) (a := 1) (b := 2) (ax' := .seq [2, 1]) (by rw [ndim, hx]; rfl) (by rw [ndim, hx]; decide)
  (by rw [ndim, hx]; decide) (by rw [ndim, hx]; decide) (by rw [ndim, hx]; decide)

/-! C96 -/
example := C96_pool hb (axes hx) (by decide) (fun _ => rfl) (fits hx) (-2) 5 j j'
example := C96_mse hy.symm (axes hx) (by decide) (r := .sum) (by decide) (-2) 5

/-- the constants follow -/
example := C96_pool_same hb (poolSame hx) (fun _ => rfl) (holds_padder padArgs 2) (holds_padder { padArgs with cv := .one (-1, -1) } 2) (c := -2) (d := 5)
  (gp' := { padArgs with cv := .one (-1, -1) })
  (sameCall (show (x.map _).shape = _ from hx) (fun _ => ⟨rfl, rfl⟩) (by decide) ⟨rfl, trivial, trivial, trivial⟩
    (valued (by intro s e; simp [e, AxisPad.rule?]) (by intro s e; simp [e, AxisPad.rule?])))
  (by
    intro i hi
    have hi' : i = 0 ∨ i = 1 := by have : i < 2 := hi; omega
    rcases hi' with rfl | rfl <;> constructor <;> simp [PadArgs.entry, padArgs, Given.entry] <;> norm_num) j j'

/-- squares of the grey values: modes that copy samples -/
example {p : Padder ℚ} {ss : List (AxisPad ℚ)} (h : PadCall p x (.seq [1, -1]) [1, 2] ss) (hs : ss = [⟨1, 2, .circular, (0, 0), (0, 0), (none, none)⟩]) :=
  C96_pad_copy (f := fun v => v ^ 2) h (by rw [hs]; simp) j j'

/-! C97, C98 -/
section
variable {filter : SepPool ℚ} (hf : Built filter (PoolArgs.filter poolArgs.kernel) 2)
example := C97_interior hf (fun _ => rfl) (filterSame hx).knownCall (holds_padder padArgs 2) (fits hx) j j'
example := C97_local hf (fun _ => rfl) (filterSame hx).knownCall ((filterSame hx).knownCall.congr hy) hy (holds_padder padArgs 2) (holds_padder padArgs 2)
  (fits hx) j j'
example := C97_formula hf (fun _ => rfl) (filterSame hx).knownCall (holds_padder padArgs 2) (fits hx) (by decide) j

/-- an image that rises by 2 along axis 1 and falls by 1 along axis 2 -/
def ramp : Tensor ℚ := Tensor.ofFn [2, 6, 9] fun ix => 7 + rise (fun k => if k = 1 then 2 else if k = 2 then -1 else 0) ix

theorem ramp_affine : Affine 7 (fun k => if k = 1 then 2 else if k = 2 then -1 else 0) ramp := fun _ h => get_ofFn h

example := C98_interior hf (fun _ => rfl) (filterSame (x := ramp) rfl).knownCall (holds_padder padArgs 2) (fits (x := ramp) rfl) (by decide +kernel) ramp_affine j

/-- `Padder(mode=["odd_reflect", "smooth"])` -/
def straightArgs : PadArgs ℚ := { linearArgs with mode := .many [.oddReflect, .smooth] }

example := C98_straight hf (fun _ => rfl) (sameCall (g := PoolArgs.filter poolArgs.kernel) (gp := straightArgs) (x := ramp) rfl (fun _ => ⟨rfl, trivial⟩) (by decide) ⟨rfl, trivial, trivial, trivial⟩
    (valued (by intro s e; simp [e, AxisPad.rule?]) (by intro s e; simp [e, AxisPad.rule?]))) (holds_padder straightArgs 2)
  (by intro i hi; have : i = 0 ∨ i = 1 := by (have : i < 2 := hi); omega
      rcases this with rfl | rfl <;> trivial) (by decide) (by decide +kernel) ramp_affine j
end

/-! C101 -/
example := C101_pool hb (axes hx) (by decide) (fun _ => rfl) (fits hx) (by decide +kernel) hy j j'

/-- the same padding of both images -/
example (h : Below x y) := C101_pool_same hb (poolSame hx) (poolSame (h.1.trans hx)) (fun _ => rfl) (holds_padder padArgs 2) (holds_padder padArgs 2)
  (by intro i hi; have : i = 0 ∨ i = 1 := by (have : i < 2 := hi); omega
      rcases this with rfl | rfl <;> constructor <;> simp [PadArgs.entry, padArgs, Given.entry]) (by decide +kernel) h j j'

example (h : Close 2 x y) := C101_pad_close (padCall hx)
  (by
    intro s hs _
    have hs' : s ∈ [(⟨2, 7, .symmetric, (3, 3), (0, 0), (none, none)⟩ : AxisPad ℚ), ⟨1, 0, .constant, (3, 3), (0, 0), (none, none)⟩] := hs
    fin_cases hs' <;> constructor <;> simp) (by norm_num) h j j'

/-! C103 -/
example := C103_axiswise hb (fun _ => rfl) (linearSame hx) (holds_padder linearArgs 2) (fun _ _ q hq => Or.inl (linear q hq)) j

/-! C104 -/
example := C104_mse hy.symm (axes hx) (by decide) (a := 2) (by rw [ndim, hx]; decide) 4

end

end TI.Case
