import Verif.Props.Transpose
import Verif.Props.Roll
import Verif.Props.SsimOne
import Verif.Props.MsExclude
import Verif.Props.FlipMetrics
import Verif.Props.Grey
import Verif.Props.MsOne
import Verif.Props.Shift

/-!
# Concrete cases: metrics

Theorems on the metrics applied to pairs of images of shape (2, 24, 16) along their last two axes: an SSIM object with the window
(1/4, 1/2, 1/4) × (1/3, 1/3, 1/3), without padding and with circular padding, one made from `AvgPoolNd((3, 2), count_include_pad=False)`, and
MS-SSIM objects with two levels.
-/

set_option linter.unusedVariables false
set_option linter.unnecessarySeqFocus false

namespace TI.MetricCase
open Spec Tensor

/-- the window -/
noncomputable def window : PoolArgs ℝ := ⟨.many [[1 / 4, 1 / 2, 1 / 4], [1 / 3, 1 / 3, 1 / 3]], .one (some 1)⟩

/-- `Padder(mode="circular")` -/
noncomputable def ring : PadArgs ℝ := ⟨.one (0, 0), .one .circular, .one (0, 0), .one (0, 0), .one (none, none)⟩

/-- `Padder(mode="constant")` -/
noncomputable def zero : PadArgs ℝ := { ring with mode := .one .constant }

/-- `AvgPoolNd((3, 2))` -/
def sides : Given Nat := .many [3, 2]

theorem two {P : Nat → Prop} (h0 : P 0) (h1 : P 1) : ∀ i < ([1, 2] : List Nat).length, P i := by
  intro i hi
  have : i = 0 ∨ i = 1 := by have : i < 2 := hi; omega
  rcases this with rfl | rfl
  · exact h0
  · exact h1

theorem size : windowSize window.kernel ([1, 2] : List Nat).length ≠ 1 := by
  simp [windowSize, window, Given.entry, List.range_succ]

theorem excludeSize : windowSize (sides.map (avgKernel (α := ℝ))) ([1, 2] : List Nat).length ≠ 1 := by
  simp [windowSize, sides, Given.entry, Given.map, List.range_succ, avgKernel]

theorem averages : Averages window.kernel [1, 2] :=
  two (fun _ => by constructor <;> simp [window, Given.entry] <;> norm_num) (fun _ => by constructor <;> simp [window, Given.entry] <;> norm_num)

theorem positive : PositiveKernels window.kernel [1, 2] :=
  two (by simp [window, Given.entry]) (by simp [window, Given.entry])

theorem keeps : KeepsMoments (some ring) [1, 2] := by
  intro g hg i hi
  cases hg
  trivial

section
variable {x : Tensor ℝ} (hx : x.shape = [2, 24, 16])
include hx

theorem axes : axesOf x.ndim (.seq [1, -1]) = some [1, 2] := by rw [ndim, hx]; rfl

theorem all : axesOf x.ndim .none = some [0, 1, 2] := by rw [ndim, hx]; rfl

theorem pos : ∀ k ∈ reducedAxes x.ndim [1, 2], 0 < x.shape.getD k 0 := by rw [ndim, hx]; decide

theorem same {g : Given (List ℝ)} (hg : g.Fits 2) {gp : PadArgs ℝ} (hu : gp.FitsRest 2)
    (hv : ∀ i < 2, ∀ s : AxisPad ℝ, s.mode = gp.mode.entry .unknown i → s.rule? ≠ none ∧ s.mode ≠ .zeros) :
    SameCall (PoolArgs.filter g) gp x (.seq [1, -1]) [1, 2] where
  axes_eq := axes hx
  ne := by decide
  nodup := by decide
  fits := fun _ => ⟨hg, trivial⟩
  rest := hu
  stride := two Nat.one_pos Nat.one_pos
  pos := by rw [hx]; decide
  valued := by
    intro o ho _
    obtain ⟨i, hi, rfl⟩ := sameOps_mem ho
    exact hv i hi _ rfl

theorem sameRing : SameCall (PoolArgs.filter window.kernel) ring x (.seq [1, -1]) [1, 2] :=
  same hx (g := window.kernel) rfl ⟨trivial, trivial, trivial, trivial⟩ (by intro i hi s e; simp [e, AxisPad.rule?, ring, Given.entry])

theorem fits : ∀ i < ([1, 2] : List Nat).length, (window.kernel.entry [] i).length ≤ x.shape.getD (([1, 2] : List Nat).getD i 0) 0 := by
  rw [hx]
  exact two (by simp [window, Given.entry]) (by simp [window, Given.entry])

theorem fitting : Fitting x ((PoolArgs.filter window.kernel).ops [1, 2]) := fitting_of_sizes (sameRing hx).toSameReq (fits hx)

theorem blurNone : BlurCall window.kernel none x (.seq [1, -1]) [1, 2] none := ⟨rfl, axes hx, fitting hx⟩

theorem blurRing : BlurCall window.kernel (some ring) x (.seq [1, -1]) [1, 2] (some (ring.padder 1)) := ⟨⟨_, rfl, holds_padder _ 1⟩, sameRing hx⟩

theorem exclude : ExcludeCall sides zero x (.seq [1, -1]) [1, 2] where
  toSameCall := same hx (g := sides.map avgKernel) rfl ⟨trivial, trivial, trivial, trivial⟩ (by intro i hi s e; simp [e, AxisPad.rule?, zero, ring, Given.entry])
  size_pos := two (by decide) (by decide)
  zero := fun _ _ => ⟨rfl, rfl⟩
  order := Or.inl (by decide)

theorem msCall {gp : Option (PadArgs ℝ)} {crop : Bool} {p : Option (Padder ℝ)} (hp : (gp = none ∧ p = none) ∨ gp = some ring ∧ p = some (ring.padder 1)) :
    MsCall window.kernel gp crop 2 x (.seq [1, -1]) [1, 2] p where
  axes_eq := axes hx
  ne := by decide
  nodup := by decide
  fits := rfl
  kernel := two (by simp [window, Given.entry]) (by simp [window, Given.entry])
  large := by
    rw [hx]
    exact two (by simp [window, Given.entry]) (by simp [window, Given.entry])
  padder := by
    rcases hp with ⟨rfl, rfl⟩ | ⟨rfl, rfl⟩
    · rfl
    · exact ⟨⟨_, rfl, holds_padder _ 1⟩, ⟨trivial, trivial, trivial, trivial⟩, fun _ _ => by simp [PadArgs.entry, ring, Given.entry, AxisPad.rule?, Mode.isPeriodize]⟩

theorem msRing {crop : Bool} : MsCall window.kernel (some ring) crop 2 x (.seq [1, -1]) [1, 2] (some (ring.padder 1)) := msCall hx (Or.inr ⟨rfl, rfl⟩)

theorem msNone {crop : Bool} : MsCall window.kernel none crop 2 x (.seq [1, -1]) [1, 2] none := msCall hx (Or.inl ⟨rfl, rfl⟩)

theorem msKnown : MsKnown window.kernel ring 2 x (.seq [1, -1]) [1, 2] where
  toKnownCall := (sameRing hx).knownCall
  filters := rfl
  kernel := (msNone hx (crop := true)).kernel
  large := (msNone hx (crop := true)).large
  even := fun _ _ => Or.inl rfl

theorem msExclude : MsExclude sides zero 2 x (.seq [1, -1]) [1, 2] where
  toExcludeCall := exclude hx
  sizes := rfl
  large := by
    rw [hx]
    exact two (by decide) (by decide)

omit hx in
theorem flipRing {n : Nat} : FlipBlur 2 [1, 2] window.kernel n (some ring) :=
  ⟨two (fun h => by cases h) (fun _ => ⟨rfl, rfl, rfl, rfl⟩), two (fun h => by cases h) (fun _ => ⟨rfl, fun h => by cases h⟩)⟩

end

section
variable {pool : SepPool ℝ} (hb : Built pool window 2) {s : SSIM ℝ} {sc : Bool} (hi : SSIM.init pool false (1 / 100) (3 / 100) sc false = .ok s)
  {s' : SSIM ℝ} (hi' : SSIM.init pool false (1 / 100) (3 / 100) sc true = .ok s')
  {k : ℝ} {pool' : SepPool ℝ} (hb' : Built pool' (avgArgs ℝ sides (.one (some 1))) 2) {t : SSIM ℝ} (ht : SSIM.init pool' true (1 / 100) (3 / 100) sc false = .ok t)
  {t' : SSIM ℝ} (ht' : SSIM.init pool' true (1 / 100) (3 / 100) sc true = .ok t')
  {x y : Tensor ℝ} (hx : x.shape = [2, 24, 16]) (hy : y.shape = x.shape) (j j' : List Nat → ℝ)

/-! C57-C60, C79, C88 -/
example := C57_symmetric s j x y (.seq [1, -1]) .none (some (ring.padder 1))
example {z : Tensor ℝ} (hz : z.shape = [2, 24, 15]) := C57_rejects_shapes s j (y1 := x) (y2 := z) (by rw [hx, hz]; decide) (.seq [1, -1]) .none none
example := C79_formula hi hb (fun _ => rfl) (blurRing hx) (fun _ => size) hy (axes hx) (by decide) (Or.inl rfl) j
example := C79_windows hi' hb (fun _ => rfl) (axes hx) (by decide) (two (by simp [window, Given.entry]) (by simp [window, Given.entry])) (fits hx) (fun _ => size) hy (axes hx) (by decide) j
example := C60_cropped_score_partial hi' hb (fun _ => rfl) (sameRing hx).knownCall (holds_padder ring 1) (fun _ _ => Or.inl rfl) (fits hx) (fun _ => size) hy (axes hx) (by decide) j
example := C58_self_partial hi hb (fun _ => rfl) (blurRing hx) (fun _ => size) (axes hx) (by decide) (Or.inl rfl) averages keeps (by norm_num) (by norm_num) (pos hx) j
example := C58_cropped_partial hi' hb (fun _ => rfl) (sameRing hx).knownCall (holds_padder ring 1) (fun _ _ => Or.inl rfl) (fits hx) (fun _ => size) (axes hx) (by decide) averages
  (by norm_num) (by norm_num) (pos hx) j
example := C58_map_any_padding_partial hi hb (fun _ => rfl) (blurRing hx) (fun _ => size) j
example := C59_bounds_partial hi hb (fun _ => rfl) (blurRing hx) (fun _ => size) hy (axes hx) (by decide) (Or.inl rfl) averages keeps (by norm_num) (by norm_num) (pos hx) j
example := C59_cropped_partial hi' hb (fun _ => rfl) (sameRing hx).knownCall (holds_padder ring 1) (fun _ _ => Or.inl rfl) (fits hx) (fun _ => size) hy (axes hx) (by decide) averages
  (by norm_num) (by norm_num) (pos hx) j
example := C88_one_iff_equal hi hb (fun _ => rfl) (blurRing hx) (fun _ => size) hy (axes hx) (by decide) (Or.inl rfl) averages positive keeps (by norm_num) (by norm_num) (pos hx) j
example := C88_cropped hi' hb (fun _ => rfl) (sameRing hx).knownCall (holds_padder ring 1) (fun _ _ => Or.inl rfl) (fits hx) (fun _ => size) hy (axes hx) (by decide) averages positive
  (by norm_num) (by norm_num) (pos hx) j
example := C58_mean (k1 := (1 / 100 : ℝ)) (k2 := 3 / 100) true false (axes hx) (by decide) (by decide) (by rw [hx]; decide) (axes hx) (by decide) (by norm_num) (by norm_num) (pos hx) j
example := C59_gaussian (k1 := 1 / 100) (k2 := 3 / 100) true false (axes hx) (by decide) (by decide) (by rw [hx]; decide) hy (axes hx) (by decide) (by norm_num) (by norm_num) (pos hx) j
example := C59_mean (k1 := (1 / 100 : ℝ)) (k2 := 3 / 100) true false (axes hx) (by decide) (by decide) (by rw [hx]; decide) hy (axes hx) (by decide) (by norm_num) (by norm_num) (pos hx) j
example := C88_mean (k1 := (1 / 100 : ℝ)) (k2 := 3 / 100) true false (axes hx) (by decide) (by decide) (by rw [hx]; decide) hy (axes hx) (by decide) (by norm_num) (by norm_num) (pos hx) j

/-! windows that do not count the padding -/
example := C79_exclude ht hb' (fun _ => rfl) (exclude hx) (holds_padder zero 1) (fun _ => excludeSize) hy (axes hx) (by decide) j
example := C60_exclude_partial ht' hb' (fun _ => rfl) (exclude hx) (holds_padder zero 1) (by rw [hx]; exact two (by decide) (by decide)) (fun _ => excludeSize) hy (axes hx) (by decide) j
example := C58_exclude_partial ht hb' (fun _ => rfl) (exclude hx) (holds_padder zero 1) (fun _ => excludeSize) (axes hx) (by decide) (by norm_num) (by norm_num) (pos hx) j
example := C58_exclude_cropped_partial ht' hb' (fun _ => rfl) (exclude hx) (holds_padder zero 1) (by rw [hx]; exact two (by decide) (by decide)) (fun _ => excludeSize) (axes hx) (by decide) (by norm_num) (by norm_num) (pos hx) j
example := C59_exclude_partial ht hb' (fun _ => rfl) (exclude hx) (holds_padder zero 1) (fun _ => excludeSize) hy (axes hx) (by decide) (by norm_num) (by norm_num) (pos hx) j
example := C59_exclude_cropped_partial ht' hb' (fun _ => rfl) (exclude hx) (holds_padder zero 1) (by rw [hx]; exact two (by decide) (by decide)) (fun _ => excludeSize) hy (axes hx) (by decide) (by norm_num) (by norm_num) (pos hx) j

/-! C110 -/
theorem shifts : Shifts (some ring) ([1, 2] : List Nat).length := by
  intro a ha i hi
  cases ha
  exact trivial

theorem unitSums : UnitSums window.kernel ([1, 2] : List Nat).length := fun i hi hne => (averages i hi hne).2

example := C110_shifted hi hb (fun _ => rfl) (blurRing hx) shifts unitSums (fun _ => size) hy (axes hx) (by decide) (Or.inl rfl) 5 (-3) j
example := C110_brighter hi hb (fun _ => rfl) (blurRing hx) shifts averages keeps (fun _ => size) (axes hx) (by decide) (Or.inl rfl) (by norm_num) 5 j
example (ha : Constant 3 x) (hd : Constant 7 y) := C110_constant hi hb (fun _ => rfl) (blurRing hx) shifts unitSums (fun _ => size) hy (axes hx) (by decide) (Or.inl rfl)
  ha hd (by norm_num) (pos hx) j
example (ha : Constant 3 x) (hd : Constant 7 y) := C110_ms_constant hi hb (fun _ => rfl) (ws := [1 / 3, 2 / 3]) (le_refl 2) (msRing hx) (fun _ => shifts) unitSums (fun _ => size) hy (axes hx)
  (by decide) ha hd (by norm_num) (eps := 1 / 1000) (by norm_num) (pos hx) j
example (ha : Constant 3 x) (hd : Constant 7 y) := C110_ms_constant_sum hi hb (fun _ => rfl) (ws := [1 / 3, 2 / 3]) (le_refl 2) (msRing hx) (fun _ => shifts) unitSums (fun _ => size) hy (axes hx)
  (by decide) ha hd (by norm_num) (eps := 1 / 1000) (pos hx) j
example (up : Bool) := C110_ms_shifted hi hb (fun _ => rfl) (ws := [1 / 3, 2 / 3]) (le_refl 2) (msRing hx) (fun _ => shifts) unitSums (fun _ => size) hy (axes hx)
  (by decide) up (1 / 1000) 5 (-3) j

/-! C61, C62, C80 -/
section
variable (up : Bool)

theorem weights : 2 ≤ ([1 / 3, 2 / 3] : List ℝ).length := le_refl 2

theorem possible {cr : Bool} : MsPossible window.kernel (some ring) cr [1, 2] (1 / 100) (3 / 100) := ⟨averages, fun _ => keeps, by norm_num, by norm_num⟩

example := C61_symmetric ⟨s, [1 / 3, 2 / 3], up, 1 / 1000⟩ j x y (.seq [1, -1]) .none (some (ring.padder 1))
example {z : Tensor ℝ} (hz : z.shape = [2, 24, 15]) := C61_rejects_shapes ⟨s, [1 / 3, 2 / 3], up, 1 / 1000⟩ j (y1 := x) (y2 := z) (by rw [hx, hz]; decide) (.seq [1, -1]) .none none
example := C80_formula hi hb (fun _ => rfl) weights (msRing hx) (fun _ => size) hy (axes hx) (by decide) up (1 / 1000) j
example := C80_rejects_small hi hb (fun _ => rfl) (ws := [1, 1, 1, 1]) (axes hx) (axes hx) (i := 1) (by decide) (by rw [hx]; simp [window, Given.entry]) hy up (1 / 1000) j none
example := C62_accepts_partial hi hb (fun _ => rfl) weights (msRing hx) (fun _ => size) hy (axes hx) (by decide) up (1 / 1000) j
example := C61_self_partial hi hb (fun _ => rfl) weights (msRing hx) (fun _ => size) (axes hx) (by decide) possible (eps := 1 / 1000) (by norm_num) (pos hx) j
example := C61_self_sum_partial hi hb (fun _ => rfl) weights (msRing hx) (fun _ => size) (axes hx) (by decide) possible (eps := 1 / 1000) (pos hx) j
example := C61_range_partial hi hb (fun _ => rfl) weights (msRing hx) (fun _ => size) hy (axes hx) (by decide) possible (eps := 1 / 1000) (by norm_num) (by norm_num)
  (by intro w hw; simp at hw; rcases hw with rfl | rfl <;> norm_num) (pos hx) j
example := C61_range_sum_partial hi hb (fun _ => rfl) weights (msRing hx) (fun _ => size) hy (axes hx) (by decide) possible (eps := 1 / 1000) (pos hx) j
example := C109_one_iff_equal hi hb (fun _ => rfl) weights (msRing hx) (fun _ => size) hy (axes hx) (by decide) possible positive (two (by simp [window, Given.entry]) (by simp [window, Given.entry]))
  (eps := 1 / 1000) (by norm_num) (by norm_num) (by intro w hw; simp at hw; rcases hw with rfl | rfl <;> norm_num) (by norm_num) (by norm_num) (pos hx) j
example := C109_sum hi hb (fun _ => rfl) weights (msRing hx) (fun _ => size) hy (axes hx) (by decide) possible positive (two (by simp [window, Given.entry]) (by simp [window, Given.entry]))
  (eps := 1 / 1000) (by intro w hw; simp at hw; rcases hw with rfl | rfl <;> norm_num) (by norm_num) (by norm_num) (pos hx) j
example := C80_cropped hi' hb (fun _ => rfl) weights (msKnown hx) (holds_padder ring 1) (fun _ => size) hy (axes hx) (by decide) up (1 / 1000) j
example := C80_padding_irrelevant hi' hb (fun _ => rfl) weights (msKnown hx) (holds_padder ring 1) (fun _ => size) hy (axes hx) (by decide) up (1 / 1000) j
example := C61_cropped_self hi' hb (fun _ => rfl) weights (msKnown hx) (holds_padder ring 1) (fun _ => size) (axes hx) (by decide) averages (by norm_num) (by norm_num)
  (eps := 1 / 1000) (by norm_num) (pos hx) j
example := C61_cropped_range hi' hb (fun _ => rfl) weights (msKnown hx) (holds_padder ring 1) (fun _ => size) hy (axes hx) (by decide) averages (by norm_num) (by norm_num)
  (eps := 1 / 1000) (by norm_num) (by norm_num) (by intro w hw; simp at hw; rcases hw with rfl | rfl <;> norm_num) (pos hx) j
example := C80_exclude ht hb' (fun _ => rfl) weights (msExclude hx) (holds_padder zero 1) (fun _ => excludeSize) hy (axes hx) (by decide) up (1 / 1000) j
example := C61_exclude_self ht hb' (fun _ => rfl) weights (msExclude hx) (holds_padder zero 1) (fun _ => excludeSize) (axes hx) (by decide) (by norm_num) (by norm_num)
  (eps := 1 / 1000) (by norm_num) (pos hx) j
example := C61_exclude_range ht hb' (fun _ => rfl) weights (msExclude hx) (holds_padder zero 1) (fun _ => excludeSize) hy (axes hx) (by decide) (by norm_num) (by norm_num)
  (eps := 1 / 1000) (by norm_num) (by norm_num) (by intro w hw; simp at hw; rcases hw with rfl | rfl <;> norm_num) (pos hx) j

/-! C93-C96, C104 -/
example := C93_ssim (d := 2) hi hb (fun _ => rfl) (blurRing hx) (fun _ => size) hy (axes hx) (by decide) (Or.inl rfl) flipRing (by rw [ndim, hx]; decide) j j'
example := C93_ssim_cropped (d := 2) hi' hb (fun _ => rfl) (sameRing hx).knownCall (holds_padder ring 1) (fun _ _ => Or.inl rfl) (fits hx) (fun _ => size) hy (axes hx) (by decide)
  (two (fun _ => rfl) (fun _ => rfl)) (by rw [ndim, hx]; decide) j j'
example := C93_psnr hy.symm (axes hx) (by decide) (d := 2) (by rw [ndim, hx]; decide) 255 0
example := C93_msssim_partial (d := 2) hi hb (fun _ => rfl) weights (msRing hx) (fun _ => size) hy (axes hx) (by decide) (by decide) (by rw [hx]; decide)
  (fun _ _ => flipRing) up (1 / 1000) j j'
example := C93_gaussian (k1 := 1 / 100) (k2 := 3 / 100) true false (axes hx) (by decide) (by decide) (by rw [hx]; decide) hy (axes hx) (by decide) (d := 1) (by rw [ndim, hx]; decide) j j'
example := C94_ssim (b := 0) (index := [1, 1, 0]) hi hb (fun _ => rfl) (blurRing hx) (fun _ => size) hy (axes hx) (by decide) (Or.inl rfl) (by rw [hx]; exact ⟨by decide, by decide⟩) (by decide) j j'
example := C94_psnr (b := 0) (index := [1, 1, 0]) hy.symm (axes hx) (by decide) (by rw [hx]; exact ⟨by decide, by decide⟩) (by rw [ndim, hx]; decide) 255 0
example := C94_msssim (b := 0) (index := [1, 1, 0]) hi hb (fun _ => rfl) weights (msRing hx) (fun _ => size) hy (axes hx) (by decide) (by rw [hx]; exact ⟨by decide, by decide⟩) (by decide)
  (by rw [ndim, hx]; decide) up (1 / 1000) j j'
example := C95_ssim (a := 1) (b := 2) (ax' := .seq [2, 1]) (rax' := .seq [2, 1]) hi hb (fun _ => rfl) (blurRing hx) (fun _ => size) hy (axes hx) (by decide) (Or.inl rfl)
  (by rw [ndim, hx]; decide) (by rw [ndim, hx]; decide) (by rw [ndim, hx]; rfl) (by rw [ndim, hx]; rfl) j j'
example := C95_msssim (a := 1) (b := 2) (ax' := .seq [2, 1]) (rax' := .seq [2, 1]) hi hb (fun _ => rfl) weights (msRing hx) (fun _ => size) hy (axes hx) (by decide)
  (by rw [ndim, hx]; decide) (by rw [ndim, hx]; decide) (by rw [ndim, hx]; rfl) (by rw [ndim, hx]; rfl) (by rw [ndim, hx]; decide) (by rw [ndim, hx]; decide) up (1 / 1000) j j'
example {s'' : SSIM ℝ} (hi'' : SSIM.init pool false (3 * (1 / 100)) (3 * (3 / 100)) sc false = .ok s'') := C96_msssim (c := 3) hi hi'' (by norm_num) hb (fun _ => rfl) weights (msRing hx)
  (by intro a ha i hi; cases ha; exact ⟨rfl, rfl, trivial⟩) (fun _ => size) hy (axes hx) (by decide) up (1 / 1000) j j'
example := C104_ssim hi hb (fun _ => rfl) (sameRing hx) (holds_padder ring 1) (fun _ => size) hy (axes hx) (by decide) (i := 1) (by decide) rfl (by rw [ndim, hx]; decide) 5 j j'
end
end

end TI.MetricCase
