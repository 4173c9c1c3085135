import Verif.Proofs.Reduce
import Mathlib.Analysis.SpecialFunctions.Log.Base

/-!
# Properties of the squared error and of the peak signal-to-noise ratio (C55, C56)
-/

set_option linter.unusedSectionVars false

namespace TI
open Tensor Spec

section
variable {α : Type} [Field α] {x y : Tensor α} {ax : Axes} {axes : List Nat}

theorem mseFull_eq (h : x.shape = y.shape) : mseFull x y = .ok (squaredError x y) := by
  simp only [mseFull, bop_same h, ok_bind, map_ofFn, squaredError]

theorem mse_run (h : x.shape = y.shape) (hax : axesOf x.ndim ax = some axes) (r : Reduction) :
    mse r x y ax = r.run (squaredError x y) (castV axes) := by
  rw [mse, if_neg (not_not.2 h), (checkAxes_spec hax).1, ok_bind, mseFull_eq h, ok_bind]

/-- **C55**: the mean of the squared differences over the reduced axes (over all axes if none are named), one for every position of
the remaining axes. -/
theorem C55_mean (h : x.shape = y.shape) (hax : axesOf x.ndim ax = some axes) (hnd : axes.Nodup) :
    mse .mean x y ax = .ok (ofFn (onKept (reducedAxes x.ndim axes) x.shape) fun jx =>
      mean ((collected x.shape (reducedAxes x.ndim axes) jx).map fun ix => (x.get ix - y.get ix) ^ 2)) := by
  obtain ⟨h1, h2⟩ := checkAxes_spec hax
  have h3 := reduce_drop (fun l : List α => l.sum / (l.length : α)) (x := squaredError x y) (axes := axes) h2 hnd
  rw [mse_run h hax, Reduction.run, meanDims]
  refine h3.trans ?_
  congr 1
  apply ofFn_congr
  intro jx _
  rw [mean, List.map_congr_left]
  · rfl
  · intro ix hix
    exact get_ofFn (mem_collected.1 hix).1

/-- **C55**: the sum of the squared differences over the reduced axes. -/
theorem C55_sum (h : x.shape = y.shape) (hax : axesOf x.ndim ax = some axes) (hnd : axes.Nodup) :
    mse .sum x y ax = .ok (ofFn (onKept (reducedAxes x.ndim axes) x.shape) fun jx =>
      ((collected x.shape (reducedAxes x.ndim axes) jx).map fun ix => (x.get ix - y.get ix) ^ 2).sum) := by
  obtain ⟨h1, h2⟩ := checkAxes_spec hax
  have h3 := reduce_drop (fun l : List α => l.sum) (x := squaredError x y) (axes := axes) h2 hnd
  rw [mse_run h hax, Reduction.run, sumDims]
  refine h3.trans ?_
  congr 1
  apply ofFn_congr
  intro jx _
  refine congrArg List.sum (List.map_congr_left ?_)
  intro ix hix
  exact get_ofFn (mem_collected.1 hix).1

/-- **C55**: without reduction the result is the tensor of squared differences. -/
theorem C55_none (h : x.shape = y.shape) (hax : axesOf x.ndim ax = some axes) :
    mse .none x y ax = .ok (ofFn x.shape fun ix => (x.get ix - y.get ix) ^ 2) := by
  rw [mse_run h hax]
  rfl

/-- **C55**: tensors of different shapes are rejected. -/
theorem C55_rejects_shapes (h : x.shape ≠ y.shape) (r : Reduction) (ax : Axes) : mse r x y ax = .error .assertion := by
  simp only [mse, if_pos h]

/-- **C55**: other reductions are rejected. -/
theorem C55_rejects_reduction (h : x.shape = y.shape) (hax : axesOf x.ndim ax = some axes) : mse .unknown x y ax = .error .value := by
  rw [mse_run h hax]
  rfl

/-- **C55**: repeated axes are rejected by both reductions. -/
theorem C55_rejects_repeated (h : x.shape = y.shape) (hax : axesOf x.ndim ax = some axes) (hnd : ¬ axes.Nodup) :
    mse .mean x y ax = .error .runtime ∧ mse .sum x y ax = .error .runtime := by
  obtain ⟨h1, h2⟩ := checkAxes_spec hax
  have h3 : reduceDims (squaredError x y).ndim (castV axes) = .error .runtime := reduceDims_repeated h2 hnd
  constructor <;>
  · rw [mse_run h hax]
    simp only [Reduction.run, meanDims, sumDims, Tensor.reduce, h3]
    rfl

/-- **C55**: exchanging the images changes nothing, whatever the arguments. -/
theorem C55_symmetric (r : Reduction) (x y : Tensor α) (ax : Axes) : mse r x y ax = mse r y x ax := by
  by_cases h : x.shape = y.shape
  · have e : squaredError x y = squaredError y x := by
      apply ext_get (by simp [squaredError, h])
      intro ix hix
      have hix' : InB x.shape ix := hix
      rw [squaredError, squaredError, get_ofFn hix', get_ofFn (by rw [← h]; exact hix')]
      ring
    have hn : x.ndim = y.ndim := by rw [ndim, ndim, h]
    simp only [mse, h, ne_eq, not_true_eq_false, if_false, mseFull_eq h, mseFull_eq h.symm, e, hn]
  · rw [C55_rejects_shapes h, C55_rejects_shapes (Ne.symm h)]

/-- **C55** over all axes: one number. -/
theorem C55_total (h : x.shape = y.shape) :
    mse .sum x y .none = .ok (Tensor.scalar ((indices x.shape).map fun ix => (x.get ix - y.get ix) ^ 2).sum) ∧
    mse .mean x y .none = .ok (Tensor.scalar (((indices x.shape).map fun ix => (x.get ix - y.get ix) ^ 2).sum / (numel x.shape : α))) := by
  have hax : axesOf x.ndim .none = some (List.range x.ndim) := rfl
  have hr : reducedAxes x.ndim (List.range x.ndim) = List.range x.shape.length := by
    rw [reducedAxes, ite_self, ndim]
  rw [C55_sum h hax List.nodup_range, C55_mean h hax List.nodup_range, hr, onKept_all]
  constructor
  · congr 1
    simp [ofFn, indices, collected_all, Tensor.scalar]
  · congr 1
    simp [ofFn, indices, collected_all, Tensor.scalar, Spec.mean, indices_length]

variable [LinearOrder α] [IsStrictOrderedRing α]

/-- **C55**: the sum is the mean times the number of positions, which is the product of the sizes of the reduced axes. -/
theorem C55_sum_is_mean_times_count (h : x.shape = y.shape) (hax : axesOf x.ndim ax = some axes) (hnd : axes.Nodup)
    (hpos : ∀ k < x.ndim, 0 < x.shape.getD k 0) :
    ∃ s m : Tensor α, mse .sum x y ax = .ok s ∧ mse .mean x y ax = .ok m ∧ s.shape = m.shape ∧ ∀ jx, InB m.shape jx →
      s.get jx = m.get jx *
        (((((List.range x.ndim).filter fun k => k ∈ reducedAxes x.ndim axes).map fun k => x.shape.getD k 0).prod : Nat) : α) := by
  refine ⟨_, _, C55_sum h hax hnd, C55_mean h hax hnd, rfl, ?_⟩
  intro jx hjx
  have hjx' : InB (onKept (reducedAxes x.ndim axes) x.shape) jx := hjx
  have hc := collected_length hjx'
  rw [get_ofFn hjx', get_ofFn hjx']
  change _ = _ * ((((List.range x.shape.length).filter fun k => k ∈ reducedAxes x.ndim axes).map fun k => x.shape.getD k 0).prod : α)
  rw [← hc]
  have := mean_mul_length (l := (collected x.shape (reducedAxes x.ndim axes) jx).map fun ix => (x.get ix - y.get ix) ^ 2)
    (by simpa using collected_ne (fun k hk _ => hpos k hk) hjx')
  rw [List.length_map] at this
  exact this.symm

theorem sum_sq_nonneg (l : List (List Nat)) (f : List Nat → α) : 0 ≤ (l.map fun ix => (f ix) ^ 2).sum := by
  induction l with
  | nil => simp
  | cons a l ih =>
    rw [List.map_cons, List.sum_cons]
    exact add_nonneg (sq_nonneg _) ih

theorem sum_sq_zero {l : List (List Nat)} {f : List Nat → α} (h : (l.map fun ix => (f ix) ^ 2).sum = 0) : ∀ ix ∈ l, f ix = 0 := by
  induction l with
  | nil => simp
  | cons a l ih =>
    rw [List.map_cons, List.sum_cons] at h
    have h1 := sq_nonneg (f a)
    have h2 := sum_sq_nonneg l f
    intro ix hix
    rcases List.mem_cons.1 hix with rfl | hix
    · exact pow_eq_zero_iff (two_ne_zero) |>.1 (by linarith)
    · exact ih (by linarith) ix hix

/-- **C55**: no entry of a squared error is negative. -/
theorem C55_nonneg (r : Reduction) {z : Tensor α} (hax : axesOf x.ndim ax = some axes) (hz : mse r x y ax = .ok z) :
    ∀ jx, InB z.shape jx → 0 ≤ z.get jx := by
  by_cases h : x.shape = y.shape
  · by_cases hnd : axes.Nodup
    · cases r with
      | mean =>
        rw [C55_mean h hax hnd] at hz
        cases hz
        intro jx hjx
        have hjx' : InB (onKept (reducedAxes x.ndim axes) x.shape) jx := hjx
        rw [get_ofFn hjx', mean]
        exact div_nonneg (sum_sq_nonneg _ _) (Nat.cast_nonneg _)
      | sum =>
        rw [C55_sum h hax hnd] at hz
        cases hz
        intro jx hjx
        have hjx' : InB (onKept (reducedAxes x.ndim axes) x.shape) jx := hjx
        rw [get_ofFn hjx']
        exact sum_sq_nonneg _ _
      | none =>
        rw [C55_none h hax] at hz
        cases hz
        intro jx hjx
        have hjx' : InB x.shape jx := hjx
        rw [get_ofFn hjx']
        exact sq_nonneg _
      | unknown =>
        rw [C55_rejects_reduction h hax] at hz
        cases hz
    · cases r with
      | mean => rw [(C55_rejects_repeated h hax hnd).1] at hz; cases hz
      | sum => rw [(C55_rejects_repeated h hax hnd).2] at hz; cases hz
      | none =>
        rw [C55_none h hax] at hz
        cases hz
        intro jx hjx
        have hjx' : InB x.shape jx := hjx
        rw [get_ofFn hjx']
        exact sq_nonneg _
      | unknown =>
        rw [C55_rejects_reduction h hax] at hz
        cases hz
  · rw [C55_rejects_shapes h] at hz
    cases hz

/-- **C55**: the squared error is zero everywhere exactly if the images are equal, for every reduction and all axes. -/
theorem C55_zero_iff (h : x.shape = y.shape) (hax : axesOf x.ndim ax = some axes) (hnd : axes.Nodup)
    (hpos : ∀ k < x.ndim, 0 < x.shape.getD k 0) {r : Reduction} (hr : r ≠ .unknown) :
    ∃ z, mse r x y ax = .ok z ∧ ((∀ jx, InB z.shape jx → z.get jx = 0) ↔ x = y) := by
  have key : (∀ jx, InB (onKept (reducedAxes x.ndim axes) x.shape) jx → ((collected x.shape (reducedAxes x.ndim axes) jx).map fun ix =>
      (x.get ix - y.get ix) ^ 2).sum = 0) ↔ x = y := by
    constructor
    · intro hz
      apply ext_get h
      intro ix hix
      have := sum_sq_zero (hz _ (onKept_inB hix)) ix (mem_collected.2 ⟨hix, rfl⟩)
      exact sub_eq_zero.1 this
    · rintro rfl jx _
      simp
  cases r with
  | mean =>
    refine ⟨_, C55_mean h hax hnd, ?_⟩
    rw [← key]
    apply forall_congr'
    intro jx
    apply forall_congr'
    intro hjx
    have hjx' : InB (onKept (reducedAxes x.ndim axes) x.shape) jx := hjx
    have hlen : (((collected x.shape (reducedAxes x.ndim axes) jx).map fun ix => (x.get ix - y.get ix) ^ 2).length : α) ≠ 0 := by
      simpa using collected_ne (fun k hk _ => hpos k hk) hjx'
    rw [get_ofFn hjx', mean, div_eq_zero_iff]
    simp only [hlen, or_false]
  | sum =>
    refine ⟨_, C55_sum h hax hnd, ?_⟩
    rw [← key]
    apply forall_congr'
    intro jx
    apply forall_congr'
    intro hjx
    have hjx' : InB (onKept (reducedAxes x.ndim axes) x.shape) jx := hjx
    rw [get_ofFn hjx']
  | none =>
    refine ⟨_, C55_none h hax, ?_⟩
    constructor
    · intro hz
      apply ext_get h
      intro ix hix
      have := hz ix hix
      rw [get_ofFn hix] at this
      exact sub_eq_zero.1 (pow_eq_zero_iff (two_ne_zero) |>.1 this)
    · rintro rfl jx hjx
      have hjx' : InB x.shape jx := hjx
      rw [get_ofFn hjx']
      simp
  | unknown => exact absurd rfl hr

end

/-! ## peak signal-to-noise ratio -/

section
variable {x y : Tensor ℝ} {ax : Axes} {axes : List Nat} {m : Tensor ℝ}

/-- **C56**: the PSNR has an entry for every entry of the squared error, and it is `10 * log10 (max² / (mse + eps))`; `eps` counts
if it is positive. -/
theorem C56_formula {r : Reduction} (hm : mse r x y ax = .ok m) {maxValue : ℝ} (hmax : 0 < maxValue) (eps : ℝ)
    (hpos : ∀ jx, InB m.shape jx → 0 < m.get jx + max eps 0) :
    ∃ z, psnr maxValue eps r x y ax = .ok z ∧ z.shape = m.shape ∧ ∀ jx, InB m.shape jx →
      z.get jx = 10 * Real.logb 10 (maxValue ^ 2 / (m.get jx + max eps 0)) := by
  have hlog : ∀ v : ℝ, 0 < v → 20 * Real.logb 10 maxValue - 10 * Real.logb 10 v = 10 * Real.logb 10 (maxValue ^ 2 / v) := by
    intro v hv
    rw [Real.logb_div (by positivity) hv.ne', Real.logb_pow]
    push_cast
    ring
  simp only [psnr, hm, ok_bind]
  refine ⟨_, rfl, ?_, ?_⟩
  · split_ifs <;> rfl
  · intro jx hjx
    split_ifs with he
    · rw [get_map _ _ (by exact hjx), get_map _ _ hjx, hlog _ (by have := hpos jx hjx; rwa [max_eq_left he.le] at this), max_eq_left he.le]
    · have h0 : max eps 0 = 0 := max_eq_right (not_lt.1 he)
      rw [get_map _ _ hjx, hlog _ (by have := hpos jx hjx; rwa [h0, add_zero] at this), h0, add_zero]

/-- **C56**: exchanging the images changes nothing. -/
theorem C56_symmetric (maxValue eps : ℝ) (r : Reduction) (x y : Tensor ℝ) (ax : Axes) :
    psnr maxValue eps r x y ax = psnr maxValue eps r y x ax := by
  simp only [psnr, C55_symmetric r x y ax]

/-- **C56**: a larger squared error gives a strictly smaller ratio; entries of two evaluations (of any images) are compared. -/
theorem C56_decreasing {maxValue : ℝ} {r r' : Reduction} {x' y' : Tensor ℝ} {ax' : Axes} {m m' z z' : Tensor ℝ}
    (hm : mse r x y ax = .ok m) (hm' : mse r' x' y' ax' = .ok m') (hz : psnr maxValue 0 r x y ax = .ok z)
    (hz' : psnr maxValue 0 r' x' y' ax' = .ok z') {jx jx' : List Nat} (h : InB m.shape jx) (h' : InB m'.shape jx')
    (hpos : 0 < m.get jx) (hpos' : 0 < m'.get jx') : z.get jx < z'.get jx' ↔ m'.get jx' < m.get jx := by
  simp only [psnr, hm, hm', ok_bind, lt_irrefl, if_false, Except.ok.injEq] at hz hz'
  rw [← hz, ← hz', get_map _ _ h, get_map _ _ h', ← Real.logb_lt_logb_iff (b := 10) (by norm_num) hpos' hpos]
  constructor <;> intro h <;> linarith

/-- **C56**: scaling the images and the largest value by the same positive factor changes nothing. -/
theorem C56_scale {maxValue c : ℝ} (hmax : 0 < maxValue) (hc : 0 < c) (h : x.shape = y.shape) (hax : axesOf x.ndim ax = some axes)
    (hnd : axes.Nodup) {r : Reduction} (hr : r ≠ .unknown)
    (hpos : ∀ m, mse r x y ax = .ok m → ∀ jx, InB m.shape jx → 0 < m.get jx) :
    psnr (c * maxValue) 0 r (x.map (c * ·)) (y.map (c * ·)) ax = psnr maxValue 0 r x y ax := by
  have hsq : ∀ l : List (List Nat), (∀ ix ∈ l, InB x.shape ix) →
      (l.map fun ix => ((x.map (c * ·)).get ix - (y.map (c * ·)).get ix) ^ 2).sum =
        c ^ 2 * (l.map fun ix => (x.get ix - y.get ix) ^ 2).sum := by
    intro l hl
    rw [mul_sum_map]
    congr 1
    apply List.map_congr_left
    intro ix hix
    rw [get_map _ _ (hl ix hix), get_map _ _ (by rw [← h]; exact hl ix hix)]
    ring
  have key : ∃ m, mse r x y ax = .ok m ∧ mse r (x.map (c * ·)) (y.map (c * ·)) ax = .ok (m.map (c ^ 2 * ·)) := by
    cases r with
    | mean =>
      refine ⟨_, C55_mean h hax hnd, ?_⟩
      rw [C55_mean (x := x.map (c * ·)) (y := y.map (c * ·)) h hax hnd, map_ofFn]
      congr 1
      apply ofFn_congr
      intro jx _
      rw [Spec.mean, Spec.mean, List.length_map, List.length_map, ← mul_div_assoc, ← hsq]
      · rfl
      · intro ix hix; exact (mem_collected.1 hix).1
    | sum =>
      refine ⟨_, C55_sum h hax hnd, ?_⟩
      rw [C55_sum (x := x.map (c * ·)) (y := y.map (c * ·)) h hax hnd, map_ofFn]
      congr 1
      apply ofFn_congr
      intro jx _
      rw [← hsq]
      · rfl
      · intro ix hix; exact (mem_collected.1 hix).1
    | none =>
      refine ⟨_, C55_none h hax, ?_⟩
      rw [C55_none (x := x.map (c * ·)) (y := y.map (c * ·)) h hax, map_ofFn]
      congr 1
      apply ofFn_congr
      intro ix hix
      have hix' : InB x.shape ix := hix
      rw [get_map _ _ hix', get_map _ _ (by rw [← h]; exact hix')]
      ring
    | unknown => exact absurd rfl hr
  obtain ⟨m, h1, h2⟩ := key
  simp only [psnr, h1, h2, ok_bind, lt_irrefl, gt_iff_lt, if_false]
  congr 1
  refine ext_get rfl ?_
  intro jx hjx
  have hjx' : InB m.shape jx := hjx
  rw [get_map _ _ (by exact hjx), get_map _ _ hjx', get_map _ _ hjx', Real.logb_mul hc.ne' hmax.ne',
    Real.logb_mul (by positivity) (hpos m h1 jx hjx').ne', Real.logb_pow]
  push_cast
  ring

end

/-! ## concrete cases -/

namespace MseExample

def x : Tensor ℚ := ⟨[2, 3], [1, 2, 3, 4, 5, 6], rfl⟩
def y : Tensor ℚ := ⟨[2, 3], [1, 0, 3, 4, 5, 2], rfl⟩

/-- the mean over the last axis -/
example : mse .mean x y (.int (-1)) = .ok ⟨[2], [4 / 3, 16 / 3], rfl⟩ := by decide +kernel

/-- the sum over both -/
example : mse .sum x y .none = .ok (Tensor.scalar 20) := by decide +kernel

/-- no axes named: all of them are reduced -/
example : mse .mean x y (.seq []) = .ok (Tensor.scalar (10 / 3)) := by decide +kernel

example : mse .none x y (.int 0) = .ok ⟨[2, 3], [0, 4, 0, 0, 0, 16], rfl⟩ := by decide +kernel

example : axesOf MseExample.x.ndim (.int (-1)) = some [1] ∧ [1].Nodup ∧ (∀ k < MseExample.x.ndim, 0 < MseExample.x.shape.getD k 0) := by decide

/-- a PSNR of 20 dB -/
example : psnr 1 0 .mean ⟨[2], [1, 0], rfl⟩ ⟨[2], [0.9, 0.1], rfl⟩ .none = .ok (Tensor.scalar 20) := by
  have h := (C55_total (x := (⟨[2], [1, 0], rfl⟩ : Tensor ℝ)) (y := ⟨[2], [0.9, 0.1], rfl⟩) rfl).2
  have e : ((indices [2]).map fun ix => ((⟨[2], [1, 0], rfl⟩ : Tensor ℝ).get ix - (⟨[2], [0.9, 0.1], rfl⟩ : Tensor ℝ).get ix) ^ 2).sum /
      (numel [2] : ℝ) = 1 / 100 := by
    simp [indices, List.range_succ, Tensor.get, ravel, numel]
    norm_num
  rw [e] at h
  simp only [psnr, h, ok_bind, lt_irrefl, gt_iff_lt, if_false, Tensor.scalar, Tensor.map, List.map_cons, List.map_nil]
  have : Real.logb 10 (1 / 100) = -2 := by
    rw [show (1 / 100 : ℝ) = 10 ^ (-2 : ℝ) by rw [Real.rpow_neg (by norm_num)]; norm_num]
    exact Real.logb_rpow (by norm_num) (by norm_num)
  simp only [this, Real.logb_one]
  norm_num

end MseExample

end TI
