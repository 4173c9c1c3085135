import Verif.Proofs.Geometry
import Verif.Props.Parts

/-!
# Geometry of the squared error: C117
-/

set_option linter.unusedSectionVars false

namespace TI
open Tensor Spec

section
variable {α : Type} [Field α] [LinearOrder α] [IsStrictOrderedRing α] {x x' y : Tensor α} {ax : Axes} {axes : List Nat}

/-- **C117.** The error of a mixture of two predictions is the mixture of their errors, less their distance: for every reduction and entry. -/
theorem C117_mixture {r : Reduction} (hr : r ≠ .unknown) (h : y.shape = x.shape) (h' : x'.shape = x.shape) (hax : axesOf x.ndim ax = some axes)
    (hnd : axes.Nodup) (l : α) :
    ∃ e1 e2 d e, mse r x y ax = .ok e1 ∧ mse r x' y ax = .ok e2 ∧ mse r x x' ax = .ok d ∧ mse r (lincomb l x (1 - l) x') y ax = .ok e ∧
      e1.shape = e.shape ∧ e2.shape = e.shape ∧ d.shape = e.shape ∧
      ∀ jx, InB e.shape jx → e.get jx = l * e1.get jx + (1 - l) * e2.get jx - l * (1 - l) * d.get jx := by
  obtain ⟨S, L, k, _, hL, hf⟩ := mse_form hr hax hnd
  refine ⟨_, _, _, _, hf x y rfl h, hf x' y h' h, hf x x' rfl h', hf (lincomb l x (1 - l) x') y rfl h, rfl, rfl, rfl, ?_⟩
  intro jx hj
  have hj' : InB S jx := hj
  rw [get_ofFn hj', get_ofFn hj', get_ofFn hj', get_ofFn hj']
  have e : ((L jx).map fun ix => ((lincomb l x (1 - l) x').get ix - y.get ix) ^ 2) = (L jx).map fun ix => (l * x.get ix + (1 - l) * x'.get ix - y.get ix) ^ 2 := by
    apply List.map_congr_left
    intro ix hix
    rw [lincomb, get_ofFn (hL jx hj' ix hix)]
  rw [e, sum_sq_mix (L jx) l x.get x'.get y.get]
  ring

/-- **C117**: so averaging predictions is never worse than the same average of their errors, and not worse than the worse one. -/
theorem C117_convex {r : Reduction} (hr : r ≠ .unknown) (h : y.shape = x.shape) (h' : x'.shape = x.shape) (hax : axesOf x.ndim ax = some axes)
    (hnd : axes.Nodup) {l : α} (h0 : 0 ≤ l) (h1 : l ≤ 1) :
    ∃ e1 e2 e, mse r x y ax = .ok e1 ∧ mse r x' y ax = .ok e2 ∧ mse r (lincomb l x (1 - l) x') y ax = .ok e ∧ e1.shape = e.shape ∧
      e2.shape = e.shape ∧ ∀ jx, InB e.shape jx → e.get jx ≤ l * e1.get jx + (1 - l) * e2.get jx ∧ e.get jx ≤ max (e1.get jx) (e2.get jx) := by
  obtain ⟨e1, e2, d, e, a1, a2, a3, a4, s1, s2, s3, hg⟩ := C117_mixture hr h h' hax hnd l
  refine ⟨e1, e2, e, a1, a2, a4, s1, s2, fun jx hj => ?_⟩
  have hd := C55_nonneg r hax a3 jx (by rw [s3]; exact hj)
  have h2 : 0 ≤ l * (1 - l) * d.get jx := mul_nonneg (mul_nonneg h0 (sub_nonneg.2 h1)) hd
  have h3 : e.get jx ≤ l * e1.get jx + (1 - l) * e2.get jx := by rw [hg jx hj]; linarith
  refine ⟨h3, h3.trans ?_⟩
  have m1 := mul_le_mul_of_nonneg_left (le_max_left (e1.get jx) (e2.get jx)) h0
  have m2 := mul_le_mul_of_nonneg_left (le_max_right (e1.get jx) (e2.get jx)) (sub_nonneg.2 h1)
  linarith

/-- **C117.** The error of the whole is the square of the difference of the mean brightnesses plus the error without these means. -/
theorem C117_bias (h : y.shape = x.shape) (hne : indices x.shape ≠ []) :
    ∃ e, mse .mean (x.map (· - Spec.mean x.data)) (y.map (· - Spec.mean y.data)) .none = .ok (.scalar e) ∧
      mse .mean x y .none = .ok (.scalar ((Spec.mean x.data - Spec.mean y.data) ^ 2 + e)) ∧ 0 ≤ e := by
  have e1 := (C55_total h.symm).2
  have e2 := (C55_total (x := x.map (· - Spec.mean x.data)) (y := y.map (· - Spec.mean y.data)) h.symm).2
  refine ⟨_, e2, ?_, ?_⟩
  · rw [e1]
    refine congrArg (fun r => Except.ok (Tensor.scalar r)) ?_
    have hg : ((indices x.shape).map fun ix => ((x.map (· - Spec.mean x.data)).get ix - (y.map (· - Spec.mean y.data)).get ix) ^ 2) =
        (indices x.shape).map fun ix => (x.get ix - y.get ix - (Spec.mean x.data - Spec.mean y.data)) ^ 2 := by
      apply List.map_congr_left
      intro ix hix
      rw [get_map _ _ (mem_indices.1 hix), get_map _ _ (by rw [h]; exact mem_indices.1 hix)]
      ring
    change _ = _ + ((indices x.shape).map fun ix => ((x.map (· - Spec.mean x.data)).get ix - (y.map (· - Spec.mean y.data)).get ix) ^ 2).sum / (numel x.shape : α)
    rw [hg]
    have hm : Spec.mean x.data - Spec.mean y.data = ((indices x.shape).map fun ix => x.get ix - y.get ix).sum / (numel x.shape : α) := by
      rw [data_eq_map_get x, data_eq_map_get y, h, ← mean_sub_map, Spec.mean, List.length_map, indices_length]
    have hN : (numel x.shape : α) ≠ 0 := by
      rw [← indices_length, Nat.cast_ne_zero]
      exact fun h0 => hne (List.length_eq_zero_iff.1 h0)
    have hs : ∀ (m : α) (L : List (List Nat)), (L.map fun ix => (x.get ix - y.get ix - m) ^ 2).sum =
        (L.map fun ix => (x.get ix - y.get ix) ^ 2).sum - 2 * m * (L.map fun ix => x.get ix - y.get ix).sum + L.length * m ^ 2 := by
      intro m L
      induction L with
      | nil => simp
      | cons a L ih =>
        simp only [List.map_cons, List.sum_cons, ih, List.length_cons, Nat.cast_add, Nat.cast_one]
        ring
    rw [hs, indices_length]
    have hm' := hm
    rw [eq_div_iff hN] at hm'
    rw [← hm']
    field_simp
    ring
  · exact div_nonneg (sum_sq_nonneg _ _) (Nat.cast_nonneg _)

/-- **C117**: hence the mean is the best constant prediction: any other constant is worse by the square of its distance from the mean. -/
theorem C117_best_constant (hne : indices x.shape ≠ []) (k : α) :
    ∃ e, mse .mean x (ofFn x.shape fun _ => Spec.mean x.data) .none = .ok (.scalar e) ∧
      mse .mean x (ofFn x.shape fun _ => k) .none = .ok (.scalar (e + (Spec.mean x.data - k) ^ 2)) := by
  have hmean : ∀ k : α, Spec.mean (ofFn x.shape fun _ => k).data = k := by
    intro k
    apply mean_constant
    · simpa [ofFn] using hne
    · simp [ofFn]
  have hmap : ∀ k : α, (ofFn x.shape fun _ => k).map (· - Spec.mean (ofFn x.shape fun _ => k).data) = ofFn x.shape fun _ => 0 := by
    intro k
    rw [hmean, map_ofFn]
    apply ofFn_congr
    intro _ _
    exact sub_self k
  obtain ⟨e, a1, a2, _⟩ := C117_bias (x := x) (y := ofFn x.shape fun _ => Spec.mean x.data) rfl hne
  obtain ⟨e', b1, b2, _⟩ := C117_bias (x := x) (y := ofFn x.shape fun _ => k) rfl hne
  rw [hmap] at a1 b1
  have : e = e' := by
    have := Except.ok.inj (a1.symm.trans b1)
    simpa [Tensor.scalar] using congrArg Tensor.data this
  subst this
  rw [hmean] at a2 b2
  refine ⟨e, ?_, ?_⟩
  · rw [a2]
    simp
  · rw [b2, add_comm]

/-- **C117.** Samples that differ by at most `δ` give mean errors of at most `δ²`; and a mean error bounds every single error: it is at most the number
of samples times as large. -/
theorem C117_bounds (h : y.shape = x.shape) (hax : axesOf x.ndim ax = some axes) (hnd : axes.Nodup) :
    ∃ e, mse .mean x y ax = .ok e ∧ (∀ δ, Close δ x y → ∀ jx, InB e.shape jx → e.get jx ≤ δ ^ 2) ∧
      ∀ ix, InB x.shape ix → (x.get ix - y.get ix) ^ 2 ≤
        ((collected x.shape (reducedAxes x.ndim axes) (onKept (reducedAxes x.ndim axes) ix)).length : α) * e.get (onKept (reducedAxes x.ndim axes) ix) := by
  refine ⟨_, C55_mean h.symm hax hnd, ?_, ?_⟩
  · intro δ hc jx hj
    have hj' : InB (onKept (reducedAxes x.ndim axes) x.shape) jx := hj
    rw [get_ofFn hj']
    by_cases hl : collected x.shape (reducedAxes x.ndim axes) jx = []
    · rw [hl]
      simp only [Spec.mean, List.map_nil, List.sum_nil, zero_div]
      exact sq_nonneg _
    · refine (mean_between (lo := 0) (by simpa using hl) ?_).2
      intro a ha
      obtain ⟨ix, hix, rfl⟩ := List.mem_map.1 ha
      have := hc.2 ix (mem_collected.1 hix).1
      refine ⟨sq_nonneg _, ?_⟩
      rw [← sq_abs]
      exact pow_le_pow_left₀ (abs_nonneg _) this 2
  · intro ix hix
    rw [get_ofFn (onKept_inB hix), Spec.mean, List.length_map]
    have hm : ix ∈ collected x.shape (reducedAxes x.ndim axes) (onKept (reducedAxes x.ndim axes) ix) := mem_collected.2 ⟨hix, rfl⟩
    have hl : ((collected x.shape (reducedAxes x.ndim axes) (onKept (reducedAxes x.ndim axes) ix)).length : α) ≠ 0 := by
      rw [Nat.cast_ne_zero]
      exact fun h0 => by rw [List.length_eq_zero_iff.1 h0] at hm; simp at hm
    rw [mul_div_cancel₀ _ hl]
    refine List.single_le_sum ?_ _ (List.mem_map.2 ⟨ix, hm, rfl⟩)
    intro a ha
    obtain ⟨i, _, rfl⟩ := List.mem_map.1 ha
    exact sq_nonneg _

end

section
variable {x y z : Tensor ℝ} {ax : Axes} {axes : List Nat}

/-- **C117.** The roots of squared errors obey the triangle inequality, for every reduction and entry. -/
theorem C117_triangle {r : Reduction} (hr : r ≠ .unknown) (h : y.shape = x.shape) (h' : z.shape = x.shape) (hax : axesOf x.ndim ax = some axes)
    (hnd : axes.Nodup) :
    ∃ a b d, mse r x z ax = .ok a ∧ mse r x y ax = .ok b ∧ mse r y z ax = .ok d ∧ b.shape = a.shape ∧ d.shape = a.shape ∧
      ∀ jx, InB a.shape jx → Real.sqrt (a.get jx) ≤ Real.sqrt (b.get jx) + Real.sqrt (d.get jx) := by
  obtain ⟨S, L, k, hk, _, hf⟩ := mse_form hr hax hnd
  refine ⟨_, _, _, hf x z rfl h', hf x y rfl h, hf y z h h', rfl, rfl, ?_⟩
  intro jx hj
  have hj' : InB S jx := hj
  rw [get_ofFn hj', get_ofFn hj', get_ofFn hj']
  exact sqrt_sum_le (L jx) (hk jx) x.get y.get z.get

/-- **C117.** If all samples differ by at most `δ` the peak signal-to-noise ratio is at least that of the error `δ²`. -/
theorem C117_psnr_close {maxValue eps δ : ℝ} (hmax : 0 < maxValue) (hax : axesOf x.ndim ax = some axes) (hnd : axes.Nodup)
    (hc : Close δ x y) (hpos : ∀ e, mse .mean x y ax = .ok e → ∀ jx, InB e.shape jx → 0 < e.get jx + max eps 0) :
    ∃ z, psnr maxValue eps .mean x y ax = .ok z ∧ ∀ jx, InB z.shape jx → 10 * Real.logb 10 (maxValue ^ 2 / (δ ^ 2 + max eps 0)) ≤ z.get jx := by
  obtain ⟨e, he, hb, _⟩ := C117_bounds hc.1 hax hnd
  obtain ⟨z, hz, hzs, hzg⟩ := C56_formula he hmax eps (hpos e he)
  refine ⟨z, hz, fun jx hj => ?_⟩
  rw [hzs] at hj
  rw [hzg jx hj]
  have h1 := hpos e he jx hj
  have h2 := hb δ hc jx hj
  have h3 : maxValue ^ 2 / (δ ^ 2 + max eps 0) ≤ maxValue ^ 2 / (e.get jx + max eps 0) :=
    div_le_div_of_nonneg_left (by positivity) h1 (by linarith)
  have h4 : 0 < maxValue ^ 2 / (δ ^ 2 + max eps 0) := div_pos (by positivity) (by linarith)
  have := (Real.logb_le_logb (b := 10) (by norm_num) h4 (by linarith)).2 h3
  linarith

/-- **C117.** Mixing two predictions gives a ratio not below the smaller one of theirs. -/
theorem C117_psnr_mixture {maxValue eps : ℝ} (hmax : 0 < maxValue) {x' : Tensor ℝ} (h : y.shape = x.shape) (h' : x'.shape = x.shape)
    (hax : axesOf x.ndim ax = some axes) (hnd : axes.Nodup) {r : Reduction} (hr : r ≠ .unknown) (heps : 0 < eps) {l : ℝ} (h0 : 0 ≤ l) (h1 : l ≤ 1) :
    ∃ z1 z2 z, psnr maxValue eps r x y ax = .ok z1 ∧ psnr maxValue eps r x' y ax = .ok z2 ∧
      psnr maxValue eps r (lincomb l x (1 - l) x') y ax = .ok z ∧ z1.shape = z.shape ∧ z2.shape = z.shape ∧
      ∀ jx, InB z.shape jx → min (z1.get jx) (z2.get jx) ≤ z.get jx := by
  obtain ⟨e1, e2, e, a1, a2, a3, s1, s2, hg⟩ := C117_convex hr h h' hax hnd h0 h1
  have hm : max eps 0 = eps := max_eq_left heps.le
  have p : ∀ {u v w : Tensor ℝ}, u.ndim = x.ndim → mse r u v ax = .ok w → ∀ jx, InB w.shape jx → 0 < w.get jx + max eps 0 := by
    intro u v w hu hw jx hj
    have := C55_nonneg r (by rw [hu]; exact hax) hw jx hj
    rw [hm]
    linarith
  have n' : x'.ndim = x.ndim := by rw [ndim, ndim, h']
  obtain ⟨z1, b1, t1, g1⟩ := C56_formula a1 hmax eps (p rfl a1)
  obtain ⟨z2, b2, t2, g2⟩ := C56_formula a2 hmax eps (p n' a2)
  obtain ⟨z, b3, t3, g3⟩ := C56_formula a3 hmax eps (p (u := lincomb l x (1 - l) x') rfl a3)
  refine ⟨z1, z2, z, b1, b2, b3, by rw [t1, s1, t3], by rw [t2, s2, t3], fun jx hj => ?_⟩
  rw [t3] at hj
  have hj1 : InB e1.shape jx := by rw [s1]; exact hj
  have hj2 : InB e2.shape jx := by rw [s2]; exact hj
  have q1 := p rfl a1 jx hj1
  have q2 := p n' a2 jx hj2
  have q3 := p (u := lincomb l x (1 - l) x') rfl a3 jx hj
  rw [g3 jx hj]
  have key : ∀ w : ℝ, 0 < w + max eps 0 → e.get jx ≤ w →
      10 * Real.logb 10 (maxValue ^ 2 / (w + max eps 0)) ≤ 10 * Real.logb 10 (maxValue ^ 2 / (e.get jx + max eps 0)) := by
    intro w hw hle
    have h3 : maxValue ^ 2 / (w + max eps 0) ≤ maxValue ^ 2 / (e.get jx + max eps 0) := div_le_div_of_nonneg_left (by positivity) q3 (by linarith)
    have h4 : 0 < maxValue ^ 2 / (w + max eps 0) := div_pos (by positivity) hw
    have := (Real.logb_le_logb (b := 10) (by norm_num) h4 (by linarith)).2 h3
    linarith
  rcases le_max_iff.1 (hg jx hj).2 with hle | hle
  · exact (min_le_left _ _).trans (by rw [g1 jx hj1]; exact key _ q1 hle)
  · exact (min_le_right _ _).trans (by rw [g2 jx hj2]; exact key _ q2 hle)

end

/-! ## examples -/

/-- errors 10/3 and 19/3, mixed half and half -/
example : mse .mean MseExample.x MseExample.y .none = .ok (.scalar (10 / 3)) ∧
    mse .mean (MseExample.x.map (· + 1)) MseExample.y .none = .ok (.scalar (19 / 3)) ∧
    mse .mean MseExample.x (MseExample.x.map (· + 1)) .none = .ok (.scalar 1) ∧
    mse .mean (lincomb (1 / 2) MseExample.x (1 - 1 / 2) (MseExample.x.map (· + 1))) MseExample.y .none =
      .ok (.scalar (1 / 2 * (10 / 3) + (1 - 1 / 2) * (19 / 3) - 1 / 2 * (1 - 1 / 2) * 1)) := by decide +kernel

/-- the mean 7/2 has the error 35/12; the constant 2 is worse by 9/4 -/
example : Spec.mean MseExample.x.data = 7 / 2 ∧ mse .mean MseExample.x (ofFn [2, 3] fun _ => 7 / 2) .none = .ok (.scalar (35 / 12)) ∧
    mse .mean MseExample.x (ofFn [2, 3] fun _ => 2) .none = .ok (.scalar (35 / 12 + (7 / 2 - 2) ^ 2)) := by decide +kernel

example := C117_bias (x := MseExample.x) (y := MseExample.y) rfl (by decide)
example := C117_best_constant (x := MseExample.x) (by decide) 2

namespace MetricCase
variable {x y z : Tensor ℝ} (hx : x.shape = [2, 24, 16]) (hy : y.shape = x.shape) (hz : z.shape = x.shape)

example := C117_mixture (r := .sum) (by decide) hy hz (axes hx) (by decide) (1 / 3)
example := C117_convex (r := .none) (by decide) hy hz (axes hx) (by decide) (l := 1 / 3) (by norm_num) (by norm_num)
example := C117_bounds hy (axes hx) (by decide)
example := C117_triangle (r := .mean) (by decide) hy hz (axes hx) (by decide)
example := C117_psnr_mixture (maxValue := 255) (eps := 1 / 100) (by norm_num) hy hz (axes hx) (by decide) (r := .mean) (by decide) (by norm_num) (l := 1 / 3)
  (by norm_num) (by norm_num)
example (hc : Close (1 / 10) x y) := C117_psnr_close (maxValue := 255) (eps := 1 / 100) (by norm_num) (axes hx) (by decide) hc (by
  intro e he jx hj
  have := C55_nonneg .mean (axes hx) he jx hj
  have : (0 : ℝ) < max (1 / 100) 0 := by norm_num
  linarith)

end MetricCase
end TI
