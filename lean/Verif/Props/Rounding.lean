import Verif.Proofs.Rounding
import Verif.Props.Adjoint
import Verif.Props.Mse

/-!
# Rounding errors of pooling and of the mean squared error: C130
-/

set_option linter.unusedSectionVars false

namespace TI
open Tensor Spec

section
variable {α : Type} [Field α] [LinearOrder α] [IsStrictOrderedRing α] {u : α} {dot dot' : Nat → List Nat → List α → List α → α}
variable {pool : SepPool α} {g : PoolArgs α} {m : Nat} {gp : PadArgs α} {p : Padder α} {padder q : Option (Padder α)} {x y : Tensor α}
variable {ax : Axes} {axes : List Nat}

/-- **C130.** Whatever the arithmetic of the scalar products: the same exception or a result of the same shape, and the same state of the padder.  No
assumption on the pooling object, the padder, the image or the axes. -/
theorem C130_outcome (dot : Nat → List Nat → List α → List α → α) (pool : SepPool α) (padder : Option (Padder α)) (junk : List Nat → α) (x : Tensor α)
    (ax : Axes) : (SepPool.forwardWith dot pool padder junk x ax).1 = (SepPool.forward pool padder junk x ax).1 ∧
      (∀ e, (SepPool.forwardWith dot pool padder junk x ax).2 = .error e ↔ (SepPool.forward pool padder junk x ax).2 = .error e) ∧
      ∀ z' z, (SepPool.forwardWith dot pool padder junk x ax).2 = .ok z' → (SepPool.forward pool padder junk x ax).2 = .ok z → z'.shape = z.shape := by
  have key : (SepPool.forwardWith dot pool padder junk x ax).1 = (SepPool.forward pool padder junk x ax).1 ∧
      SameKind (SepPool.forwardWith dot pool padder junk x ax).2 (SepPool.forward pool padder junk x ax).2 := by
    simp only [SepPool.forwardWith, SepPool.forward]
    cases checkAxes x.ndim ax with
    | error e => exact ⟨rfl, rfl⟩
    | ok axes =>
      simp only
      split_ifs with hn
      · obtain ⟨⟨q, r⟩, hr⟩ : ∃ z, SepPool.pad pool padder junk x (.seq axes) = z := ⟨_, rfl⟩
        rw [hr]
        cases r with
        | error e => exact ⟨rfl, rfl⟩
        | ok y => exact ⟨rfl, loopWith_kind dot pool axes 0 rfl⟩
      · exact ⟨rfl, rfl⟩
  refine ⟨key.1, fun e => ?_, fun z' z h' h => ?_⟩
  · have h := key.2
    cases h1 : (SepPool.forwardWith dot pool padder junk x ax).2 <;> cases h2 : (SepPool.forward pool padder junk x ax).2 <;> rw [h1, h2] at h <;>
      simp_all [SameKind]
  · have hk := key.2
    rw [h', h] at hk
    exact hk

theorem matvecWith_exact (x : Tensor α) (w : List α) :
    x.matvecWith (fun _ xs w => ((List.range w.length).map fun j => xs.getD j 0 * w.getD j 0).sum) w = x.matvec w := by
  rw [Tensor.matvecWith, Tensor.matvec]
  split_ifs
  · congr 1
    apply ofFn_congr
    intro ix _
    refine congrArg List.sum (List.map_congr_left fun j hj => ?_)
    have hj := List.mem_range.1 hj
    congr 1
    simp [hj]
  · rfl

/-- **C130**: with exact scalar products it is the code of the other properties. -/
theorem C130_exact (pool : SepPool α) (padder : Option (Padder α)) (junk : List Nat → α) (x : Tensor α) (ax : Axes) :
    SepPool.forwardWith (fun _ _ xs w => ((List.range w.length).map fun j => xs.getD j 0 * w.getD j 0).sum) pool padder junk x ax =
      SepPool.forward pool padder junk x ax := by
  have hs : SepPool.poolStepWith (fun _ _ xs w => ((List.range w.length).map fun j => xs.getD j 0 * w.getD j 0).sum) pool = SepPool.poolStep pool := by
    funext i a x
    simp only [SepPool.poolStepWith, SepPool.poolStep, matvecWith_exact]
  have hl : ∀ (axes : List Int) (i : Nat) (x : Tensor α),
      SepPool.poolLoopWith (fun _ _ xs w => ((List.range w.length).map fun j => xs.getD j 0 * w.getD j 0).sum) pool i axes x = SepPool.poolLoop pool i axes x := by
    intro axes
    induction axes with
    | nil => intro i x; rfl
    | cons a as ih =>
      intro i x
      rw [SepPool.poolLoopWith, SepPool.poolLoop, hs]
      congr 1
      funext y
      exact ih (i + 1) y
  simp only [SepPool.forwardWith, SepPool.forward]
  cases checkAxes x.ndim ax with
  | error e => rfl
  | ok axes =>
    simp only
    split_ifs with hn
    · obtain ⟨⟨q, r⟩, hr⟩ : ∃ z, SepPool.pad pool padder junk x (.seq axes) = z := ⟨_, rfl⟩
      rw [hr]
      cases r with
      | error e => rfl
      | ok y => simp only [hl]
    · rfl

/-- what both calls compute, once the padding has succeeded -/
theorem calls_padded (hb : Built pool g m) (hm : g.isMany = true → axes.length = m) (hax : axesOf x.ndim ax = some axes) {junk : List Nat → α}
    (hy : SepPool.pad pool padder junk x (.seq (castV axes)) = (q, .ok y)) (hf : Fitting y (g.ops axes)) :
    SepPool.forward pool padder junk x ax = (q, .ok (poolSeq y (g.ops axes))) ∧
      SepPool.forwardWith dot pool padder junk x ax = (q, .ok (seqWith dot 0 y (g.ops axes))) := by
  have h := hb.poolIs.1
  obtain ⟨hca, _⟩ := checkAxes_spec hax
  have hnd : pool.ndim = 0 ∨ pool.ndim = ((castV axes).length : Int) := by
    rw [h.ndim]
    split_ifs with hh
    · right; simp [castV, hm hh]
    · left; rfl
  constructor
  · simp only [SepPool.forward, hca, if_pos hnd, hy]
    rw [h.loop_all (fun hh => by rw [hm hh]) hf]
  · simp only [SepPool.forwardWith, hca, if_pos hnd, hy]
    rw [h.loopWith_all dot (fun hh => by rw [hm hh]) hf]

/-- **C130.** The error of a filtered image: if every operation has a relative error of at most `u` and sums are evaluated in any order, every entry of the
result is off by at most `(1 + u)^n - 1` times the entry which the absolute weights make of the absolute values of the padded image.  `n` is the
number of weights of all kernels plus one per kernel. -/
theorem C130_error (hu : 0 ≤ u) (hd : AccurateDot u dot) (hb : Built pool g m) (hm : g.isMany = true → axes.length = m) (hax : axesOf x.ndim ax = some axes)
    {junk : List Nat → α} (hy : SepPool.pad pool padder junk x (.seq (castV axes)) = (q, .ok y)) (hf : Fitting y (g.ops axes)) :
    ∃ z z', SepPool.forward pool padder junk x ax = (q, .ok z) ∧ SepPool.forwardWith dot pool padder junk x ax = (q, .ok z') ∧ z'.shape = z.shape ∧
      ∀ ix, |z'.get ix - z.get ix| ≤ roundingBound u (roundings (g.ops axes)) * (magnitudeOf y (g.ops axes)).get ix := by
  obtain ⟨h1, h2⟩ := calls_padded (dot := dot) hb hm hax hy hf
  have hn := seqWith_near hu hd y (g.ops axes)
  exact ⟨_, _, h1, h2, hn.shape, fun ix => (hn.get ix).1⟩

/-- **C130** for a call with a padder which accepts the image -/
theorem C130_error_same (hu : 0 ≤ u) (hd : AccurateDot u dot) (hb : Built pool g m) (hm : g.isMany = true → axes.length = m) (hc : SameCall g gp x ax axes)
    (hp : Holds p gp) (junk : List Nat → α) :
    ∃ q z z', SepPool.forward pool (some p) junk x ax = (q, .ok z) ∧ SepPool.forwardWith dot pool (some p) junk x ax = (q, .ok z') ∧ z'.shape = z.shape ∧
      ∀ ix, |z'.get ix - z.get ix| ≤
        roundingBound u (roundings (g.ops axes)) * (magnitudeOf (padSeq x (sameOps g gp x.shape axes)) (g.ops axes)).get ix := by
  obtain ⟨z, z', h⟩ := C130_error hu hd hb hm hc.axes_eq (hb.poolIs.1.pad_same hc hm hp junk) hc.poolOps.fitting
  exact ⟨_, z, z', h⟩

/-- **C130** without a padder -/
theorem C130_error_plain (hu : 0 ≤ u) (hd : AccurateDot u dot) (hb : Built pool g m) (hm : g.isMany = true → axes.length = m)
    (hax : axesOf x.ndim ax = some axes) (hf : Fitting x (g.ops axes)) (junk : List Nat → α) :
    ∃ z z', SepPool.forward pool none junk x ax = (none, .ok z) ∧ SepPool.forwardWith dot pool none junk x ax = (none, .ok z') ∧ z'.shape = z.shape ∧
      ∀ ix, |z'.get ix - z.get ix| ≤ roundingBound u (roundings (g.ops axes)) * (magnitudeOf x (g.ops axes)).get ix := by
  obtain ⟨hc, hlt⟩ := checkAxes_spec hax
  refine C130_error hu hd hb hm hax ?_ hf
  rw [SepPool.pad, checkAxes_castV hlt]

/-- **C130**: two ways of evaluating the scalar products differ by at most twice the bound. -/
theorem C130_two_ways (hu : 0 ≤ u) (hd : AccurateDot u dot) (hd' : AccurateDot u dot') (hb : Built pool g m) (hm : g.isMany = true → axes.length = m)
    (hc : SameCall g gp x ax axes) (hp : Holds p gp) (junk : List Nat → α) :
    ∃ q z z', SepPool.forwardWith dot pool (some p) junk x ax = (q, .ok z) ∧ SepPool.forwardWith dot' pool (some p) junk x ax = (q, .ok z') ∧
      z'.shape = z.shape ∧ ∀ ix, |z'.get ix - z.get ix| ≤
        2 * roundingBound u (roundings (g.ops axes)) * (magnitudeOf (padSeq x (sameOps g gp x.shape axes)) (g.ops axes)).get ix := by
  obtain ⟨q, z, z1, e1, e2, e3, e4⟩ := C130_error_same hu hd hb hm hc hp junk
  obtain ⟨q', z', z2, f1, f2, f3, f4⟩ := C130_error_same hu hd' hb hm hc hp junk
  rw [e1] at f1
  obtain ⟨rfl, f0⟩ := Prod.mk.inj f1
  obtain rfl := Except.ok.inj f0
  refine ⟨q, z1, z2, e2, f2, f3.trans e3.symm, fun ix => ?_⟩
  have h1 := e4 ix
  have h2 := f4 ix
  have h3 : |z2.get ix - z1.get ix| ≤ |z2.get ix - z.get ix| + |z1.get ix - z.get ix| := by
    have := abs_sub (z2.get ix - z.get ix) (z1.get ix - z.get ix)
    rwa [show z2.get ix - z.get ix - (z1.get ix - z.get ix) = z2.get ix - z1.get ix by ring] at this
  linarith

theorem slide_abs_le {A : Tensor α} {B : α} (h : ∀ n, A.data.getD n 0 ≤ B) (hB : 0 ≤ B) (o : PoolOp α) (n : Nat) :
    (slide A (absOp o)).data.getD n 0 ≤ (if o.kernel = [] then 1 else (o.kernel.map abs).sum) * B := by
  by_cases hk : o.kernel = []
  · simpa [slide, absOp, hk] using h n
  have hk' : (absOp o).kernel ≠ [] := by simpa [absOp] using hk
  rw [slide, if_neg hk', if_neg hk]
  rcases entry_ofFn (A.shape.set (absOp o).axis (windowCount (A.shape.getD (absOp o).axis 0) (absOp o).kernel.length (absOp o).stride 1)) (fun ix =>
    ((List.range (absOp o).kernel.length).map fun j => (absOp o).kernel.getD j 0 * A.get (ix.set (absOp o).axis (ix.getD (absOp o).axis 0 * (absOp o).stride + j))).sum) n
    with ⟨_, e⟩ | ⟨_, e⟩
  · rw [e]
    generalize (indices (A.shape.set (absOp o).axis (windowCount (A.shape.getD (absOp o).axis 0) (absOp o).kernel.length (absOp o).stride 1))).getD n [] = ix
    have e2 : (o.kernel.map abs).sum * B = ((List.range (absOp o).kernel.length).map fun j => (absOp o).kernel.getD j 0 * B).sum := by
      rw [List.sum_map_mul_right]
      congr 1
      conv_lhs => rw [← map_getD_range (o.kernel.map abs)]
      rfl
    rw [e2]
    apply List.sum_le_sum
    intro j hj
    refine mul_le_mul_of_nonneg_left (h _) ?_
    have hj : j < o.kernel.length := by simpa [absOp] using hj
    have : (absOp o).kernel.getD j 0 = |o.kernel.getD j 0| := by simp [absOp, hj]
    rw [this]
    exact abs_nonneg _
  · rw [e]
    exact mul_nonneg (absSum_nonneg' _) hB

theorem magnitude_le : ∀ (ops : List (PoolOp α)) {A : Tensor α} {B : α}, (∀ n, A.data.getD n 0 ≤ B) → 0 ≤ B → ∀ n,
    (poolSeq A (ops.map absOp)).data.getD n 0 ≤ gain ops * B
  | [], A, B, h, _, n => by simpa [poolSeq, gain] using h n
  | o :: ops, A, B, h, hB, n => by
    have hp : 0 ≤ (if o.kernel = [] then 1 else (o.kernel.map abs).sum) * B := by
      refine mul_nonneg ?_ hB
      split_ifs
      · exact zero_le_one
      · exact absSum_nonneg' _
    have := magnitude_le ops (slide_abs_le h hB o) hp n
    rw [show gain (o :: ops) = (if o.kernel = [] then 1 else (o.kernel.map abs).sum) * gain ops from List.prod_cons ..]
    refine this.trans (le_of_eq ?_)
    ring

/-- **C130**: if the padded image stays within `B`, the error is at most the bound times the gain of the filter times `B`. -/
theorem C130_uniform (hu : 0 ≤ u) (hd : AccurateDot u dot) (hb : Built pool g m) (hm : g.isMany = true → axes.length = m) (hax : axesOf x.ndim ax = some axes)
    {junk : List Nat → α} (hy : SepPool.pad pool padder junk x (.seq (castV axes)) = (q, .ok y)) (hf : Fitting y (g.ops axes)) {B : α}
    (hB : 0 ≤ B) (hyB : ∀ v ∈ y.data, |v| ≤ B) :
    ∃ z z', SepPool.forward pool padder junk x ax = (q, .ok z) ∧ SepPool.forwardWith dot pool padder junk x ax = (q, .ok z') ∧ z'.shape = z.shape ∧
      ∀ ix, |z'.get ix - z.get ix| ≤ roundingBound u (roundings (g.ops axes)) * (gain (g.ops axes) * B) := by
  obtain ⟨z, z', h1, h2, h3, h4⟩ := C130_error hu hd hb hm hax hy hf
  refine ⟨z, z', h1, h2, h3, fun ix => (h4 ix).trans (mul_le_mul_of_nonneg_left ?_ (roundingBound_nonneg hu _))⟩
  refine magnitude_le _ ?_ hB _
  intro n
  simp only [Tensor.map, List.getD_eq_getElem?_getD, List.getElem?_map]
  cases hn : y.data[n]? with
  | none => simpa using hB
  | some v => exact hyB v (List.mem_of_getElem? hn)

/-- **C130**: non-negative weights and a non-negative padded image: the computed image has a small relative error at every position. -/
theorem C130_relative (hu : 0 ≤ u) (hd : AccurateDot u dot) (hb : Built pool g m) (hm : g.isMany = true → axes.length = m) (hax : axesOf x.ndim ax = some axes)
    {junk : List Nat → α} (hy : SepPool.pad pool padder junk x (.seq (castV axes)) = (q, .ok y)) (hf : Fitting y (g.ops axes))
    (hw : ∀ i < axes.length, ∀ a ∈ (g.op axes i).kernel, 0 ≤ a) (hy0 : ∀ v ∈ y.data, 0 ≤ v) :
    ∃ z z', SepPool.forward pool padder junk x ax = (q, .ok z) ∧ SepPool.forwardWith dot pool padder junk x ax = (q, .ok z') ∧ z'.shape = z.shape ∧
      ∀ ix, Rounds (roundingBound u (roundings (g.ops axes))) (z.get ix) (z'.get ix) := by
  obtain ⟨h1, h2⟩ := calls_padded (dot := dot) hb hm hax hy hf
  have hn := seqWith_near hu hd y (g.ops axes)
  have e1 : y.map abs = y := by
    obtain ⟨s, d, hw⟩ := y
    simp only [Tensor.map, Tensor.mk.injEq, true_and]
    conv_rhs => rw [← List.map_id d]
    exact List.map_congr_left fun v hv => abs_of_nonneg (hy0 v hv)
  have e2 : (g.ops axes).map absOp = g.ops axes := by
    conv_rhs => rw [← List.map_id (g.ops axes)]
    refine List.map_congr_left fun o ho => ?_
    obtain ⟨i, hi, rfl⟩ := mem_ops.1 ho
    have : (g.op axes i).kernel.map abs = (g.op axes i).kernel := by
      conv_rhs => rw [← List.map_id (g.op axes i).kernel]
      exact List.map_congr_left fun a ha => abs_of_nonneg (hw i hi a ha)
    rw [absOp, this]
    rfl
  have e3 : magnitudeOf y (g.ops axes) = poolSeq y (g.ops axes) := by rw [magnitudeOf, e1, e2]
  refine ⟨_, _, h1, h2, hn.shape, fun ix => ?_⟩
  have h4 := hn.get ix
  rw [e3] at h4
  rw [Rounds, abs_of_nonneg ((abs_nonneg _).trans h4.2)]
  exact h4.1

/-- **C130**: where the absolute weights see only zeros, the computed value is exactly zero; in particular a zero padded image has a zero result. -/
theorem C130_zero (hu : 0 ≤ u) (hd : AccurateDot u dot) (hb : Built pool g m) (hm : g.isMany = true → axes.length = m) (hax : axesOf x.ndim ax = some axes)
    {junk : List Nat → α} (hy : SepPool.pad pool padder junk x (.seq (castV axes)) = (q, .ok y)) (hf : Fitting y (g.ops axes)) :
    ∃ z z', SepPool.forward pool padder junk x ax = (q, .ok z) ∧ SepPool.forwardWith dot pool padder junk x ax = (q, .ok z') ∧
      (∀ ix, (magnitudeOf y (g.ops axes)).get ix = 0 → z.get ix = 0 ∧ z'.get ix = 0) ∧
      ((∀ v ∈ y.data, v = 0) → ∀ ix, z.get ix = 0 ∧ z'.get ix = 0) := by
  obtain ⟨h1, h2⟩ := calls_padded (dot := dot) hb hm hax hy hf
  have hn := seqWith_near hu hd y (g.ops axes)
  have key : ∀ ix, (magnitudeOf y (g.ops axes)).get ix ≤ 0 → (poolSeq y (g.ops axes)).get ix = 0 ∧ (seqWith dot 0 y (g.ops axes)).get ix = 0 := by
    intro ix h0
    obtain ⟨h3, h4⟩ := hn.get ix
    have h5 : (poolSeq y (g.ops axes)).get ix = 0 := abs_nonpos_iff.1 (h4.trans h0)
    rw [h5, sub_zero] at h3
    exact ⟨h5, abs_nonpos_iff.1 (h3.trans (mul_nonpos_of_nonneg_of_nonpos (roundingBound_nonneg hu _) h0))⟩
  refine ⟨_, _, h1, h2, fun ix h => key ix h.le, fun h ix => key ix ?_⟩
  have := magnitude_le (g.ops axes) (A := y.map abs) (B := 0) ?_ le_rfl (ravel (magnitudeOf y (g.ops axes)).shape ix)
  · rwa [mul_zero] at this
  intro n
  simp only [Tensor.map, List.getD_eq_getElem?_getD, List.getElem?_map]
  cases hn : y.data[n]? with
  | none => simp
  | some v => simp [h v (List.mem_of_getElem? hn)]

/-- **C130**: the bound is about `n u`. -/
theorem C130_small (hu : 0 ≤ u) (n : Nat) (h : (n : α) * u < 1) : (n : α) * u ≤ roundingBound u n ∧ roundingBound u n ≤ n * u / (1 - n * u) := by
  refine ⟨?_, roundingBound_le hu n h⟩
  have := one_add_mul_le_pow (show (-2 : α) ≤ u by linarith) n
  rw [roundingBound]
  linarith

/-! ### the mean squared error -/

variable {sub : α → α → α} {square : α → α} {total average : List α → α}

theorem square_error (hu : 0 ≤ u) (ho : AccurateOps u sub square total average) (a b : α) :
    |square (sub a b) - (a - b) ^ 2| ≤ roundingBound u 3 * (a - b) ^ 2 := by
  have h1 := ho.sub a b
  have h2 := ho.square (sub a b)
  rw [Rounds] at h1 h2
  generalize sub a b = d at *
  generalize square d = s at *
  generalize a - b = t at *
  rw [abs_of_nonneg (sq_nonneg d)] at h2
  have h3 : |d| ≤ (1 + u) * |t| := by
    have := abs_sub_abs_le_abs_sub d t
    linarith
  have h4 : d ^ 2 ≤ (1 + u) ^ 2 * t ^ 2 := by
    rw [← sq_abs d, ← sq_abs t, ← mul_pow]
    exact pow_le_pow_left₀ (abs_nonneg d) h3 2
  have h5 : |d ^ 2 - t ^ 2| ≤ ((1 + u) ^ 2 - 1) * t ^ 2 := by
    have e : d ^ 2 - t ^ 2 = (d - t) * (d - t + 2 * t) := by ring
    rw [e, abs_mul]
    have h6 : |d - t + 2 * t| ≤ (u + 2) * |t| := by
      refine (abs_add_le _ _).trans ?_
      rw [abs_mul, abs_two]
      linarith
    calc |d - t| * |d - t + 2 * t| ≤ (u * |t|) * ((u + 2) * |t|) := mul_le_mul h1 h6 (abs_nonneg _) (mul_nonneg hu (abs_nonneg t))
      _ = ((1 + u) ^ 2 - 1) * t ^ 2 := by rw [← sq_abs t]; ring
  have h7 : |s - t ^ 2| ≤ |s - d ^ 2| + |d ^ 2 - t ^ 2| := by
    have := abs_add_le (s - d ^ 2) (d ^ 2 - t ^ 2)
    rwa [sub_add_sub_cancel] at this
  have h8 := mul_le_mul_of_nonneg_left h4 hu
  rw [roundingBound]
  nlinarith

/-- a computed sum of squares -/
theorem squares_error {β : Type} (hu : 0 ≤ u) (ho : AccurateOps u sub square total average) (f h : β → α) (l : List β) {s : α}
    (hs : Evaluates u (l.map fun i => square (sub (f i) (h i))) s) :
    |s - (l.map fun i => (f i - h i) ^ 2).sum| ≤ roundingBound u (l.length + 3) * (l.map fun i => (f i - h i) ^ 2).sum := by
  cases l with
  | nil => exact absurd rfl hs.ne_nil
  | cons b l =>
  have e : ∀ F : β → α, (b :: l).map F = (List.range (b :: l).length).map fun j => F ((b :: l).getD j b) := by
    intro F
    apply List.ext_getElem
    · simp
    · intro n h1 h2
      have hn : n < (b :: l).length := by simpa using h1
      simp only [List.getElem_map, List.getElem_range, List.getD_eq_getElem?_getD, List.getElem?_eq_getElem hn, Option.getD_some]
  rw [e] at hs
  rw [e fun i => (f i - h i) ^ 2]
  have := Evaluates.chain hu (e := roundingBound u 3) (f := fun j => (f ((b :: l).getD j b) - h ((b :: l).getD j b)) ^ 2)
    (F := fun j => (f ((b :: l).getD j b) - h ((b :: l).getD j b)) ^ 2) hs (fun j _ => square_error hu ho _ _)
    (fun j _ => (abs_of_nonneg (sq_nonneg _)).le)
  refine this.trans (le_of_eq ?_)
  rw [roundingBound, roundingBound, pow_add]
  ring

theorem mseWith_run (h : x.shape = y.shape) (hax : axesOf x.ndim ax = some axes) (r : Reduction) :
    mseWith sub square total average r x y ax = (match r with
      | .mean => (ofFn x.shape fun ix => square (sub (x.get ix) (y.get ix))).reduce average (castV axes) false
      | .sum => (ofFn x.shape fun ix => square (sub (x.get ix) (y.get ix))).reduce total (castV axes) false
      | .none => .ok (ofFn x.shape fun ix => square (sub (x.get ix) (y.get ix)))
      | .unknown => .error .value) := by
  rw [mseWith, if_neg (not_not.2 h), (checkAxes_spec hax).1, ok_bind, bop_same h, ok_bind, map_ofFn]
  cases r <;> rfl

/-- number of roundings of one entry of the mean squared error, `n` the number of squares -/
def mseRoundings (r : Reduction) (n : Nat) : Nat :=
  match r with
  | .mean => n + 4
  | .sum => n + 3
  | _ => 3

/-- **C130.** The computed mean squared error has a relative error of at most `(1 + u)^(n + 4) - 1`, with `n` the number of squares in one entry (and
`n + 3` for their sum, `3` without reduction), whatever the order of the additions. -/
theorem C130_mse (hu : 0 ≤ u) (ho : AccurateOps u sub square total average) (h : x.shape = y.shape) (hax : axesOf x.ndim ax = some axes) (hnd : axes.Nodup)
    (hpos : ∀ k < x.ndim, k ∈ reducedAxes x.ndim axes → 0 < x.shape.getD k 0) {r : Reduction} (hr : r ≠ .unknown) :
    ∃ z z', mse r x y ax = .ok z ∧ mseWith sub square total average r x y ax = .ok z' ∧ z'.shape = z.shape ∧
      ∀ jx, InB z.shape jx → 0 ≤ z.get jx ∧
        Rounds (roundingBound u (mseRoundings r (((List.range x.ndim).filter fun k => k ∈ reducedAxes x.ndim axes).map fun k => x.shape.getD k 0).prod))
          (z.get jx) (z'.get jx) := by
  obtain ⟨h1, h2⟩ := checkAxes_spec hax
  have hdrop : ∀ f : List α → α, (ofFn x.shape fun ix => square (sub (x.get ix) (y.get ix))).reduce f (castV axes) false =
      .ok (ofFn (onKept (reducedAxes x.ndim axes) x.shape) fun jx =>
        f ((collected x.shape (reducedAxes x.ndim axes) jx).map fun ix => square (sub (x.get ix) (y.get ix)))) := by
    intro f
    refine (reduce_drop f (x := ofFn x.shape fun ix => square (sub (x.get ix) (y.get ix))) (axes := axes) h2 hnd).trans ?_
    congr 1
    apply ofFn_congr
    intro jx _
    exact congrArg f (List.map_congr_left fun ix hix => get_ofFn (mem_collected.1 hix).1)
  have hnn : ∀ jx, 0 ≤ ((collected x.shape (reducedAxes x.ndim axes) jx).map fun ix => (x.get ix - y.get ix) ^ 2).sum := by
    intro jx
    refine List.sum_nonneg fun a ha => ?_
    obtain ⟨ix, _, rfl⟩ := List.mem_map.1 ha
    exact sq_nonneg _
  cases r with
  | unknown => exact absurd rfl hr
  | none =>
    refine ⟨_, _, C55_none h hax, mseWith_run h hax .none, rfl, fun jx hjx => ?_⟩
    rw [get_ofFn (show InB x.shape jx from hjx), get_ofFn (show InB x.shape jx from hjx)]
    refine ⟨sq_nonneg _, ?_⟩
    rw [Rounds, abs_of_nonneg (sq_nonneg (x.get jx - y.get jx))]
    exact square_error hu ho _ _
  | sum =>
    refine ⟨_, _, C55_sum h hax hnd, (mseWith_run h hax .sum).trans (hdrop total), rfl, fun jx hjx => ?_⟩
    have hjx' : InB (onKept (reducedAxes x.ndim axes) x.shape) jx := hjx
    rw [get_ofFn hjx', get_ofFn hjx']
    refine ⟨hnn jx, ?_⟩
    have hne : collected x.shape (reducedAxes x.ndim axes) jx ≠ [] := collected_ne hpos hjx'
    have hev := ho.total ((collected x.shape (reducedAxes x.ndim axes) jx).map fun ix => square (sub (x.get ix) (y.get ix))) (by simpa using hne)
    have := squares_error hu ho (fun ix => x.get ix) (fun ix => y.get ix) _ hev
    rw [Rounds, abs_of_nonneg (hnn jx)]
    simp only [mseRoundings]
    have hlen : (((List.range x.ndim).filter fun k => k ∈ reducedAxes x.ndim axes).map fun k => x.shape.getD k 0).prod =
      (collected x.shape (reducedAxes x.ndim axes) jx).length := (collected_length hjx').symm
    rw [hlen]
    exact this
  | mean =>
    refine ⟨_, _, C55_mean h hax hnd, (mseWith_run h hax .mean).trans (hdrop average), rfl, fun jx hjx => ?_⟩
    have hjx' : InB (onKept (reducedAxes x.ndim axes) x.shape) jx := hjx
    rw [get_ofFn hjx', get_ofFn hjx']
    have hne : collected x.shape (reducedAxes x.ndim axes) jx ≠ [] := collected_ne hpos hjx'
    have hnp : 0 ≤ Spec.mean ((collected x.shape (reducedAxes x.ndim axes) jx).map fun ix => (x.get ix - y.get ix) ^ 2) :=
      div_nonneg (hnn jx) (Nat.cast_nonneg _)
    refine ⟨hnp, ?_⟩
    obtain ⟨s, hev, hav⟩ := ho.average ((collected x.shape (reducedAxes x.ndim axes) jx).map fun ix => square (sub (x.get ix) (y.get ix))) (by simpa using hne)
    have hs := squares_error hu ho (fun ix => x.get ix) (fun ix => y.get ix) _ hev
    rw [Rounds, abs_of_nonneg hnp]
    simp only [mseRoundings]
    have hlen : (((List.range x.ndim).filter fun k => k ∈ reducedAxes x.ndim axes).map fun k => x.shape.getD k 0).prod =
      (collected x.shape (reducedAxes x.ndim axes) jx).length := (collected_length hjx').symm
    rw [hlen]
    rw [Spec.mean]
    rw [Rounds] at hav
    simp only [List.length_map] at hav ⊢
    have hn : (0 : α) < ((collected x.shape (reducedAxes x.ndim axes) jx).length : α) := Nat.cast_pos.2 (List.length_pos_iff.2 hne)
    generalize average ((collected x.shape (reducedAxes x.ndim axes) jx).map fun ix => square (sub (x.get ix) (y.get ix))) = v at *
    have hS := hnn jx
    generalize ((collected x.shape (reducedAxes x.ndim axes) jx).map fun ix => (x.get ix - y.get ix) ^ 2).sum = S at *
    generalize hN : (collected x.shape (reducedAxes x.ndim axes) jx).length = N at *
    have h3 : |s| ≤ (1 + u) ^ (N + 3) * S := by
      have := abs_sub_abs_le_abs_sub s S
      rw [abs_of_nonneg hS] at this
      rw [roundingBound] at hs
      linarith
    have h4 : |v - S / N| ≤ |v - s / N| + |s / N - S / N| := by
      have := abs_add_le (v - s / N) (s / N - S / N)
      rwa [sub_add_sub_cancel] at this
    have h5 : |s / (N : α) - S / N| ≤ roundingBound u (N + 3) * S / N := by
      rw [← sub_div, abs_div, abs_of_pos hn]
      exact div_le_div_of_nonneg_right hs hn.le
    have h6 : u * |s / (N : α)| ≤ u * ((1 + u) ^ (N + 3) * S / N) := by
      rw [abs_div, abs_of_pos hn]
      exact mul_le_mul_of_nonneg_left (div_le_div_of_nonneg_right h3 hn.le) hu
    have h7 : roundingBound u (N + 4) * (S / N) = u * ((1 + u) ^ (N + 3) * S / N) + roundingBound u (N + 3) * S / N := by
      rw [roundingBound, roundingBound, show N + 4 = N + 3 + 1 from rfl, pow_succ (1 + u) (N + 3)]
      ring
    rw [h7]
    linarith

/-- **C130**: so, unless the bound reaches one, the computed error is never negative, and it is zero exactly where the exact one is. -/
theorem C130_mse_zero (hu : 0 ≤ u) (ho : AccurateOps u sub square total average) (h : x.shape = y.shape) (hax : axesOf x.ndim ax = some axes) (hnd : axes.Nodup)
    (hpos : ∀ k < x.ndim, k ∈ reducedAxes x.ndim axes → 0 < x.shape.getD k 0) {r : Reduction} (hr : r ≠ .unknown)
    (hs : roundingBound u (mseRoundings r (((List.range x.ndim).filter fun k => k ∈ reducedAxes x.ndim axes).map fun k => x.shape.getD k 0).prod) < 1) :
    ∃ z z', mse r x y ax = .ok z ∧ mseWith sub square total average r x y ax = .ok z' ∧
      ∀ jx, InB z.shape jx → 0 ≤ z'.get jx ∧ (z'.get jx = 0 ↔ z.get jx = 0) := by
  obtain ⟨z, z', h1, h2, _, h4⟩ := C130_mse hu ho h hax hnd hpos hr
  refine ⟨z, z', h1, h2, fun jx hjx => ?_⟩
  obtain ⟨h5, h6⟩ := h4 jx hjx
  rw [Rounds, abs_of_nonneg h5] at h6
  generalize roundingBound u _ = e at *
  have h7 := abs_le.1 h6
  refine ⟨by nlinarith, fun h0 => ?_, fun h0 => ?_⟩
  · rw [h0] at h7
    nlinarith
  · rw [h0, mul_zero] at h7
    linarith

/-! ### arithmetics which meet the assumptions -/

theorem rounds_exact (hu : 0 ≤ u) (a : α) : Rounds u a a := by
  rw [Rounds, sub_self, abs_zero]
  exact mul_nonneg hu (abs_nonneg a)

theorem rounds_up (hu : 0 ≤ u) (a : α) : Rounds u a ((1 + u) * a) := by
  rw [Rounds, show (1 + u) * a - a = u * a by ring, abs_mul, abs_of_nonneg hu]

theorem evaluates_exact (hu : 0 ≤ u) : ∀ {l : List α}, l ≠ [] → Evaluates u l l.sum
  | [], h => absurd rfl h
  | [t], _ => by simpa using Evaluates.term (rounds_exact hu t)
  | t :: b :: l, _ => Evaluates.fused (evaluates_exact hu (l := b :: l) (by simp)) (by rw [List.sum_cons]; exact rounds_exact hu _)

theorem evaluates_up (hu : 0 ≤ u) : ∀ {l : List α}, l ≠ [] → Evaluates u l ((1 + u) * l.sum)
  | [], h => absurd rfl h
  | [t], _ => by simpa using Evaluates.term (rounds_up hu t)
  | t :: b :: l, _ => Evaluates.fused (evaluates_exact hu (l := b :: l) (by simp)) (by rw [List.sum_cons]; exact rounds_up hu _)

/-- scalar products with the weights and the result rounded up -/
def upDot (u : α) : Nat → List Nat → List α → List α → α := fun _ _ xs w =>
  (1 + u) ^ 2 * ((List.range w.length).map fun j => w.getD j 0 * xs.getD j 0).sum

theorem upDot_accurate (hu : 0 ≤ u) : AccurateDot u (upDot u) := by
  intro i ix xs w hw _
  refine ⟨w.map fun a => (1 + u) * a, by simp, fun j hj => ?_, ?_⟩
  · have : (w.map fun a => (1 + u) * a).getD j 0 = (1 + u) * w.getD j 0 := by simp [hj]
    rw [this]
    exact rounds_up hu _
  · have h := evaluates_up hu (l := (List.range w.length).map fun j => (w.map fun a => (1 + u) * a).getD j 0 * xs.getD j 0) (by simpa using hw)
    have e : ((List.range w.length).map fun j => (w.map fun a => (1 + u) * a).getD j 0 * xs.getD j 0) =
        (List.range w.length).map fun j => (1 + u) * (w.getD j 0 * xs.getD j 0) := by
      refine List.map_congr_left fun j hj => ?_
      have hj := List.mem_range.1 hj
      have : (w.map fun a => (1 + u) * a).getD j 0 = (1 + u) * w.getD j 0 := by simp [hj]
      rw [this, mul_assoc]
    have e2 : upDot u i ix xs w = (1 + u) * ((List.range w.length).map fun j => (w.map fun a => (1 + u) * a).getD j 0 * xs.getD j 0).sum := by
      rw [e, List.sum_map_mul_left, upDot]
      ring
    rw [e2]
    exact h

theorem slideWith_up (i : Nat) {x' x : Tensor α} {c : α} (hs : x'.shape = x.shape) (h : ∀ ix, x'.get ix = c * x.get ix) {o : PoolOp α} (ho : o.kernel ≠ []) :
    (slideWith (upDot u i) x' o).shape = (slide x o).shape ∧ ∀ ix, (slideWith (upDot u i) x' o).get ix = c * (1 + u) ^ 2 * (slide x o).get ix := by
  refine ⟨slideWith_shape _ hs o, fun ix => ?_⟩
  rw [slideWith, slide, if_neg ho, if_neg ho, hs]
  change (ofFn _ _).data.getD (ravel (x.shape.set o.axis (windowCount (x.shape.getD o.axis 0) o.kernel.length o.stride 1)) ix) 0 = _ * (ofFn _ _).data.getD (ravel (x.shape.set o.axis (windowCount (x.shape.getD o.axis 0) o.kernel.length o.stride 1)) ix) 0
  generalize ravel (x.shape.set o.axis (windowCount (x.shape.getD o.axis 0) o.kernel.length o.stride 1)) ix = n
  rcases entry_ofFn (x.shape.set o.axis (windowCount (x.shape.getD o.axis 0) o.kernel.length o.stride 1)) (fun ix =>
      upDot u i ix ((List.range o.kernel.length).map fun j => x'.get (ix.set o.axis (ix.getD o.axis 0 * o.stride + j))) o.kernel) n with ⟨hn, e1⟩ | ⟨hn, e1⟩
  · rcases entry_ofFn (x.shape.set o.axis (windowCount (x.shape.getD o.axis 0) o.kernel.length o.stride 1)) (fun ix =>
        ((List.range o.kernel.length).map fun j => o.kernel.getD j 0 * x.get (ix.set o.axis (ix.getD o.axis 0 * o.stride + j))).sum) n with ⟨_, e2⟩ | ⟨hn', _⟩
    · rw [e1, e2]
      generalize (indices (x.shape.set o.axis (windowCount (x.shape.getD o.axis 0) o.kernel.length o.stride 1))).getD n [] = ix
      rw [upDot, mul_comm c, mul_assoc, ← List.sum_map_mul_left (r := c)]
      congr 2
      refine List.map_congr_left fun j hj => ?_
      have hj := List.mem_range.1 hj
      simp only [List.getD_eq_getElem?_getD, List.getElem?_map, List.getElem?_range hj, Option.map_some, Option.getD_some, h]
      ring
    · omega
  · rw [e1, getD_beyond (by simpa [ofFn] using hn), mul_zero]

theorem seqWith_up : ∀ (ops : List (PoolOp α)) (i : Nat) {x' x : Tensor α} {c : α}, x'.shape = x.shape → (∀ ix, x'.get ix = c * x.get ix) →
    (∀ o ∈ ops, o.kernel ≠ []) → ∀ ix, (seqWith (upDot u) i x' ops).get ix = c * (1 + u) ^ (2 * ops.length) * (poolSeq x ops).get ix
  | [], i, x', x, c, _, h, _, ix => by simpa [seqWith, poolSeq] using h ix
  | o :: ops, i, x', x, c, hs, h, ho, ix => by
    obtain ⟨h1, h2⟩ := slideWith_up (u := u) i hs h (ho o (by simp))
    have := seqWith_up ops (i + 1) h1 h2 (fun o h => ho o (by simp [h])) ix
    rw [show seqWith (upDot u) i x' (o :: ops) = seqWith (upDot u) (i + 1) (slideWith (upDot u i) x' o) ops from rfl, this,
      show poolSeq x (o :: ops) = poolSeq (slide x o) ops from rfl, List.length_cons]
    ring

/-- **C130**: some admissible evaluation is off by `(1 + u)^(2 k) - 1` times the exact value, `k` the number of axes; for kernels with a single weight this is
the bound itself. -/
theorem C130_attained (hu : 0 ≤ u) : ∃ dot : Nat → List Nat → List α → List α → α, AccurateDot u dot ∧
    ∀ {pool : SepPool α} {g : PoolArgs α} {m : Nat} {x y : Tensor α} {ax : Axes} {axes : List Nat} {padder q : Option (Padder α)} {junk : List Nat → α},
      Built pool g m → (g.isMany = true → axes.length = m) → axesOf x.ndim ax = some axes →
      SepPool.pad pool padder junk x (.seq (castV axes)) = (q, .ok y) → Fitting y (g.ops axes) → (∀ i < axes.length, (g.op axes i).kernel ≠ []) →
      ∃ z z', SepPool.forward pool padder junk x ax = (q, .ok z) ∧ SepPool.forwardWith dot pool padder junk x ax = (q, .ok z') ∧
        (∀ ix, |z'.get ix - z.get ix| = roundingBound u (2 * axes.length) * |z.get ix|) ∧
        ((∀ i < axes.length, (g.op axes i).kernel.length = 1) → roundings (g.ops axes) = 2 * axes.length) := by
  refine ⟨upDot u, upDot_accurate hu, fun {pool g m x y ax axes padder q junk} hb hm hax hy hf hk => ?_⟩
  obtain ⟨h1, h2⟩ := calls_padded (dot := upDot u) hb hm hax hy hf
  refine ⟨_, _, h1, h2, fun ix => ?_, fun h => ?_⟩
  · rw [seqWith_up (c := 1) (g.ops axes) 0 rfl (fun ix => (one_mul _).symm) (by
      intro o ho
      obtain ⟨i, hi, rfl⟩ := mem_ops.1 ho
      exact hk i hi) ix, one_mul, show (g.ops axes).length = axes.length by simp [PoolArgs.ops], ← sub_one_mul, abs_mul, ← roundingBound,
      abs_of_nonneg (roundingBound_nonneg hu _)]
  · have : (g.ops axes).map (fun o => if o.kernel = [] then 0 else o.kernel.length + 1) = (g.ops axes).map fun _ => 2 := by
      refine List.map_congr_left fun o ho => ?_
      obtain ⟨i, hi, rfl⟩ := mem_ops.1 ho
      rw [if_neg (hk i hi), h i hi]
    rw [roundings, this, List.map_const', List.sum_replicate, show (g.ops axes).length = axes.length by simp [PoolArgs.ops]]
    simp [mul_comm]

end

/-! ### examples -/

namespace RoundingExample
open SsimExample AdjointExample EnergyExample

/-- an average of three samples on a ring, one part in a hundred per operation, everything rounded up -/
example (junk : List Nat → ℚ) : ∃ pool : SepPool ℚ, ∃ q z z', SepPool.init (PoolArgs.pyKernel [1 / 3, 1 / 3, 1 / 3]) (PoolArgs.pyStride (some 1)) = .ok pool ∧
    SepPool.forward pool (some ((args .circular).padder 1)) junk (sig [1, 2, 4, 8]) .none = (q, .ok z) ∧
    SepPool.forwardWith (upDot (1 / 100)) pool (some ((args .circular).padder 1)) junk (sig [1, 2, 4, 8]) .none = (q, .ok z') ∧
    z'.shape = z.shape := by
  obtain ⟨pool, e1, b1⟩ := one_built [1 / 3, 1 / 3, 1 / 3]
  obtain ⟨q, z, z', h1, h2, h3, _⟩ := C130_error_same (u := 1 / 100) (by norm_num) (upDot_accurate (by norm_num)) b1 (by intro h; cases h)
    (sameCall (Or.inl rfl) _) (holds_padder _ 1) junk
  exact ⟨pool, q, z, z', e1, h1, h2, h3⟩

/-- the computed values, and the number of roundings -/
def computed (w : List ℚ) (l : List ℚ) : Option (List ℚ) :=
  match SepPool.init (PoolArgs.pyKernel w) (PoolArgs.pyStride (some 1)) with
  | .ok pool => match (SepPool.forwardWith (upDot (1 / 10)) pool (some ((args .circular).padder 1)) (fun _ => 0) (sig l) .none).2 with
    | .ok z => some z.data
    | .error _ => none
  | .error _ => none

example : computed [1, 1, 1] [100, 200, -300, 0] = some [363, 0, -121, -242] ∧ run [1, 1, 1] .circular (sig [100, 200, -300, 0]) = some [300, 0, -100, -200] ∧
    roundings [⟨0, [1, 1, 1], 1⟩] = 4 ∧ (magnitudeOf (sig [0, 100, 200, -300, 0, 100]) [⟨0, [1, 1, 1], 1⟩]).data = [300, 600, 500, 400] := by
  decide +kernel

/-- squares and sums rounded up by a tenth -/
theorem ops_up : AccurateOps (1 / 10 : ℚ) (fun a b => 11 / 10 * (a - b)) (fun a => 11 / 10 * a ^ 2) (fun l => 11 / 10 * l.sum)
    (fun l => 11 / 10 * (l.sum / l.length)) := by
  have h : (1 + 1 / 10 : ℚ) = 11 / 10 := by norm_num
  refine ⟨fun a b => ?_, fun a => ?_, fun l hl => ?_, fun l hl => ⟨l.sum, evaluates_exact (by norm_num) hl, ?_⟩⟩
  · have := rounds_up (u := (1 / 10 : ℚ)) (by norm_num) (a - b)
    rwa [h] at this
  · have := rounds_up (u := (1 / 10 : ℚ)) (by norm_num) (a ^ 2)
    rwa [h] at this
  · have := evaluates_up (u := (1 / 10 : ℚ)) (by norm_num) hl
    rwa [h] at this
  · have := rounds_up (u := (1 / 10 : ℚ)) (by norm_num) (l.sum / l.length)
    rwa [h] at this

example : ∃ z z', mse .mean (sig [1, 2, 4]) (sig [1, 0, 5]) .none = .ok z ∧
    mseWith (fun a b : ℚ => 11 / 10 * (a - b)) (fun a => 11 / 10 * a ^ 2) (fun l => 11 / 10 * l.sum) (fun l => 11 / 10 * (l.sum / l.length)) .mean
      (sig [1, 2, 4]) (sig [1, 0, 5]) .none = .ok z' ∧ ∀ jx, InB z.shape jx → 0 ≤ z.get jx ∧ Rounds (roundingBound (1 / 10) 7) (z.get jx) (z'.get jx) := by
  obtain ⟨z, z', h1, h2, _, h4⟩ := C130_mse (x := sig [1, 2, 4]) (y := sig [1, 0, 5]) (ax := .none) (axes := [0]) (r := .mean) (by norm_num) ops_up rfl rfl (by simp)
    (by intro k hk _; have : k = 0 := by simpa [sig, ndim, ofFn] using hk
        subst this; decide) (by simp)
  exact ⟨z, z', h1, h2, h4⟩

example : (mse .mean (sig [1, 2, 4]) (sig [1, 0, 5]) .none).toOption.map Tensor.data = some [5 / 3] ∧
    (mseWith (fun a b : ℚ => 11 / 10 * (a - b)) (fun a => 11 / 10 * a ^ 2) (fun l => 11 / 10 * l.sum) (fun l => 11 / 10 * (l.sum / l.length)) .mean
      (sig [1, 2, 4]) (sig [1, 0, 5]) .none).toOption.map Tensor.data = some [5 / 3 * (11 / 10) ^ 4] := by
  decide +kernel

end RoundingExample

open RoundingExample SsimExample in
/-- **C130**: the error is relative to the absolute values, not to the result: a difference filter may turn a constant image into something that is not zero (here the
first weight is rounded up and the other is not), and the result of rounding may depend on the order of the additions. -/
theorem C130_conditions : (∃ dot : Nat → List Nat → List ℚ → List ℚ → ℚ, AccurateDot (1 / 10) dot ∧ dot 0 [] [10, 10] [-1, 1] ≠ 0) ∧
    ∃ v v' : ℚ, Evaluates (1 / 10) [1, 1, -2] v ∧ Evaluates (1 / 10) [1, 1, -2] v' ∧ v ≠ v' := by
  have hu : (0 : ℚ) ≤ 1 / 10 := by norm_num
  constructor
  · refine ⟨fun i ix xs w => if w = [-1, 1] then ((List.range 2).map fun j => ([-11 / 10, 1] : List ℚ).getD j 0 * xs.getD j 0).sum
      else upDot (1 / 10) i ix xs w, ?_, by decide +kernel⟩
    intro i ix xs w hw hx
    by_cases h : w = [-1, 1]
    · refine ⟨[-11 / 10, 1], by simp [h], ?_, ?_⟩
      · rw [h]
        intro j hj
        have : j = 0 ∨ j = 1 := by simp at hj; omega
        rcases this with rfl | rfl
        · norm_num [Rounds, abs_le]
        · norm_num [Rounds]
      · simp only [h, if_true]
        exact evaluates_exact hu (by simp)
    · simp only [if_neg h]
      exact upDot_accurate hu i ix xs w hw hx
  · refine ⟨0, 1 / 5, ?_, ?_, by norm_num⟩
    · have := evaluates_exact hu (l := [1, 1, -2]) (by simp)
      norm_num at this
      exact this
    · have e : Evaluates (1 / 10 : ℚ) [1, 1] (11 / 5) := by
        have := evaluates_up hu (l := [1, 1]) (by simp)
        norm_num at this
        exact this
      have e2 : Evaluates (1 / 10 : ℚ) [-2] (-2) := Evaluates.term (rounds_exact hu _)
      exact Evaluates.add e e2 (by rw [show (11 / 5 + -2 : ℚ) = 1 / 5 by norm_num]; exact rounds_exact hu _)

end TI
