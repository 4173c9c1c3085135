import Verif.Props.Edges
import Mathlib.Analysis.Complex.ExponentialBounds

/-!
# Gaussian gradients, counterexamples and concrete cases for C40-C44, C75, C76
-/

set_option linter.unusedSectionVars false

namespace TI
open Tensor Spec

/-! ## responses to constant images in general -/

section
variable {α : Type} [Field α] [LinearOrder α] [IsStrictOrderedRing α] [FloorRing α] {x : Tensor α} {a : Nat}
variable {f : EdgeFilter α} {w : List α} {g : Given (List α)} {m : Nat}

theorem poolSeq_constant {k : α} : ∀ {ops : List (PoolOp α)} {x : Tensor α}, PoolOps x ops → (∀ o ∈ ops, o.kernel ≠ [] → o.kernel.sum = 1) →
    Constant k x → Constant k (poolSeq x ops)
  | [], _, _, _, hx => hx
  | o :: ops, x, h, hw, hx => by
    change Constant k (poolSeq (slide x o) ops)
    apply poolSeq_constant h.tail (fun p hp => hw p (by simp [hp]))
    by_cases hk : o.kernel = []
    · simpa [slide, hk] using hx
    · have := slide_constant (h.axis o (by simp) hk) (h.stride o (by simp) hk) hk hx
      rwa [hw o (by simp) hk, one_mul] at this

/-- **C76**: with smoothing kernels of sum one (or empty) and a padder that fills with samples, every component of the constant image `k` is
the constant `k` times the sum of the edge kernel that is used. -/
theorem C76_constant_response (hb : EdgeBuilt f w g m) (hw : w ≠ []) (hone : ∀ v ∈ g.values, v ≠ [] → v.sum = 1) {ps : EdgePadders α}
    {gp : PadArgs α} (hps : HoldsBoth ps gp) {ax : Axes} {axes : List Nat} (hs : EdgeSetup g gp x ax axes)
    (hm : g.isMany = true → axes.length - 1 = m) (hfill : gp.FillsFromSamples) {k : α} (hx : Constant k x) (junk : List Nat → α) :
    ∃ ps' cs, f.allComponents ps junk x ax = (ps', .ok cs) ∧ cs.length = axes.length ∧
      ∀ c ∈ cs, c.shape = x.shape ∧ Constant ((usedKernel w).sum * k) c := by
  obtain ⟨ps', e, _, hsh⟩ := C75_components hb hps hs hm junk
  refine ⟨ps', _, e, by simp, ?_⟩
  intro c hc
  obtain ⟨a, ha, rfl⟩ := List.mem_map.1 hc
  refine ⟨hsh a ha, ?_⟩
  have hec := hs.edgeCall (usedKernel w) ha
  have hwithin : ∀ (lo hi : α) {pg : PoolArgs α} {shape axs : List Nat}, ∀ o ∈ sameOps pg gp shape axs, o.2.Within lo hi := by
    intro lo hi pg shape axs o ho
    obtain ⟨i, _, rfl⟩ := sameOps_mem ho
    exact fills_within hfill (uniform_entry hs.uniform i) lo hi
  have h1 : Constant ((usedKernel w).sum * k) (filtered (.one (usedKernel w)) gp x [a]) := by
    have hp := padded_constant hec.edge (k := k) (hwithin k k) hx
    have hpo : PoolOps (padSeq x (sameOps (PoolArgs.filter (.one (usedKernel w))) gp x.shape [a])) [⟨a, usedKernel w, 1⟩] := hec.edge.poolOps
    exact slide_constant (o := ⟨a, usedKernel w, 1⟩) (hpo.axis _ (by simp) (usedKernel_ne hw)) Nat.one_pos (usedKernel_ne hw) hp
  have h2 := padded_constant hec.smooth (hwithin _ _) h1
  refine poolSeq_constant hec.smooth.poolOps ?_ h2
  intro o ho hk
  obtain ⟨i, hi, rfl⟩ := mem_ops.1 ho
  have hfit : g.Fits (axes.filter fun b => b ≠ a).length := by
    rw [filter_ne_length hs.nodup ha]
    cases hg : g.isMany with
    | true => exact hs.fits hg
    | false =>
      cases g with
      | one b => trivial
      | many l => cases hg
  exact hone _ (given_entry_mem hfit hi []) hk

end

/-! ## Gaussian gradient filters -/

section
variable {size : Given Nat} {sigma : Given ℝ} {m : Nat}

/-- smoothing kernels of `GaussianGrad`: order zero -/
noncomputable def Spec.smoothKernels (m : Nat) (size : Given Nat) (sigma : Given ℝ) : Given (List ℝ) :=
  Given.zip m (fun k s => gaussWeights k s 0) 0 1 size sigma

/-- `GaussianGrad` with given edge size and sigma: any sizes, non-zero sigmas, any order -/
theorem gaussianGrad_built (hm : 0 < m) (hs : size.Fits m) (hg : sigma.Fits m) (hnz : ∀ s ∈ sigma.values, s ≠ 0) (ek : Nat) {es : ℝ} (hes : es ≠ 0)
    (normalize : Bool) (order : Nat) (eks : Option Nat) (esi : Option ℝ) (hek : eks = some ek ∨ (eks = none ∧ size = .one ek))
    (hesi : esi = some es ∨ (esi = none ∧ sigma = .one es)) :
    ∃ f, EdgeFilter.gaussianGrad (size.toPy pyNat) (sigma.toPy Py.leaf) (eks.map fun n : Nat => (n : Int)) esi normalize order = .ok f ∧
      EdgeBuilt f (gaussWeights ek es order) (if normalize then (smoothKernels m size sigma).map normalised else smoothKernels m size sigma) m := by
  obtain ⟨ss, e1, h1⟩ := ofItem_ints hm hs
  obtain ⟨sg, e2, h2⟩ := ofItem_reals hm hg
  obtain ⟨k, e3, h3⟩ := apply2_spec h1 h2 hs hg (func := EdgeFilter.gaussItem) (f' := PoolArgs.pyKernel)
    (F := fun k s => gaussWeights k s 0) 0 1 (by
      intro i hi
      have hne : sigma.entry 1 i ≠ 0 := hnz _ (entry_mem hg 1 fun h => hi (Or.inr h))
      simp only [pyNat, EdgeFilter.gaussItem]
      have := gaussianKernel_weights hne (size.entry 0 i) 0
      rw [show ((0 : Nat) : Int) = 0 from rfl] at this
      simp only [this, ok_bind]
      rfl)
  have e4 : EdgeFilter.itemOr (eks.map fun n : Nat => (n : Int)) ss = .ok (ek : Int) := by
    rcases hek with rfl | ⟨rfl, rfl⟩
    · rfl
    · obtain ⟨q1, q2⟩ := h1
      simp only [Option.map_none, EdgeFilter.itemOr, q2, if_true, q1, pyNat]
  have e5 : EdgeFilter.itemOr esi sg = .ok es := by
    rcases hesi with rfl | ⟨rfl, rfl⟩
    · rfl
    · obtain ⟨q1, q2⟩ := h2
      simp only [EdgeFilter.itemOr, q2, if_true, q1]
  obtain ⟨e, e6, h6⟩ := ofItem_kernel (g := .one (gaussWeights ek es order)) hm trivial
  have e6' : NdSpec.ofItem [-1] (EdgeFilter.pyVec (gaussWeights ek es order)) = .ok e := e6
  have hfit : (smoothKernels m size sigma).Fits m := given_fits_zip
  obtain ⟨f, e7, _⟩ := edgeIs_ofSpecs hm h6 h3 hfit normalize
  refine ⟨f, ?_, .specs normalize hm hfit h6 h3 e7⟩
  simp only [EdgeFilter.gaussianGrad, e1, e2, e3, e4, e5, gaussianKernel_weights hes, e6', ok_bind]
  exact e7

/-- `edge_kernel_size=None` with a list of sizes is refused -/
theorem gaussianGrad_needs_item {l : List Nat} (hl : l ≠ []) {sigma : ℝ} (hσ : sigma ≠ 0) (esi : Option ℝ) (normalize : Bool) (order : Int) :
    EdgeFilter.gaussianGrad ((Given.many l).toPy pyNat) (.leaf sigma) none esi normalize order = .error .assertion := by
  have hm : 0 < l.length := List.length_pos_iff.2 hl
  obtain ⟨ss, e1, h1⟩ := ofItem_ints (g := .many l) hm rfl
  obtain ⟨sg, e2, h2⟩ := ofItem_reals (g := .one sigma) hm trivial
  have e2' : NdSpec.ofItem [] (.leaf sigma) = .ok sg := e2
  obtain ⟨k, e3, h3⟩ := apply2_spec h1 h2 (m := l.length) rfl trivial (func := EdgeFilter.gaussItem) (f' := PoolArgs.pyKernel)
    (F := fun k s => gaussWeights k s 0) 0 1 (by
      intro i _
      simp only [pyNat, EdgeFilter.gaussItem, Given.entry]
      have := gaussianKernel_weights hσ (l.getD i 0) 0
      rw [show ((0 : Nat) : Int) = 0 from rfl] at this
      simp only [this, ok_bind]
      rfl)
  have hpos : ss.indexPos ≠ 0 := by
    obtain ⟨_, q, _⟩ := h1
    rw [q]
    decide
  simp only [EdgeFilter.gaussianGrad, e1, e2', e3, EdgeFilter.itemOr, hpos, if_false, ok_bind]
  rfl

theorem gaussWeights_odd_sum {σ : ℝ} (hσ : σ ≠ 0) {k : Nat} (hodd : k % 2 = 1) {n : Nat} (hn : n % 2 = 1) : (gaussWeights k σ n).sum = 0 := by
  obtain ⟨w, h1, h2⟩ := C38_odd_order_sum hσ hodd hn
  rw [gaussianKernel_weights hσ] at h1
  cases h1
  exact h2

/-- **C42** applies to `GaussianGrad` of odd order with edge kernels of odd size (even sizes: `C42_even_gaussian_false`). -/
theorem C42_gaussian_partial (hm : 0 < m) (hs : size.Fits m) (hg : sigma.Fits m) (hnz : ∀ s ∈ sigma.values, s ≠ 0) {ek : Nat} (hodd : ek % 2 = 1)
    {es : ℝ} (hes : es ≠ 0) (normalize : Bool) {order : Nat} (hord : order % 2 = 1) :
    ∃ f w g, EdgeFilter.gaussianGrad (size.toPy pyNat) (sigma.toPy Py.leaf) (some (ek : Int)) (some es) normalize order = .ok f ∧
      EdgeBuilt f w g m ∧ w ≠ [] ∧ w.sum = 0 := by
  obtain ⟨f, h1, h2⟩ := gaussianGrad_built hm hs hg hnz ek hes normalize order (some ek) (some es) (Or.inl rfl) (Or.inl rfl)
  refine ⟨f, _, _, h1, h2, ?_, gaussWeights_odd_sum hes hodd hord⟩
  intro h
  have := congrArg List.length h
  simp [gaussWeights] at this
  omega

end

/-! ### explicit weights -/

theorem bellPoly_two (σ t : ℝ) : (bellPoly σ 2).eval t = (t / σ ^ 2) ^ 2 - 1 / σ ^ 2 := by
  simp [bellPoly]
  ring

theorem bellPoly_one (σ t : ℝ) : (bellPoly σ 1).eval t = -(t / σ ^ 2) := by
  simp [bellPoly]
  ring

theorem deriv_eq (n : Nat) (σ t : ℝ) : iteratedDeriv n (bell σ) t = (bellPoly σ n).eval t * bell σ t := bellDeriv_eq n σ t

theorem gaussWeights_three (σ : ℝ) : gaussWeights 3 σ 2 =
    [((1 / σ ^ 2) ^ 2 - 1 / σ ^ 2) * bell σ 1 / (1 + 2 * bell σ 1), -(1 / σ ^ 2) / (1 + 2 * bell σ 1),
      ((1 / σ ^ 2) ^ 2 - 1 / σ ^ 2) * bell σ 1 / (1 + 2 * bell σ 1)] := by
  have b0 : bell σ 0 = 1 := by simp [bell]
  have bn : bell σ (-1) = bell σ 1 := by simp [bell]
  have e0 : samplePoint 3 0 = 1 := by norm_num [samplePoint]
  have e1 : samplePoint 3 1 = 0 := by norm_num [samplePoint]
  have e2 : samplePoint 3 2 = -1 := by norm_num [samplePoint]
  have hr : List.range 3 = [0, 1, 2] := by decide
  rw [gaussWeights, if_neg (by decide), show 2 * (3 / 2) + 1 = 3 by decide, hr]
  simp only [List.map_cons, List.map_nil, e0, e1, e2, deriv_eq, bellPoly_two, b0, bn, List.sum_cons, List.sum_nil]
  have hz : bell σ 1 + (1 + (bell σ 1 + 0)) = 1 + 2 * bell σ 1 := by ring
  rw [hz]
  congr 1
  congr 1
  · ring
  · congr 1
    ring

theorem gaussWeights_two : gaussWeights 2 1 1 = [-(bell 1 1 / (1 + 2 * bell 1 1)), 0] := by
  have b0 : bell 1 0 = 1 := by simp [bell]
  have bn : bell 1 (-1) = bell 1 1 := by simp [bell]
  have e0 : samplePoint 2 0 = 1 := by norm_num [samplePoint]
  have e1 : samplePoint 2 1 = 0 := by norm_num [samplePoint]
  have e2 : samplePoint 2 2 = -1 := by norm_num [samplePoint]
  have hr2 : List.range 2 = [0, 1] := by decide
  have hr : List.range 3 = [0, 1, 2] := by decide
  rw [gaussWeights, if_neg (by decide), show 2 * (2 / 2) + 1 = 3 by decide, hr, hr2]
  simp only [List.map_cons, List.map_nil, e0, e1, e2, deriv_eq, bellPoly_one, b0, bn, List.sum_cons, List.sum_nil]
  have hz : bell 1 1 + (1 + (bell 1 1 + 0)) = 1 + 2 * bell 1 1 := by ring
  rw [hz]
  congr 1
  · ring
  · simp

/-- `exp(-200/121)` lies between 0.178 and 0.3264 -/
theorem bell_bounds : 0.178 < bell (11 / 20) 1 ∧ bell (11 / 20) 1 < 0.3264 := by
  have he : bell (11 / 20) 1 = (Real.exp (200 / 121))⁻¹ := by
    rw [bell, ← Real.exp_neg]
    congr 1
    norm_num
  have hlow : (3.07 : ℝ) ≤ Real.exp (200 / 121) := by
    have := Real.quadratic_le_exp_of_nonneg (x := 200 / 121) (by norm_num)
    norm_num at this ⊢
    linarith
  have hup : Real.exp (200 / 121) < 5.61 := by
    have h1 : Real.exp (200 / 121) ≤ Real.exp (5 / 3) := Real.exp_le_exp.2 (by norm_num)
    have h2 : Real.exp (5 / 3) ^ 3 = Real.exp 1 ^ 5 := by
      rw [← Real.exp_nat_mul, ← Real.exp_nat_mul]
      norm_num
    have h3 : Real.exp 1 ^ 5 < 2.7182818286 ^ 5 := pow_lt_pow_left₀ Real.exp_one_lt_d9 (Real.exp_pos 1).le (by norm_num)
    have h4 : Real.exp (5 / 3) < 5.61 := by
      apply lt_of_pow_lt_pow_left₀ 3 (by norm_num)
      rw [h2]
      refine h3.trans ?_
      norm_num
    linarith
  have hpos : 0 < Real.exp (200 / 121) := Real.exp_pos _
  rw [he]
  constructor
  · rw [lt_inv_comm₀ (by norm_num) hpos]
    refine hup.trans ?_
    norm_num
  · rw [inv_lt_comm₀ hpos (by norm_num)]
    refine lt_of_lt_of_le ?_ hlow
    norm_num

/-! ## counterexamples -/

namespace Example

/-- `EdgeFilter(edge_kernel=(-1, 0, 1), smooth_kernel=(1, 2, 1))` -/
theorem sobel_built : ∃ f : EdgeFilter ℚ, EdgeFilter.sobel false = .ok f ∧ EdgeBuilt f [-1, 0, 1] (.one [1, 2, 1]) 1 := by
  obtain ⟨f, h1, h2⟩ := (C42_named (α := ℚ) false).1
  exact ⟨f, h1, h2⟩

end Example

/-- C40 is false as stated: on two samples without padding the fast path of `Sobel` returns an empty tensor, the generic filter raises. -/
theorem C40_short_axis_false : ∃ f : EdgeFilter ℚ, EdgeFilter.sobel false = .ok f ∧ ∀ junk,
    (∃ z, f.convEdge (.shared none) junk ⟨[2], [1, 2], rfl⟩ 0 = (.shared none, .ok z) ∧ z.shape = [0]) ∧
      f.edgePool.forward none junk ⟨[2], [1, 2], rfl⟩ (.int 0) = (none, .error .runtime) := by
  obtain ⟨f, h1, h2⟩ := Example.sobel_built
  exact ⟨f, h1, fun junk => C40_short_axis h2 (Or.inl rfl) (x := ⟨[2], [1, 2], rfl⟩) (a := 0) (by decide) (by decide) junk⟩

/-- C41 is false as stated: the kernel `(-1.5, 0.5, 1.2)` is applied as if it were `(-1, 0, 1)`; on the samples `1, 2, 4` the result is `3`
where the generic filter returns `4.3`. -/
theorem C41_truncated_false : ∃ f : EdgeFilter ℚ, EdgeFilter.init (PoolArgs.pyKernel [-3/2, 1/2, 6/5]) (PoolArgs.pyKernel [1]) false = .ok f ∧ ∀ junk,
    f.convEdge (.shared none) junk ⟨[3], [1, 2, 4], rfl⟩ 0 = (.shared none, .ok ⟨[1], [3], rfl⟩) ∧
      f.edgePool.forward none junk ⟨[3], [1, 2, 4], rfl⟩ (.int 0) = (none, .ok ⟨[1], [43 / 10], rfl⟩) := by
  obtain ⟨f, h1, h2⟩ := edgeIs_init (w := [-3/2, 1/2, 6/5]) (g := .one [(1 : ℚ)]) Nat.one_pos trivial false
  refine ⟨f, h1, fun junk => ?_⟩
  have ha : 0 < (⟨[3], [1, 2, 4], rfl⟩ : Tensor ℚ).ndim := by decide
  have hpad : f.edgePool.pad none junk ⟨[3], [1, 2, 4], rfl⟩ (.int (0 : Nat)) = (none, .ok ⟨[3], [1, 2, 4], rfl⟩) := by
    rw [pad_int _ _ _ _ ha, SepPool.pad, checkAxes_castV (by simpa using ha)]
  have hy : ∀ y, (f.edgePool.pad none junk ⟨[3], [1, 2, 4], rfl⟩ (.int (0 : Nat))).2 = .ok y → ([-3/2, 1/2, 6/5] : List ℚ) ≠ [] →
      0 < y.ndim ∧ ([-3/2, 1/2, 6/5] : List ℚ).length ≤ y.shape.getD 0 0 := by
    rw [hpad]
    intro y hy _
    cases hy
    exact ⟨by decide, by decide⟩
  have hu : usedKernel ([-3/2, 1/2, 6/5] : List ℚ) = [-1, 0, 1] := by
    rw [usedKernel, if_pos]
    norm_num [TakenForFirst]
  constructor
  · have := convEdge_used h2 (.shared none) junk ha hy
    rw [hu, show (EdgePadders.shared (none : Option (Padder ℚ))).edge = none from rfl, hpad] at this
    rw [show (0 : Int) = ((0 : Nat) : Int) from rfl, this]
    refine Prod.ext rfl ?_
    change Except.ok _ = Except.ok _
    congr 1
    decide +kernel
  · have := forward_edge h2 none junk ha hy
    rw [hpad] at this
    rw [show (0 : Int) = ((0 : Nat) : Int) from rfl, this]
    refine Prod.ext rfl ?_
    change Except.ok _ = Except.ok _
    congr 1
    decide +kernel

/-- The truncation also hits filters of the library: the edge kernel of `LaplacianOfGaussian(kernel_size=3, sigma=0.55)` is about
`(1.06, -2.39, 1.06)`, and is replaced by `(1, -2, 1)`. -/
theorem C41_laplacian_of_gaussian_false : ∃ f w g, EdgeFilter.laplacianOfGaussian (.leaf 3) (.leaf (11 / 20)) = .ok f ∧
    EdgeBuilt f w g 1 ∧ gaussianKernel 3 (11 / 20) 2 = .ok w ∧ usedKernel w = [1, -2, 1] ∧ w.getD 1 0 < -2 := by
  obtain ⟨f, h1, h2⟩ := gaussianGrad_built (size := .one 3) (sigma := .one (11 / 20)) (m := 1) Nat.one_pos trivial trivial
    (by intro s hs; simp only [Given.values, List.mem_singleton] at hs; rw [hs]; norm_num) 3 (es := 11 / 20) (by norm_num) true 2 none none
    (Or.inr ⟨rfl, rfl⟩) (Or.inr ⟨rfl, rfl⟩)
  have hk := gaussianKernel_weights (σ := 11 / 20) (by norm_num) 3 2
  refine ⟨f, _, _, h1, h2, hk, ?_, ?_⟩
  · have hb := bell_bounds
    rw [gaussWeights_three]
    generalize bell (11 / 20) 1 = q at hb
    have hz : 0 < 1 + 2 * q := by linarith [hb.1]
    have hs : (1 : ℝ) / (11 / 20) ^ 2 = 400 / 121 := by norm_num
    rw [hs, usedKernel, if_neg, if_pos]
    · simp only [TakenForSecond, le_div_iff₀ hz, div_lt_iff₀ hz, lt_div_iff₀ hz, div_le_iff₀ hz]
      norm_num at hb ⊢
      refine ⟨⟨?_, ?_⟩, ⟨?_, ?_⟩, ?_, ?_⟩ <;> linarith [hb.1, hb.2]
    · simp only [TakenForFirst, le_div_iff₀ hz, div_lt_iff₀ hz, lt_div_iff₀ hz, div_le_iff₀ hz]
      rintro ⟨⟨_, h⟩, _⟩
      norm_num at hb h
      linarith [hb.1]
  · have hb := bell_bounds
    rw [gaussWeights_three]
    generalize bell (11 / 20) 1 = q at hb
    have hz : 0 < 1 + 2 * q := by linarith [hb.1]
    have hs : (1 : ℝ) / (11 / 20) ^ 2 = 400 / 121 := by norm_num
    rw [hs]
    simp only [List.getD_cons_succ, List.getD_cons_zero]
    rw [div_lt_iff₀ hz]
    norm_num at hb ⊢
    linarith [hb.2]


theorem gaussWeights_zero_sum {σ : ℝ} (hσ : σ ≠ 0) {k : Nat} (hk : 0 < k) : (gaussWeights k σ 0).sum = 1 := by
  obtain ⟨w, q1, _, _, q4, _⟩ := C37_probability_vector hσ hk
  have := gaussianKernel_weights hσ k 0
  rw [show ((0 : Nat) : Int) = 0 from rfl, q1] at this
  cases this
  exact q4

theorem smooth_one_sum {k : Nat} (hk : 0 < k) {σ : ℝ} (hσ : σ ≠ 0) :
    ∀ v ∈ ((smoothKernels 1 (.one k) (.one σ)).map normalised).values, v ≠ [] → v.sum = 1 := by
  intro v hv _
  have : v = normalised (gaussWeights k σ 0) := by
    simpa [smoothKernels, Given.zip, Given.isMany, Given.map, Given.values, Given.entry] using hv
  rw [this]
  apply normalised_sum
  rw [gaussWeights_zero_sum hσ hk]
  exact one_ne_zero

theorem EdgeSetup_one {α : Type} [Field α] [LinearOrder α] [IsStrictOrderedRing α] [FloorRing α] {g g' : Given (List α)} {gp : PadArgs α}
    {x : Tensor α} {ax : Axes} {axes : List Nat} (h : EdgeSetup g gp x ax axes) (hg : g'.isMany = false) : EdgeSetup g' gp x ax axes :=
  { h with fits := by intro hh; rw [hg] at hh; cases hh }

/-- C42 is false as stated: `GaussianGrad(kernel_size=3, sigma=1, edge_kernel_size=2)` (order one) multiplies every constant image by a
non-zero number. -/
theorem C42_even_gaussian_false : ∃ f c, EdgeFilter.gaussianGrad (.leaf 3) (.leaf 1) (some 2) none true 1 = .ok f ∧ c ≠ 0 ∧
    ∀ {ps : EdgePadders ℝ} {gp : PadArgs ℝ}, HoldsBoth ps gp → gp.FillsFromSamples →
    ∀ {x : Tensor ℝ} {ax : Axes} {axes : List Nat}, EdgeSetup (.one []) gp x ax axes → ∀ {k : ℝ}, Constant k x → ∀ junk,
    ∃ ps' cs, f.allComponents ps junk x ax = (ps', .ok cs) ∧ cs.length = axes.length ∧ ∀ z ∈ cs, z.shape = x.shape ∧ Constant (c * k) z := by
  obtain ⟨f, h1, h2⟩ := gaussianGrad_built (size := .one 3) (sigma := .one 1) (m := 1) Nat.one_pos trivial trivial
    (by intro s hs; simp only [Given.values, List.mem_singleton] at hs; rw [hs]; norm_num) 2 (es := 1) (by norm_num) true 1 (some 2) none
    (Or.inl rfl) (Or.inr ⟨rfl, rfl⟩)
  simp only [if_true] at h2
  have hu : usedKernel (gaussWeights 2 1 1) = gaussWeights 2 1 1 := by
    rw [gaussWeights_two, usedKernel, if_neg (by simp [TakenForFirst]), if_neg (by simp [TakenForSecond])]
  refine ⟨f, (gaussWeights 2 1 1).sum, h1, ?_, ?_⟩
  · rw [gaussWeights_two]
    have hb := bell_pos 1 1
    have : 0 < bell 1 1 / (1 + 2 * bell 1 1) := by positivity
    simp only [List.sum_cons, List.sum_nil, add_zero]
    linarith
  · intro ps gp hps hfill x ax axes hs k hx junk
    have := C76_constant_response h2 (by rw [gaussWeights_two]; simp) (smooth_one_sum (by decide) one_ne_zero) hps
      (EdgeSetup_one hs rfl) (by intro h; cases h) hfill hx junk
    rwa [hu] at this

/-- **C76**: `LaplacianOfGaussian(kernel_size=3, sigma=1)` has the edge kernel `(0, -c, 0)` with `c > 0`: its components on a constant
image are not zero. -/
theorem C76_laplacian_of_gaussian : ∃ f c, EdgeFilter.laplacianOfGaussian (.leaf 3) (.leaf 1) = .ok f ∧ 0 < c ∧
    gaussianKernel 3 1 2 = .ok [0, -c, 0] ∧
    ∀ {ps : EdgePadders ℝ} {gp : PadArgs ℝ}, HoldsBoth ps gp → gp.FillsFromSamples →
    ∀ {x : Tensor ℝ} {ax : Axes} {axes : List Nat}, EdgeSetup (.one []) gp x ax axes → ∀ {k : ℝ}, Constant k x → ∀ junk,
    ∃ ps' cs, f.allComponents ps junk x ax = (ps', .ok cs) ∧ cs.length = axes.length ∧ ∀ z ∈ cs, z.shape = x.shape ∧ Constant (-c * k) z := by
  obtain ⟨f, h1, h2⟩ := gaussianGrad_built (size := .one 3) (sigma := .one 1) (m := 1) Nat.one_pos trivial trivial
    (by intro s hs; simp only [Given.values, List.mem_singleton] at hs; rw [hs]; norm_num) 3 (es := 1) (by norm_num) true 2 none none
    (Or.inr ⟨rfl, rfl⟩) (Or.inr ⟨rfl, rfl⟩)
  simp only [if_true] at h2
  have hw : gaussWeights 3 1 2 = [0, -(1 / (1 + 2 * bell 1 1)), 0] := by
    rw [gaussWeights_three]
    norm_num
    ring
  have hu : usedKernel (gaussWeights 3 1 2) = gaussWeights 3 1 2 := by
    rw [hw, usedKernel, if_neg, if_neg]
    · simp only [TakenForSecond]; norm_num
    · simp only [TakenForFirst]; norm_num
  have hb := bell_pos 1 1
  refine ⟨f, 1 / (1 + 2 * bell 1 1), h1, by positivity, ?_, ?_⟩
  · rw [← hw]
    exact gaussianKernel_weights one_ne_zero 3 2
  · intro ps gp hps hfill x ax axes hs k hx junk
    have := C76_constant_response h2 (by rw [hw]; simp) (smooth_one_sum (by decide) one_ne_zero) hps
      (EdgeSetup_one hs rfl) (by intro h; cases h) hfill hx junk
    rw [hu, hw] at this
    simpa using this

/-! ## concrete cases -/

namespace Example

/-- settings of `Padder(mode=mode)` -/
theorem setup {mode : Mode ℚ} (hv : ∀ s : AxisPad ℚ, s.mode = mode → s.rule? ≠ none ∧ s.mode ≠ .zeros) (hp : mode.isPeriodize = false)
    {g : Given (List ℚ)} (hg : g.isMany = false) : EdgeSetup g (modeArgs mode) Example.x .none [0, 1] where
  axes_eq := by decide
  two := by decide
  nodup := by decide
  fits := by intro h; rw [hg] at h; cases h
  pos := by decide
  uniform := ⟨rfl, rfl, rfl, rfl⟩
  valued := hv
  keep := Or.inl hp

theorem setup_reflect {g : Given (List ℚ)} (hg : g.isMany = false) : EdgeSetup g (modeArgs .reflect) Example.x .none [0, 1] :=
  setup (by intro s hs; simp [AxisPad.rule?, hs]) rfl hg

/-- one padder object of mode reflect shared by both filters -/
def reflectPadders : EdgePadders ℚ := .shared (some ((modeArgs .reflect).padder 1))

theorem reflect_holds : HoldsBoth reflectPadders (modeArgs .reflect) := ⟨_, _, rfl, rfl, holds_padder _ 1, holds_padder _ 1⟩

/-- two padder objects, as made from the string "reflect" -/
def reflectTwo : EdgePadders ℚ := .separate ((modeArgs .reflect).padder 1) ((modeArgs .reflect).padder 1)

theorem reflectTwo_holds : HoldsBoth reflectTwo (modeArgs .reflect) := ⟨_, _, rfl, rfl, holds_padder _ 1, holds_padder _ 1⟩

/-- an impulse -/
def impulse : Tensor ℚ := ⟨[3, 3], [0, 0, 0, 0, 1, 0, 0, 0, 0], rfl⟩

theorem setup_impulse {g : Given (List ℚ)} (hg : g.isMany = false) : EdgeSetup g (modeArgs .reflect) impulse .none [0, 1] where
  axes_eq := by decide
  two := by decide
  nodup := by decide
  fits := by intro h; rw [hg] at h; cases h
  pos := by decide
  uniform := ⟨rfl, rfl, rfl, rfl⟩
  valued := by intro s hs; simp [AxisPad.rule?, hs, modeArgs, Given.entry]
  keep := Or.inl rfl

end Example

/-- C40: Sobel with a reflecting padder on the 2×3 example, both axes -/
example (junk : List Nat → ℚ) {a : Nat} (ha : a ∈ [0, 1]) : ∃ f : EdgeFilter ℚ, EdgeFilter.sobel false = .ok f ∧
    f.convEdge Example.reflectTwo junk Example.x (a : Int) =
      (Example.reflectTwo.setEdge (f.edgePool.forward Example.reflectTwo.edge junk Example.x (.int a)).1,
        (f.edgePool.forward Example.reflectTwo.edge junk Example.x (.int a)).2) := by
  obtain ⟨f, h1, h2⟩ := Example.sobel_built
  exact ⟨f, h1, C40_fast_path_same h2 (Or.inl rfl) Example.reflectTwo_holds ((Example.setup_reflect (g := .one []) rfl).edgeSame _ ha) junk⟩

/-- C41: an integer kernel is applied -/
example (junk : List Nat → ℚ) : ∃ f : EdgeFilter ℚ, EdgeFilter.init (PoolArgs.pyKernel [-1, 2, 1]) (PoolArgs.pyKernel [1, 1]) false = .ok f ∧
    ∃ ps', f.convEdge Example.reflectPadders junk Example.impulse (1 : Nat) = (ps', .ok ⟨[3, 3], [0, 0, 0, 0, 2, 0, 0, 0, 0], by decide⟩) := by
  obtain ⟨f, h1, _⟩ := edgeIs_init (w := [-1, 2, 1]) (g := .one [(1 : ℚ), 1]) Nat.one_pos trivial false
  have hb : EdgeBuilt f (([-1, 2, 1] : List Int).map Int.cast) (.one [(1 : ℚ), 1]) 1 := by
    have := EdgeBuilt.tuples (w := [-1, 2, 1]) (g := .one [(1 : ℚ), 1]) false Nat.one_pos trivial h1
    simpa using this
  obtain ⟨ps', e, _⟩ := C41_integer_kernels hb Example.reflect_holds ((Example.setup_impulse (g := .one []) rfl).edgeSame _ (a := 1) (by decide)) junk
  refine ⟨f, h1, ps', ?_⟩
  rw [e]
  congr 2
  decide +kernel

/-- C42: Sobel on the constant image 7 -/
example (junk : List Nat → ℚ) : ∃ f : EdgeFilter ℚ, EdgeFilter.sobel false = .ok f ∧
    ∃ ps' z, f.magnitude id Example.reflectPadders junk (Tensor.ofFn [2, 3] fun _ => 7) .none 0 2 = (ps', .ok z) ∧ z.shape = [2, 3] ∧ Constant 0 z := by
  obtain ⟨f, h1, h2⟩ := Example.sobel_built
  refine ⟨f, h1, C42_magnitude h2 (by simp) (by norm_num) Example.reflect_holds (axes := [0, 1]) ?_ (by intro h; cases h) trivial
    (k := 7) (fun ix hix => get_ofFn hix) rfl (by decide) junk⟩
  have h := Example.setup_reflect (g := .one [(1 : ℚ), 2, 1]) rfl
  exact ⟨h.axes_eq, h.two, h.nodup, h.fits, h.pos, h.uniform, h.valued, h.keep⟩

/-- C43: the reflected border counts twice -/
example (junk : List Nat → ℚ) : ∃ f : EdgeFilter ℚ, EdgeFilter.laplace = .ok f ∧ ∃ ps', f.laplaceForward Example.reflectPadders junk Example.impulse .none =
    (ps', .ok ⟨[3, 3], [0, 2, 0, 2, -4, 2, 0, 2, 0], by decide⟩) := by
  obtain ⟨f, h1, h2⟩ := C43_laplace (α := ℚ)
  obtain ⟨ps', e, _⟩ := h2 Example.reflect_holds (Example.setup_impulse rfl) junk
  refine ⟨f, h1, ps', ?_⟩
  rw [e]
  congr 2
  decide +kernel

/-- C44: `(1, 2, 1)` becomes `(1/4, 1/2, 1/4)` -/
example : normalised ([1, 2, 1] : List ℚ) = [1 / 4, 1 / 2, 1 / 4] := by decide +kernel

/-- C44: one smoothing kernel for each of two axes -/
example : ∃ f : EdgeFilter ℚ, EdgeFilter.init (PoolArgs.pyKernel [-1, 0, 1]) ((Given.many [[1, 1], [1, 2, 1]]).toPy PoolArgs.pyKernel) true = .ok f ∧
    ∃ v, (f.smoothPool.kernel.get ((1 : Nat) : Int)).bind SepPool.asVec = .ok v ∧ v.sum = 1 := by
  obtain ⟨f, h1, h2⟩ := C44_normalised (g := .many [[(1 : ℚ), 1], [1, 2, 1]]) (m := 2) (by decide) rfl [-1, 0, 1]
  obtain ⟨v, c, q1, _, _, q4⟩ := h2 1 (fun _ => by decide) (by norm_num [Given.entry])
  exact ⟨f, h1, v, q1, q4⟩

/-- C75: the squared Sobel magnitude of an impulse -/
example (junk : List Nat → ℚ) : ∃ f : EdgeFilter ℚ, EdgeFilter.sobel false = .ok f ∧ ∃ ps' z cs,
    f.magnitude id Example.reflectPadders junk Example.impulse .none 0 2 = (ps', .ok z) ∧
      (f.allComponents Example.reflectPadders junk Example.impulse .none).2 = .ok cs ∧ z.shape = [3, 3] ∧
      ∀ ix, InB [3, 3] ix → z.get ix = (cs.map fun c => c.get ix ^ 2).sum := by
  obtain ⟨f, h1, h2⟩ := Example.sobel_built
  obtain ⟨ps', z, cs, q1, q2, q3, q4⟩ := C75_magnitude h2 Example.reflect_holds (Example.setup_impulse rfl) (by intro h; cases h) id 0
    (p := 2) (by decide) (Or.inl (by decide)) junk
  refine ⟨f, h1, ps', z, cs, q1, q2, q3, ?_⟩
  intro ix hix
  rw [q4 ix hix]
  simp

/-- C75: the power 0 on the same impulse -/
example (junk : List Nat → ℚ) : ∃ f : EdgeFilter ℚ, EdgeFilter.sobel false = .ok f ∧
    (f.magnitude id Example.reflectPadders junk Example.impulse .none 0 0).2 = .error .zeroDivision := by
  obtain ⟨f, h1, h2⟩ := Example.sobel_built
  exact ⟨f, h1, C75_zero_power h2 Example.reflect_holds (Example.setup_impulse rfl) (by intro h; cases h) id 0 junk⟩

end TI
