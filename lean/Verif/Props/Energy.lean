import Verif.Proofs.Energy
import Verif.Props.Roll
import Verif.Props.Gaussian
import Verif.Props.FlipMetrics

/-!
# Brightness and error of filtered images: C118
-/

set_option linter.unusedSectionVars false

namespace TI
open Tensor Spec

section
variable {α : Type} [Field α] [LinearOrder α] [IsStrictOrderedRing α]
variable {pool : SepPool α} {g : PoolArgs α} {m : Nat} {gp : PadArgs α} {p : Padder α} {x y : Tensor α} {ax rax : Axes} {axes raxes : List Nat}

theorem fair_call (hb : Built pool g m) (hm : g.isMany = true → axes.length = m) (hc : SameCall g gp x ax axes) (hp : Holds p gp)
    (hs : ∀ i < axes.length, (g.op axes i).stride = 1) (hf : ∀ i < axes.length, Fair (gp.mode.entry .unknown i) (g.op axes i).kernel) :
    ∃ q l, (∀ (junk : List Nat → α) (y : Tensor α), y.shape = x.shape → SepPool.forward pool (some p) junk y ax = (q, .ok (sameEach y l))) ∧
      l.map Prod.fst = g.ops axes ∧ (∀ r ∈ l, FairAxis x r) ∧ ∀ r ∈ l, r.2.1 ∈ axes := by
  have hl : ∀ o ∈ g.ops axes, ∀ q ∈ sameOps g gp x.shape axes, Passes o q.2 := by
    intro o _ q hq
    obtain ⟨i, hi, rfl⟩ := sameOps_mem hq
    left
    rcases hf i hi with h | ⟨h, _⟩ <;> simp only [AxisPad.Linear, sameSetting, h]
  have hz : ((g.ops axes).zip (sameOps g gp x.shape axes)).map Prod.fst = g.ops axes := List.map_fst_zip (by simp [PoolArgs.ops, sameOps_length])
  have hent : ∀ q ∈ (g.ops axes).zip (sameOps g gp x.shape axes), ∃ i < axes.length, q = (g.op axes i, axes.getD i 0, sameSetting g gp x.shape axes i) := by
    intro q hq
    obtain ⟨i, hi, rfl⟩ := List.mem_iff_getElem.1 hq
    have hi' : i < axes.length := by simpa [PoolArgs.ops, sameOps_length] using hi
    exact ⟨i, hi', by simp [PoolArgs.ops, sameOps, withWidths_entry _ _ _ _ hi', hi']⟩
  refine ⟨some ((gp.withWidths (g.widths x.shape axes)).padder axes.length), (g.ops axes).zip (sameOps g gp x.shape axes), ?_, hz, ?_, ?_⟩
  · intro junk y hy
    have hc' := hc.congr hy
    rw [hb.poolIs.1.forward_same hc' hm hp junk, poolSeq_each (hc'.eachOK (by rw [hy]; exact hl)), hy]
  · intro q hq
    obtain ⟨i, hi, rfl⟩ := hent q hq
    refine ⟨rfl, hs i hi, hf i hi, ?_, same_widths_one (hs i hi), hc.lt _ (mem_sameOps hi), hc.pos _ (by simp [hi])⟩
    simp only [sameSetting, PoolArgs.samePair, hs i hi]
    rw [sameTotal_one]
  · intro q hq
    obtain ⟨i, hi, rfl⟩ := hent q hq
    exact getD_mem_lt hi

/-- **C118.** With stride one and fair borders (a ring, or half-sample mirrors and kernels of odd length which read the same backwards) filtering
multiplies the sum over the image by the product of the sums of the kernels: over the whole image, and over every part which is whole along the
filtered axes (every channel of every image). -/
theorem C118_total (hb : Built pool g m) (hm : g.isMany = true → axes.length = m) (hc : SameCall g gp x ax axes) (hp : Holds p gp)
    (hs : ∀ i < axes.length, (g.op axes i).stride = 1) (hf : ∀ i < axes.length, Fair (gp.mode.entry .unknown i) (g.op axes i).kernel)
    (junk : List Nat → α) :
    ∃ q z, SepPool.forward pool (some p) junk x ax = (q, .ok z) ∧ z.shape = x.shape ∧ z.data.sum = totalWeight (g.ops axes) * x.data.sum ∧
      ∀ ds, (∀ a ∈ axes, a ∈ ds) → ∀ jx, ((collected x.shape ds jx).map z.get).sum = totalWeight (g.ops axes) * ((collected x.shape ds jx).map x.get).sum := by
  obtain ⟨q, l, h1, h2, h3, h4⟩ := fair_call hb hm hc hp hs hf
  refine ⟨q, _, h1 junk x rfl, fair_shape h3, ?_, ?_⟩
  · have h := fair_sum (L := indices x.shape) h3 fun r _ => lines_all _ _
    rw [data_eq_map_get, data_eq_map_get x, fair_shape h3, h, h2]
  · intro ds hds jx
    rw [fair_sum h3 fun r hr => lines_collected (hds _ (h4 r hr)) jx, h2]

/-- **C118**: so averages keep the mean brightness. -/
theorem C118_mean (hb : Built pool g m) (hm : g.isMany = true → axes.length = m) (hc : SameCall g gp x ax axes) (hp : Holds p gp)
    (hs : ∀ i < axes.length, (g.op axes i).stride = 1) (hf : ∀ i < axes.length, Fair (gp.mode.entry .unknown i) (g.op axes i).kernel)
    (hu : ∀ i < axes.length, (g.op axes i).kernel ≠ [] → (g.op axes i).kernel.sum = 1) (junk : List Nat → α) :
    ∃ q z, SepPool.forward pool (some p) junk x ax = (q, .ok z) ∧ z.shape = x.shape ∧ Spec.mean z.data = Spec.mean x.data ∧
      ∀ ds, (∀ a ∈ axes, a ∈ ds) → ∀ jx, Spec.mean ((collected x.shape ds jx).map z.get) = Spec.mean ((collected x.shape ds jx).map x.get) := by
  obtain ⟨q, z, h1, h2, h3, h4⟩ := C118_total hb hm hc hp hs hf junk
  have hw : totalWeight (g.ops axes) = 1 := totalWeight_one (by
    intro o ho
    obtain ⟨i, hi, rfl⟩ := mem_ops.1 ho
    exact hu i hi)
  rw [hw, one_mul] at h3
  refine ⟨q, z, h1, h2, ?_, fun ds hds jx => ?_⟩
  · rw [Spec.mean, Spec.mean, h3, data_eq_map_get z, data_eq_map_get x, h2, List.length_map, List.length_map]
  · rw [Spec.mean, Spec.mean, h4 ds hds jx, hw, one_mul, List.length_map, List.length_map]

/-- **C118.** The sum of the squares grows at most by the square of the gain, the product of the sums of the absolute weights, and the sum of the absolute
values at most by the gain. -/
theorem C118_energy (hb : Built pool g m) (hm : g.isMany = true → axes.length = m) (hc : SameCall g gp x ax axes) (hp : Holds p gp)
    (hs : ∀ i < axes.length, (g.op axes i).stride = 1) (hf : ∀ i < axes.length, Fair (gp.mode.entry .unknown i) (g.op axes i).kernel)
    (junk : List Nat → α) :
    ∃ q z, SepPool.forward pool (some p) junk x ax = (q, .ok z) ∧ z.shape = x.shape ∧
      ((z.data.map (· ^ 2)).sum ≤ gain (g.ops axes) ^ 2 * (x.data.map (· ^ 2)).sum) ∧
      (z.data.map abs).sum ≤ gain (g.ops axes) * (x.data.map abs).sum := by
  obtain ⟨q, l, h1, h2, h3, h4⟩ := fair_call hb hm hc hp hs hf
  refine ⟨q, _, h1 junk x rfl, fair_shape h3, ?_, ?_⟩
  · have h := fair_energy (L := indices x.shape) 1 0 h3 (fun r _ => lines_all _ _) (y := x) rfl
    simp only [one_mul, zero_mul, add_zero] at h
    rw [data_eq_map_get, data_eq_map_get x, fair_shape h3, List.map_map, List.map_map, ← h2]
    exact h
  · have h := fair_abs (L := indices x.shape) 1 0 h3 (fun r _ => lines_all _ _) (y := x) rfl
    simp only [one_mul, zero_mul, add_zero] at h
    rw [data_eq_map_get, data_eq_map_get x, fair_shape h3, List.map_map, List.map_map, ← h2]
    exact h

/-- **C118.** Filtering both images multiplies the squared error, summed or averaged over the filtered axes (and others), by at most the square of the
gain. -/
theorem C118_mse (hb : Built pool g m) (hm : g.isMany = true → axes.length = m) (hc : SameCall g gp x ax axes) (hp : Holds p gp)
    (hs : ∀ i < axes.length, (g.op axes i).stride = 1) (hf : ∀ i < axes.length, Fair (gp.mode.entry .unknown i) (g.op axes i).kernel)
    (h : y.shape = x.shape) (hr : axesOf x.ndim rax = some raxes) (hrn : raxes.Nodup) (hds : ∀ a ∈ axes, a ∈ reducedAxes x.ndim raxes)
    {r : Reduction} (hred : r = .mean ∨ r = .sum) (junk junk' : List Nat → α) :
    ∃ q z z' e e', SepPool.forward pool (some p) junk x ax = (q, .ok z) ∧ SepPool.forward pool (some p) junk' y ax = (q, .ok z') ∧
      mse r x y rax = .ok e ∧ mse r z z' rax = .ok e' ∧ e'.shape = e.shape ∧
      ∀ jx, InB e.shape jx → e'.get jx ≤ gain (g.ops axes) ^ 2 * e.get jx := by
  obtain ⟨q, l, h1, h2, h3, h4⟩ := fair_call hb hm hc hp hs hf
  have s1 : (sameEach x l).shape = x.shape := fair_shape h3
  have s2 : (sameEach y l).shape = x.shape := (fair_shape fun r hr => (h3 r hr).congr h).trans h
  have key : ∀ jx, ((collected x.shape (reducedAxes x.ndim raxes) jx).map fun ix => ((sameEach x l).get ix - (sameEach y l).get ix) ^ 2).sum ≤
      gain (g.ops axes) ^ 2 * ((collected x.shape (reducedAxes x.ndim raxes) jx).map fun ix => (x.get ix - y.get ix) ^ 2).sum := by
    intro jx
    have := fair_energy (L := collected x.shape (reducedAxes x.ndim raxes) jx) 1 (-1) h3 (fun r hr => lines_collected (hds _ (h4 r hr)) jx) h
    simp only [one_mul, neg_mul, ← sub_eq_add_neg] at this
    rwa [h2] at this
  have n1 : (sameEach x l).ndim = x.ndim := by rw [ndim, s1, ← ndim]
  rcases hred with rfl | rfl
  · have e1 := C55_mean h.symm hr hrn
    have e2 := C55_mean (s1.trans s2.symm) (by rw [n1]; exact hr) hrn
    rw [n1, s1] at e2
    refine ⟨q, _, _, _, _, h1 junk x rfl, h1 junk' y h, e1, e2, rfl, ?_⟩
    intro jx hj
    have hj' : InB (onKept (reducedAxes x.ndim raxes) x.shape) jx := hj
    rw [get_ofFn hj', get_ofFn hj', Spec.mean, Spec.mean, List.length_map, List.length_map, mul_div_assoc']
    exact div_le_div_of_nonneg_right (key jx) (Nat.cast_nonneg _)
  · have e1 := C55_sum h.symm hr hrn
    have e2 := C55_sum (s1.trans s2.symm) (by rw [n1]; exact hr) hrn
    rw [n1, s1] at e2
    refine ⟨q, _, _, _, _, h1 junk x rfl, h1 junk' y h, e1, e2, rfl, ?_⟩
    intro jx hj
    have hj' : InB (onKept (reducedAxes x.ndim raxes) x.shape) jx := hj
    rw [get_ofFn hj', get_ofFn hj']
    exact key jx

/-- **C118**: averaging both images never increases their squared error. -/
theorem C118_average (hb : Built pool g m) (hm : g.isMany = true → axes.length = m) (hc : SameCall g gp x ax axes) (hp : Holds p gp)
    (hs : ∀ i < axes.length, (g.op axes i).stride = 1) (hf : ∀ i < axes.length, Fair (gp.mode.entry .unknown i) (g.op axes i).kernel)
    (hu : ∀ i < axes.length, (g.op axes i).kernel ≠ [] → IsAverage (g.op axes i).kernel)
    (h : y.shape = x.shape) (hr : axesOf x.ndim rax = some raxes) (hrn : raxes.Nodup) (hds : ∀ a ∈ axes, a ∈ reducedAxes x.ndim raxes)
    {r : Reduction} (hred : r = .mean ∨ r = .sum) (junk junk' : List Nat → α) :
    ∃ q z z' e e', SepPool.forward pool (some p) junk x ax = (q, .ok z) ∧ SepPool.forward pool (some p) junk' y ax = (q, .ok z') ∧
      mse r x y rax = .ok e ∧ mse r z z' rax = .ok e' ∧ e'.shape = e.shape ∧ ∀ jx, InB e.shape jx → e'.get jx ≤ e.get jx := by
  obtain ⟨q, z, z', e, e', h1, h2, h3, h4, h5, h6⟩ := C118_mse hb hm hc hp hs hf h hr hrn hds hred junk junk'
  refine ⟨q, z, z', e, e', h1, h2, h3, h4, h5, fun jx hj => ?_⟩
  have hg : gain (g.ops axes) = 1 := gain_one (by
    intro o ho hk
    obtain ⟨i, hi, rfl⟩ := mem_ops.1 ho
    exact ⟨(hu i hi hk).2, (hu i hi hk).1⟩)
  have := h6 jx hj
  rwa [hg, one_pow, one_mul] at this

end

/-! ## PSNR -/

section
variable {pool : SepPool ℝ} {g : PoolArgs ℝ} {m : Nat} {gp : PadArgs ℝ} {p : Padder ℝ} {x y : Tensor ℝ} {ax rax : Axes} {axes raxes : List Nat}

/-- **C118**: … and never decreases their PSNR. -/
theorem C118_psnr (hb : Built pool g m) (hm : g.isMany = true → axes.length = m) (hc : SameCall g gp x ax axes) (hp : Holds p gp)
    (hs : ∀ i < axes.length, (g.op axes i).stride = 1) (hf : ∀ i < axes.length, Fair (gp.mode.entry .unknown i) (g.op axes i).kernel)
    (hu : ∀ i < axes.length, (g.op axes i).kernel ≠ [] → IsAverage (g.op axes i).kernel)
    (h : y.shape = x.shape) (hr : axesOf x.ndim rax = some raxes) (hrn : raxes.Nodup) (hds : ∀ a ∈ axes, a ∈ reducedAxes x.ndim raxes)
    {r : Reduction} (hred : r = .mean ∨ r = .sum) {maxValue eps : ℝ} (hmax : 0 < maxValue) (heps : 0 < eps) (junk junk' : List Nat → ℝ) :
    ∃ q z z' v v', SepPool.forward pool (some p) junk x ax = (q, .ok z) ∧ SepPool.forward pool (some p) junk' y ax = (q, .ok z') ∧
      psnr maxValue eps r x y rax = .ok v ∧ psnr maxValue eps r z z' rax = .ok v' ∧ v'.shape = v.shape ∧ ∀ jx, InB v.shape jx → v.get jx ≤ v'.get jx := by
  obtain ⟨q, z, z', e, e', h1, h2, h3, h4, h5, h6⟩ := C118_average hb hm hc hp hs hf hu h hr hrn hds hred junk junk'
  obtain ⟨_, _, ez, es, _⟩ := C118_total hb hm hc hp hs hf junk
  have hz : z.shape = x.shape := by
    rw [h1] at ez
    rw [Except.ok.inj (Prod.ext_iff.1 ez).2]
    exact es
  have hn : z.ndim = x.ndim := by rw [ndim, hz, ← ndim]
  have hE : max eps 0 = eps := max_eq_left heps.le
  have p1 : ∀ jx, InB e.shape jx → 0 < e.get jx + max eps 0 := by
    intro jx hj
    have := C55_nonneg r hr h3 jx hj
    rw [hE]; linarith
  have p2 : ∀ jx, InB e'.shape jx → 0 < e'.get jx + max eps 0 := by
    intro jx hj
    have := C55_nonneg r (by rw [hn]; exact hr) h4 jx hj
    rw [hE]; linarith
  obtain ⟨v, a1, a2, a3⟩ := C56_formula h3 hmax eps p1
  obtain ⟨v', b1, b2, b3⟩ := C56_formula h4 hmax eps p2
  refine ⟨q, z, z', v, v', h1, h2, a1, b1, by rw [b2, a2, h5], ?_⟩
  intro jx hj
  rw [a2] at hj
  have hj' : InB e'.shape jx := by rw [h5]; exact hj
  rw [a3 jx hj, b3 jx hj']
  have h7 : maxValue ^ 2 / (e.get jx + max eps 0) ≤ maxValue ^ 2 / (e'.get jx + max eps 0) :=
    div_le_div_of_nonneg_left (by positivity) (p2 jx hj') (by linarith [h6 jx hj])
  have h8 : 0 < maxValue ^ 2 / (e.get jx + max eps 0) := div_pos (by positivity) (p1 jx hj)
  have := (Real.logb_le_logb (b := 10) (by norm_num) h8 (by linarith)).2 h7
  linarith

/-- **C118** for `GaussianPoolNd(k, sigma, 0, stride=1)` with an odd `k` and the padder `"symmetric"`: the mean brightness is kept, and so is the order of
the errors. -/
theorem C118_gaussian {k : Nat} {σ : ℝ} (hσ : σ ≠ 0) (hodd : k % 2 = 1) (hax : axesOf x.ndim ax = some axes) (hne : axes ≠ []) (hnd : axes.Nodup)
    (hpos : ∀ a ∈ axes, 0 < x.shape.getD a 0) (hgp : gp = ⟨.one (0, 0), .one .symmetric, .one (0, 0), .one (0, 0), .one (none, none)⟩) (hp : Holds p gp)
    (h : y.shape = x.shape) (junk junk' : List Nat → ℝ) :
    ∃ pool, SepPool.gaussInit (.leaf k) (.leaf σ) (.leaf 0) (.leaf (some 1)) = .ok pool ∧ ∃ q z z' e e',
      SepPool.forward pool (some p) junk x ax = (q, .ok z) ∧ SepPool.forward pool (some p) junk' y ax = (q, .ok z') ∧ z.shape = x.shape ∧
      Spec.mean z.data = Spec.mean x.data ∧ mse .mean x y .none = .ok (.scalar e) ∧ mse .mean z z' .none = .ok (.scalar e') ∧ e' ≤ e := by
  obtain ⟨pool, h1, h2, h3⟩ := C34_gaussian_kernels (size := .one k) (sigma := .one σ) (order := .one 0) (st := .one (some 1)) (m := 1)
    (by decide) trivial trivial trivial trivial (by intro s hs; simp [Given.values] at hs; simp [hs])
    (by intro s hs; simp [Given.values] at hs; simpa [hs] using hσ)
  refine ⟨pool, h1, ?_⟩
  have h2' : Built pool ⟨.one (gaussWeights k σ 0), .one (some 1)⟩ 1 := h2
  have hl : (gaussWeights k σ 0).length = k := by simp [gaussWeights]
  have hw := gaussWeights_palindrome hσ hodd
  have hc : SameCall (⟨.one (gaussWeights k σ 0), .one (some 1)⟩ : PoolArgs ℝ) gp x ax axes := by
    subst hgp
    have hrq : SameReq (⟨.one (gaussWeights k σ 0), .one (some 1)⟩ : PoolArgs ℝ) ⟨.one (0, 0), .one .symmetric, .one (0, 0), .one (0, 0), .one (none, none)⟩
        x ax axes := ⟨hax, hne, hnd, (fun h => nomatch h), ⟨trivial, trivial, trivial, trivial⟩, (fun _ _ => Nat.one_pos), hpos⟩
    refine ⟨hrq, fun o ho _ => ?_⟩
    obtain ⟨i, _, rfl⟩ := sameOps_mem ho
    exact ⟨by simp [sameSetting, AxisPad.rule?, Given.entry], by simp [sameSetting, Given.entry]⟩
  have hs : ∀ i < axes.length, ((⟨.one (gaussWeights k σ 0), .one (some 1)⟩ : PoolArgs ℝ).op axes i).stride = 1 := fun _ _ => rfl
  have hf : ∀ i < axes.length, Fair (gp.mode.entry .unknown i) ((⟨.one (gaussWeights k σ 0), .one (some 1)⟩ : PoolArgs ℝ).op axes i).kernel := by
    intro i _
    subst hgp
    exact Or.inr ⟨rfl, hw, Or.inr (by show (gaussWeights k σ 0).length % 2 = 1; rw [hl, hodd])⟩
  have hu : ∀ i < axes.length, ((⟨.one (gaussWeights k σ 0), .one (some 1)⟩ : PoolArgs ℝ).op axes i).kernel ≠ [] →
      IsAverage ((⟨.one (gaussWeights k σ 0), .one (some 1)⟩ : PoolArgs ℝ).op axes i).kernel := by
    intro i _ hk
    exact h3 (by intro o ho; simpa [Given.values] using ho) [0] rfl ⟨0, gaussWeights k σ 0, 1⟩ (mem_ops.2 ⟨0, by simp, rfl⟩) hk
  obtain ⟨q, z, z', e, e', a1, a2, a3, a4, _, a6⟩ := C118_average (rax := .none) (raxes := List.range x.ndim) h2' (by intro h; cases h) hc hp hs hf hu h
    (by simp [axesOf]) List.nodup_range (by
      intro a ha
      rw [reducedAxes]
      split_ifs <;> exact List.mem_range.2 ((checkAxes_spec hax).2 a ha)) (Or.inl rfl) junk junk'
  obtain ⟨_, z₀, b1, b2, b3, _⟩ := C118_mean h2' (by intro h; cases h) hc hp hs hf (fun i hi hk => (hu i hi hk).2) junk
  have ez : z₀ = z := by
    rw [a1] at b1
    exact (Except.ok.inj (Prod.ext_iff.1 b1).2).symm
  subst ez
  have hz' : z'.shape = x.shape := by
    obtain ⟨_, _, c1, c2, _⟩ := C118_total h2' (by intro h; cases h) (hc.congr h) hp hs hf junk'
    rw [a2] at c1
    rw [Except.ok.inj (Prod.ext_iff.1 c1).2, c2, h]
  have t1 := (C55_total h.symm).2
  have t2 := (C55_total (b2.trans hz'.symm)).2
  rw [t1] at a3
  rw [t2] at a4
  refine ⟨q, z₀, z', _, _, a1, a2, b2, b3, t1, t2, ?_⟩
  have := a6 [] (by rw [← Except.ok.inj a3]; exact (show InB [] [] by decide))
  rwa [← Except.ok.inj a3, ← Except.ok.inj a4] at this

end

/-! ## examples -/

namespace EnergyExample
open SsimExample

/-- a filter with stride one along the axis -/
def run (w : List ℚ) (mode : Mode ℚ) (x : Tensor ℚ) : Option (List ℚ) := do
  let pool ← (SepPool.init (PoolArgs.pyKernel w) (PoolArgs.pyStride (some 1))).toOption
  let y ← (SepPool.forward pool (some ((args mode).padder 1)) (fun _ => 7) x .none).2.toOption
  some y.data

/-- weights 1, 2, 1 between half-sample mirrors: the sum 15 becomes 4 · 15 -/
example : run [1, 2, 1] .symmetric (sig [1, 2, 4, 8]) = some [5, 9, 18, 28] ∧ (5 + 9 + 18 + 28 : ℚ) = 4 * 15 := by decide +kernel

theorem sameCall_mirror : SameCall (PoolArgs.filter (.one (avgKernel (α := ℚ) 3))) (args .symmetric) (sig [1, 2, 4, 8]) .none [0] where
  axes_eq := by decide
  ne := by decide
  nodup := by decide
  fits := by intro h; cases h
  rest := ⟨trivial, trivial, trivial, trivial⟩
  stride := by intro i _; exact Nat.one_pos
  pos := by decide
  valued := by
    intro o ho _
    obtain ⟨i, _, rfl⟩ := sameOps_mem ho
    exact ⟨by simp [sameSetting, AxisPad.rule?, args, Given.entry], by simp [sameSetting, args, Given.entry]⟩

/-- the hypotheses hold for averages of three samples between half-sample mirrors -/
example (junk junk' : List Nat → ℚ) {y : Tensor ℚ} (hy : y.shape = [4]) :
    ∃ pool : SepPool ℚ, SepPool.avgInit (.leaf (some 3)) (.leaf (some 1)) = .ok pool ∧
    (∃ q z, SepPool.forward pool (some ((args .symmetric).padder 1)) junk (sig [1, 2, 4, 8]) .none = (q, .ok z) ∧ Spec.mean z.data = 15 / 4) ∧
    ∃ q z z' e e', SepPool.forward pool (some ((args .symmetric).padder 1)) junk (sig [1, 2, 4, 8]) .none = (q, .ok z) ∧
      SepPool.forward pool (some ((args .symmetric).padder 1)) junk' y .none = (q, .ok z') ∧ mse .mean (sig [1, 2, 4, 8]) y .none = .ok e ∧
      mse .mean z z' .none = .ok e' ∧ e'.shape = e.shape ∧ ∀ jx, InB e.shape jx → e'.get jx ≤ e.get jx := by
  obtain ⟨pool, h1, h2, _⟩ := C34_average_kernels (α := ℚ) (size := .one 3) (st := .one (some 1)) (m := 1) (by decide) trivial trivial
    (by intro s hs; simp [Given.values] at hs; simp [hs])
  have hf : ∀ i < 1, Fair ((args .symmetric).mode.entry .unknown i) ((PoolArgs.filter (.one (avgKernel (α := ℚ) 3))).op [0] i).kernel :=
    fun i _ => Or.inr ⟨rfl, by show (avgKernel (α := ℚ) 3).reverse = avgKernel 3; decide +kernel,
      Or.inr (by show (avgKernel (α := ℚ) 3).length % 2 = 1; decide)⟩
  refine ⟨pool, h1, ?_, C118_average h2 (by intro h; cases h) sameCall_mirror (holds_padder _ 1) (fun _ _ => rfl) hf ?_ hy (raxes := [0]) (by decide) (by decide)
    (by decide) (Or.inl rfl) junk junk'⟩
  · obtain ⟨q, z, e1, e2, e3, _⟩ := C118_mean h2 (by intro h; cases h) sameCall_mirror (holds_padder _ 1) (fun _ _ => rfl) hf
      (fun i _ _ => by show (avgKernel (α := ℚ) 3).sum = 1; decide +kernel) junk
    refine ⟨q, z, e1, ?_⟩
    rw [e3]
    decide +kernel
  · intro i _ _
    refine ⟨?_, ?_⟩
    · show ∀ a ∈ avgKernel (α := ℚ) 3, 0 ≤ a
      decide +kernel
    · show (avgKernel (α := ℚ) 3).sum = 1
      decide +kernel

/-- `GaussianPoolNd(5, 2, 0, stride=1)` on images of shape (3, 40, 50) -/
example (x y : Tensor ℝ) (hx : x.shape = [3, 40, 50]) (hy : y.shape = x.shape) {p : Padder ℝ}
    (hp : Holds p ⟨.one (0, 0), .one .symmetric, .one (0, 0), .one (0, 0), .one (none, none)⟩) :=
  C118_gaussian (k := 5) (σ := 2) (by norm_num) rfl (ax := .slice ⟨some 1, none, 1⟩) (axes := [1, 2]) (by rw [ndim, hx]; decide) (by decide) (by decide)
    (by rw [hx]; decide) rfl hp hy

end EnergyExample

open EnergyExample SsimExample in
/-- **C118**: the conditions are needed.  With mirrors at the samples, repeated border samples, an even number of weights, or weights which do not read the
same backwards the sum is not multiplied by the sum of the weights. -/
theorem C118_total_conditions : run [1, 2, 1] .reflect (sig [1, 2, 4, 8]) = some [6, 9, 18, 24] ∧ run [1, 1, 1, 1, 1] .replicate (sig [1, 2, 4, 8]) = some [9, 16, 23, 30] ∧
    run [1, 1] .symmetric (sig [1, 2, 4, 8]) = some [2, 3, 6, 12] ∧ run [1, 2, 4] .symmetric (sig [1, 2, 4, 8]) = some [11, 21, 42, 52] ∧
    (6 + 9 + 18 + 24 : ℚ) ≠ 4 * 15 ∧ (9 + 16 + 23 + 30 : ℚ) ≠ 5 * 15 ∧ (2 + 3 + 6 + 12 : ℚ) ≠ 2 * 15 ∧ (11 + 21 + 42 + 52 : ℚ) ≠ 7 * 15 := by
  decide +kernel

open EnergyExample SsimExample in
/-- **C118**: … nor is the error bounded: averaging (1, 2, 1) with mirrors at the samples gives (5, 4, 5) / 3, further away from zero -/
theorem C118_average_conditions : run [1 / 3, 1 / 3, 1 / 3] .reflect (sig [1, 2, 1]) = some [5 / 3, 4 / 3, 5 / 3] ∧
    run [1 / 3, 1 / 3, 1 / 3] .reflect (sig [0, 0, 0]) = some [0, 0, 0] ∧
    mse .mean (sig [1, 2, 1]) (sig [0, 0, 0]) .none = .ok (.scalar 2) ∧
    mse .mean (sig [5 / 3, 4 / 3, 5 / 3]) (sig [0, 0, 0]) .none = .ok (.scalar (22 / 9)) ∧ (2 : ℚ) < 22 / 9 := by
  decide +kernel

end TI
