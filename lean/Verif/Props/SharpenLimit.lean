import Verif.Props.GaussLimit

/-!
# Unsharp masking with wide Gaussians (C162)
-/

set_option linter.unusedSectionVars false

namespace TI
open Tensor Spec Filter Topology

variable {E : Type} {F : Filter E} {m : Nat} {size : Given Nat} {sigma : E → Given ℝ} {st : Given (Option Nat)} {axes : List Nat} {ax : Axes} {x : Tensor ℝ}

/-- one pixel, as a function of the blurred pixel: continuous where the difference is not as large as the threshold -/
theorem sharpened_tends {amount threshold a b : ℝ} {v : E → ℝ} (hv : Tendsto v F (𝓝 b)) (h : threshold ≤ 0 ∨ |a - b| ≠ threshold) :
    Tendsto (fun e => sharpened amount threshold a (v e)) F (𝓝 (sharpened amount threshold a b)) := by
  have hd : Tendsto (fun e => |a - v e|) F (𝓝 |a - b|) := (tendsto_const_nhds.sub hv).abs
  have hout : Tendsto (fun e => a + amount * (a - v e)) F (𝓝 (a + amount * (a - b))) := tendsto_const_nhds.add ((tendsto_const_nhds.sub hv).const_mul amount)
  rcases lt_or_ge |a - b| threshold with hlt | hge
  · rw [sharpened, if_pos hlt]
    refine tendsto_const_nhds.congr' ?_
    filter_upwards [hd.eventually_lt_const hlt] with e he
    rw [sharpened, if_pos he]
  · rw [sharpened, if_neg hge.not_gt]
    refine hout.congr' ?_
    rcases h with h0 | hne
    · refine Eventually.of_forall fun e => ?_
      show _ = sharpened amount threshold a (v e)
      rw [sharpened, if_neg (h0.trans (abs_nonneg _)).not_gt]
    · filter_upwards [hd.eventually_const_lt (lt_of_le_of_ne hge (Ne.symm hne))] with e he
      rw [sharpened, if_neg he.le.not_gt]

/-- **C162.** As the sigmas grow, unsharp masking with a `GaussianPoolNd` tends to unsharp masking with the `AvgPoolNd` of the same sizes, at every pixel whose distance from the average is not the
threshold, and everywhere without a threshold. -/
theorem C162_sharpen_wide {gp : PadArgs ℝ} {p : Padder ℝ} {amount threshold : ℝ} (hm0 : 0 < m) (hs : size.Fits m) (hg : ∀ e, (sigma e).Fits m) (hnz : ∀ e, ∀ s ∈ (sigma e).values, s ≠ 0)
    (hst : st.Fits m) (hv : ∀ s ∈ st.values, s ≠ some 0) (hσ : ∀ i < m, Tendsto (fun e => |(sigma e).entry 1 i|) F atTop) (hm : axes.length = m)
    (hc : SharpenCall (size.map (avgKernel (α := ℝ))) m gp x ax axes) (hl : ∀ i < axes.length, (gp.entry i).Affine) (hp : Holds p gp) (junk : List Nat → ℝ) :
    ∃ (pool : E → SepPool ℝ) (avg : SepPool ℝ) (u : E → UnsharpMask ℝ) (ua : UnsharpMask ℝ) (z : E → Tensor ℝ) (za : Tensor ℝ),
      (∀ e, SepPool.gaussInit (size.toPy pyNat) ((sigma e).toPy Py.leaf) (.leaf 0) (st.toPy PoolArgs.pyStride) = .ok (pool e) ∧ UnsharpMask.init (pool e) amount threshold = .ok (u e)) ∧
      SepPool.avgInit (size.toPy fun k : Nat => .leaf (some (k : Int))) (st.toPy PoolArgs.pyStride) = .ok avg ∧ UnsharpMask.init avg amount threshold = .ok ua ∧
      (∀ e, ((u e).forward (some p) junk x ax).2 = .ok (z e)) ∧ (ua.forward (some p) junk x ax).2 = .ok za ∧ za.shape = x.shape ∧ (∀ e, (z e).shape = x.shape) ∧
      ∀ ix, InB x.shape ix → threshold ≤ 0 ∨ |x.get ix - (filtered (size.map avgKernel) gp x axes).get ix| ≠ threshold → Tendsto (fun e => (z e).get ix) F (𝓝 (za.get ix)) := by
  choose pool e1 hb _ using fun e => C34_gaussian_kernels (order := .one 0) (st := st) hm0 hs (hg e) trivial hst hv (hnz e)
  obtain ⟨avg, a1, ha, -⟩ := C34_average_kernels (α := ℝ) hm0 hs hst hv
  choose u hu _ using fun e => C45_pooling (hb e) amount threshold
  obtain ⟨ua, hua, -⟩ := C45_pooling ha amount threshold
  have hlen : ∀ k, (avgKernel (α := ℝ) k).length = k := fun k => by simp [avgKernel]
  have hcs : ∀ e, SharpenCall (gaussKernels m size (sigma e) (.one 0)) m gp x ax axes := fun e =>
    ⟨hc.axes_eq, (gauss_sizes (size := size) (st := .one (some 1)) (sigma := sigma e) hlen hm).sameCall (fun _ => by subst hm; exact ⟨gaussKernels_fits, trivial⟩) hc.call, fun _ => hm, hc.keep⟩
  choose q hq using fun e => unsharp_form (hb e) (hu e) (hcs e) hp junk
  obtain ⟨q', hq'⟩ := unsharp_form ha hua hc hp junk
  refine ⟨pool, avg, u, ua, fun e => sharpenedImage amount threshold (gaussKernels m size (sigma e) (.one 0)) gp x axes, sharpenedImage amount threshold (size.map avgKernel) gp x axes,
    fun e => ⟨e1 e, hu e⟩, a1, hua, fun e => by rw [hq e], by rw [hq'], rfl, fun e => rfl, fun ix hix hne => ?_⟩
  have hw := gauss_limit_weights (F := F) (size := size) (sigma := sigma) (st := .one (some 1)) (axes := axes) hlen hm fun i hi j hj => gaussWeights_wide (hσ i hi) hj
  obtain ⟨T, hT⟩ := hw.same arithmetic_tends (x := fun _ => x) ⟨fun _ => rfl, fun ix _ => arithmetic_tends.const _⟩ none (fun e => by cases e <;> [exact hc.call; exact (hcs _).call]) hl
  have hTx : x.shape = T := by
    have := hT.shape none
    rw [← this]
    exact (filtered_shape hc.call hc.keep).symm
  have h2 : Tendsto (fun e => (filtered (gaussKernels m size (sigma e) (.one 0)) gp x axes).get ix) F (𝓝 ((filtered (size.map avgKernel) gp x axes).get ix)) := hT.entry ix (hTx ▸ hix)
  simp only [sharpenedImage, get_ofFn hix]
  exact sharpened_tends h2 hne

open GaussLimitExample in
/-- sharpening the five pixels with wide Gaussians of four weights, without a threshold -/
example (junk : List Nat → ℝ) : ∃ (pool : ℝ → SepPool ℝ) (avg : SepPool ℝ) (u : ℝ → UnsharpMask ℝ) (ua : UnsharpMask ℝ) (z : ℝ → Tensor ℝ) (za : Tensor ℝ),
    (∀ s, SepPool.gaussInit (.leaf 4) (.leaf (s ^ 2 + 1)) (.leaf 0) (.leaf none) = .ok (pool s) ∧ UnsharpMask.init (pool s) 7 0 = .ok (u s)) ∧
    SepPool.avgInit (.leaf (some 4)) (.leaf none) = .ok avg ∧ UnsharpMask.init avg 7 0 = .ok ua ∧
    (∀ s, ((u s).forward (some (mirrored.padder 1)) junk five (.int 0)).2 = .ok (z s)) ∧ (ua.forward (some (mirrored.padder 1)) junk five (.int 0)).2 = .ok za ∧
    ∀ ix, InB [5] ix → Tendsto (fun s => (z s).get ix) atTop (𝓝 (za.get ix)) := by
  have hcall : SameCall (PoolArgs.filter ((Given.one 4).map (avgKernel (α := ℝ)))) mirrored five (.seq (castV [0])) [0] :=
    (gauss_sizes (size := .one 4) (st := .one (some 1)) (sigma := .one (1 / (1 ^ 2 + 1))) (fun k => by simp [avgKernel]) rfl).symm.sameCall (fun h => by cases h) (five_call 1 rfl)
  obtain ⟨pool, avg, u, ua, z, za, h1, h2, h3, h4, h5, -, -, h6⟩ := C162_sharpen_wide (F := atTop) (m := 1) (size := .one 4) (st := .one none) (sigma := fun s : ℝ => .one (s ^ 2 + 1)) (axes := [0])
    (gp := mirrored) (p := mirrored.padder 1) (x := five) (ax := .int 0) (amount := 7) (threshold := 0) one_pos trivial (fun _ => trivial)
    (fun e s hs => by simp [Given.values] at hs; rw [hs]; positivity) trivial (by simp [Given.values]) (fun i _ => by
      have h : Tendsto (fun s : ℝ => s ^ 2 + 1) atTop atTop := tendsto_atTop_add_const_right _ _ (tendsto_pow_atTop two_ne_zero)
      refine h.congr fun s => ?_
      show s ^ 2 + 1 = |s ^ 2 + 1|
      rw [abs_of_nonneg (by positivity)]) rfl ⟨rfl, hcall, fun _ => rfl, fun i _ => Or.inl rfl⟩ (fun i _ => trivial) (holds_padder _ 1) junk
  exact ⟨pool, avg, u, ua, z, za, h1, h2, h3, h4, h5, fun ix hix => h6 ix hix (.inl le_rfl)⟩

end TI
