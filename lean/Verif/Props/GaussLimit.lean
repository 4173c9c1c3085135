import Verif.Props.SmoothWeights
import Verif.Props.Kernels
import Verif.Proofs.Interior
import Verif.Props.SharpenSym
import Verif.Props.SsimWindow

/-!
# Wide and narrow Gaussian filters (C162)
-/

set_option linter.unusedSectionVars false

namespace TI
open Tensor Spec Filter Topology

variable {E : Type} {F : Filter E} {m : Nat} {size : Given Nat} {sigma : E → Given ℝ} {st : Given (Option Nat)} {axes : List Nat} {ax : Axes} {x : Tensor ℝ}

/-- functions that tend to their value at an added point -/
def Tends (F : Filter E) (f : Option E → ℝ) : Prop := Tendsto (fun e => f (some e)) F (𝓝 (f none))

theorem arithmetic_tends : Arithmetic (Tends F) where
  const _ := tendsto_const_nhds
  add hf hg := Tendsto.add hf hg
  mul hf hg := Tendsto.mul hf hg
  div hf hg h := Tendsto.div hf hg (h none)

/-- `q`, and `l` at the added point -/
def withLimit (q : E → PoolArgs ℝ) (l : PoolArgs ℝ) : Option E → PoolArgs ℝ
  | some e => q e
  | none => l

theorem gauss_limit_weights {L : Nat → List ℝ} (hlen : ∀ k, (L k).length = k) (hm : axes.length = m)
    (hlim : ∀ i < m, ∀ j < size.entry 0 i, Tendsto (fun e => (gaussWeights (size.entry 0 i) ((sigma e).entry 1 i) 0).getD j 0) F (𝓝 ((L (size.entry 0 i)).getD j 0))) :
    Weights (Tends F) axes.length st (fun i => size.entry 0 i) (withLimit (fun e => ⟨gaussKernels m size (sigma e) (.one 0), st⟩) ⟨size.map L, st⟩) := by
  have h0 : L 0 = [] := List.length_eq_zero_iff.1 (hlen 0)
  have hn : ∀ i, (size.map L).entry [] i = L (size.entry 0 i) := fun i => by
    have := given_entry_map L size 0 i
    rwa [h0] at this
  refine ⟨fun e => by cases e <;> rfl, fun e i hi => ?_, fun i hi j hj => ?_⟩
  · cases e with
    | none => exact (congrArg List.length (hn i)).trans (hlen _)
    | some e =>
      show ((gaussKernels m size (sigma e) (.one 0)).entry [] i).length = _
      rw [gaussKernels_entry (hm ▸ hi), gaussWeights_length]
  · show Tendsto (fun e => ((gaussKernels m size (sigma e) (.one 0)).entry [] i).getD j 0) F (𝓝 (((size.map L).entry [] i).getD j 0))
    rw [hn i]
    refine (hlim i (hm ▸ hi) j hj).congr fun e => ?_
    rw [gaussKernels_entry (hm ▸ hi)]
    rfl

theorem gaussWeights_zero {k j : Nat} (hj : j < k) (σ : ℝ) : (gaussWeights k σ 0).getD j 0 = bell σ (samplePoint k j) / ((List.range k).map fun i : Nat => bell σ (samplePoint k i)).sum := by
  rw [gaussWeights]
  simp [hj]

theorem tendsto_list_sum {ι : Type} (l : List ι) {f : ι → E → ℝ} {a : ι → ℝ} (h : ∀ i ∈ l, Tendsto (f i) F (𝓝 (a i))) :
    Tendsto (fun e => (l.map fun i => f i e).sum) F (𝓝 (l.map a).sum) := by
  induction l with
  | nil => simpa using tendsto_const_nhds
  | cons i l ih =>
    simp only [List.map_cons, List.sum_cons]
    exact (h i (by simp)).add (ih fun j hj => h j (by simp [hj]))

/-- wide Gaussians are flat -/
theorem gaussWeights_wide {σ : E → ℝ} (hσ : Tendsto (fun e => |σ e|) F atTop) {k j : Nat} (hj : j < k) :
    Tendsto (fun e => (gaussWeights k (σ e) 0).getD j 0) F (𝓝 ((avgKernel (α := ℝ) k).getD j 0)) := by
  have hb : ∀ t, Tendsto (fun e => bell (σ e) t) F (𝓝 1) := fun t => by
    have h2 : Tendsto (fun e => 2 * σ e ^ 2) F atTop := by
      have := (tendsto_pow_atTop (α := ℝ) two_ne_zero).comp hσ
      refine (this.const_mul_atTop two_pos).congr fun e => ?_
      simp
    have := (h2.const_div_atTop (-(t ^ 2)))
    have := this.rexp
    rwa [Real.exp_zero] at this
  simp only [gaussWeights_zero hj]
  have hs := tendsto_list_sum (F := F) (List.range k) (f := fun i e => bell (σ e) (samplePoint k i)) (a := fun _ => 1) fun i _ => hb _
  have hk : (((List.range k).map fun _ => (1 : ℝ)).sum) = k := by simp
  rw [hk] at hs
  have hk0 : (k : ℝ) ≠ 0 := by
    have : 0 < k := by omega
    positivity
  have e : (avgKernel (α := ℝ) k).getD j 0 = 1 / (k : ℝ) := by simp [avgKernel, hj]
  rw [e]
  exact (hb _).div hs hk0

/-- one weight, at the position the sample point zero has in a Gaussian kernel -/
def Spec.spike (k : Nat) : List ℝ := (List.range k).map fun j => if j = k / 2 then 1 else 0

/-- narrow Gaussians are spikes -/
theorem gaussWeights_narrow {σ : E → ℝ} (hσ : Tendsto σ F (𝓝 0)) (hnz : ∀ e, σ e ≠ 0) {k j : Nat} (hj : j < k) :
    Tendsto (fun e => (gaussWeights k (σ e) 0).getD j 0) F (𝓝 ((spike k).getD j 0)) := by
  have hb : ∀ i : Nat, Tendsto (fun e => bell (σ e) (samplePoint k i)) F (𝓝 (if i = k / 2 then 1 else 0)) := fun i => by
    split_ifs with h
    · have e : ∀ e, bell (σ e) (samplePoint k i) = 1 := fun e => by simp [bell, samplePoint, h]
      simp only [e]
      exact tendsto_const_nhds
    · have ht : samplePoint k i ≠ 0 := by
        rw [samplePoint, sub_ne_zero]
        exact fun h' => h (Nat.cast_injective h').symm
      have h2 : Tendsto (fun e => 2 * σ e ^ 2) F (𝓝[>] 0) := by
        refine tendsto_nhdsWithin_iff.2 ⟨?_, Eventually.of_forall fun e => ?_⟩
        · have := (hσ.pow 2).const_mul 2
          simpa using this
        · have := hnz e
          show 0 < 2 * σ e ^ 2
          positivity
      have h3 : Tendsto (fun e => -(samplePoint k i ^ 2) / (2 * σ e ^ 2)) F atBot := by
        have h4 : Tendsto (fun e => (2 * σ e ^ 2)⁻¹) F atTop := tendsto_inv_nhdsGT_zero.comp h2
        have := h4.const_mul_atTop_of_neg (r := -(samplePoint k i ^ 2)) (by have := pow_pos (abs_pos.2 ht) 2; rw [sq_abs] at this; linarith)
        exact this.congr fun e => (div_eq_mul_inv _ _).symm
      exact Real.tendsto_exp_atBot.comp h3
  simp only [gaussWeights_zero hj]
  have hs := tendsto_list_sum (F := F) (List.range k) (f := fun i e => bell (σ e) (samplePoint k i)) (a := fun i => if i = k / 2 then 1 else 0) fun i _ => hb i
  have hk : (((List.range k).map fun i => if i = k / 2 then (1 : ℝ) else 0).sum) = 1 := by
    rw [List.sum_map_ite_eq]
    have : k / 2 < k := by omega
    simp [List.count_eq_one_of_mem List.nodup_range (List.mem_range.2 this)]
  rw [hk] at hs
  have e : (spike k).getD j 0 = (if j = k / 2 then (1 : ℝ) else 0) / 1 := by simp [spike, hj]
  rw [e]
  exact (hb j).div hs one_ne_zero

/-- sliding a spike reads one sample -/
theorem slide_spike {y : Tensor ℝ} {o : PoolOp ℝ} {k : Nat} (hk : 0 < k) (ho : o.kernel = spike k) {ix : List Nat} (h : InB (slide y o).shape ix) :
    (slide y o).get ix = y.get (ix.set o.axis (ix.getD o.axis 0 * o.stride + k / 2)) := by
  have hl : o.kernel.length = k := by rw [ho]; simp [spike]
  rw [slide_get (by intro hn; rw [hn] at hl; simp at hl; omega) h, hl, ho]
  have hk2 : k / 2 ∈ List.range k := List.mem_range.2 (by omega)
  rw [List.sum_map_eq_nsmul_single (k / 2)]
  · rw [List.count_eq_one_of_mem List.nodup_range hk2]
    simp [spike, List.mem_range.1 hk2]
  · intro j hne hj
    simp [spike, List.mem_range.1 hj, hne]

/-- filtering with spikes reads one sample -/
theorem poolSeq_spikes {c : Nat → Nat} : ∀ {ops : List (PoolOp ℝ)} {y : Tensor ℝ}, (ops.map (·.axis)).Nodup → (∀ o ∈ ops, 0 < c o.axis ∧ o.kernel = spike (c o.axis) ∧ o.stride = 1) →
    Fitting y ops → ∀ {ix : List Nat}, InB (poolSeq y ops).shape ix →
    InB y.shape ((List.range ix.length).map fun k => ix.getD k 0 + if k ∈ ops.map (·.axis) then c k / 2 else 0) ∧
      (poolSeq y ops).get ix = y.get ((List.range ix.length).map fun k => ix.getD k 0 + if k ∈ ops.map (·.axis) then c k / 2 else 0)
  | [], y, _, _, _, ix, hix => by
    have e : ((List.range ix.length).map fun k => ix.getD k 0 + if k ∈ ([] : List (PoolOp ℝ)).map (·.axis) then c k / 2 else 0) = ix := by
      apply List.ext_getElem (by simp)
      intro i h1 h2
      simp [h2]
    rw [e]
    exact ⟨hix, rfl⟩
  | o :: ops, y, hnd, ho, hf, ix, hix => by
    rw [List.map_cons, List.nodup_cons] at hnd
    obtain ⟨h1, h2, h3⟩ := ho o (by simp)
    have hne : o.kernel ≠ [] := fun hn => by
      have := congrArg List.length (h2.symm.trans hn)
      simp [spike] at this
      omega
    obtain ⟨i1, i2⟩ := poolSeq_spikes (c := c) (y := slide y o) hnd.2 (fun q hq => ho q (by simp [hq])) hf.2 (ix := ix) hix
    obtain ⟨f1, f2, -⟩ := hf.1 hne
    have hin := slide_inB f2 f1 hne i1 (j := c o.axis / 2) (by rw [h2]; simp [spike]; omega)
    have hlen : o.axis < ix.length := by
      have := i1.length_eq
      have h4 : (slide y o).shape.length = y.shape.length := by rw [slide_shape, if_neg hne]; simp
      simp only [List.length_map, List.length_range, h4] at this
      rw [this]
      exact f1
    have e : (((List.range ix.length).map fun k => ix.getD k 0 + if k ∈ ops.map (·.axis) then c k / 2 else 0).set o.axis
        (((List.range ix.length).map fun k => ix.getD k 0 + if k ∈ ops.map (·.axis) then c k / 2 else 0).getD o.axis 0 * o.stride + c o.axis / 2)) =
        (List.range ix.length).map fun k => ix.getD k 0 + if k ∈ (o :: ops).map (·.axis) then c k / 2 else 0 := by
      apply List.ext_getElem (by simp)
      intro i g1 g2
      have hi : i < ix.length := by simpa using g2
      rw [List.getElem_set]
      split_ifs with hia
      · subst hia
        rw [h3, getD_map_range hlen, if_neg hnd.1]
        simp
      · simp [Ne.symm hia]
    rw [e] at hin
    refine ⟨hin, ?_⟩
    show (poolSeq (slide y o) ops).get ix = _
    rw [i2, slide_spike h1 h2 i1, e]

theorem spikes_entry (i : Nat) : (size.map spike).entry [] i = spike (size.entry 0 i) := given_entry_map spike size 0 i

theorem mem_axes {i : Nat} (hi : i < axes.length) : axes.getD i 0 ∈ axes := by
  rw [List.getD_eq_getElem?_getD, List.getElem?_eq_getElem hi]
  exact List.getElem_mem hi

/-- a same-padded filter of spikes is the identity -/
theorem filtered_spikes {gp : PadArgs ℝ} (hc : SameCall (PoolArgs.filter (size.map spike)) gp x ax axes) (hk : ∀ i < axes.length, 0 < size.entry 0 i)
    (hper : ∀ i < axes.length, (gp.mode.entry .unknown i).isPeriodize = false ∨ x.shape.getD (axes.getD i 0) 0 % 2 = 0) : filtered (size.map spike) gp x axes = x := by
  have hsh := filtered_shape hc hper
  refine ext_get hsh fun ix hix => ?_
  have hix' : InB x.shape ix := hsh ▸ hix
  obtain ⟨c, hcc⟩ : ∃ c : Nat → Nat, ∀ i < axes.length, c (axes.getD i 0) = size.entry 0 i := by
    refine ⟨fun k => size.entry 0 (axes.idxOf k), fun i hi => ?_⟩
    have e : axes.getD i 0 = axes[i] := by simp [hi]
    rw [e]
    simp only [hc.nodup.idxOf_getElem i hi]
  have hax : ((PoolArgs.filter (size.map spike)).ops axes).map (·.axis) = axes := by
    apply List.ext_getElem (by simp [PoolArgs.ops])
    intro i h1 h2
    simp [PoolArgs.ops, PoolArgs.op, h2]
  have hs := poolSeq_spikes (c := c) (ops := (PoolArgs.filter (size.map spike)).ops axes) (y := padSeq x (sameOps (PoolArgs.filter (size.map spike)) gp x.shape axes)) (by rw [hax]; exact hc.nodup)
    (fun o ho => ?_) hc.poolOps.fitting hix
  · rw [hax] at hs
    rw [filtered, hs.2]
    have e : ((List.range ix.length).map fun k => ix.getD k 0 + if k ∈ axes then c k / 2 else 0) = embed (sameOps (PoolArgs.filter (size.map spike)) gp x.shape axes) ix := by
      rw [embed]
      refine List.map_congr_left fun k _ => ?_
      congr 1
      split_ifs with hka
      · obtain ⟨i, hi, rfl⟩ := List.mem_iff_getElem.1 hka
        have e : axes[i] = axes.getD i 0 := by simp [hi]
        rw [e, hcc i hi, filter_before hc.nodup hi, spikes_entry]
        simp [spike]
      · rw [filter_before_none hka]
    rw [e]
    exact padSeq_crop hc.opsOK (by rw [sameOps_fst]; exact hc.nodup) x hc.lt hix'
  · obtain ⟨i, hi, rfl⟩ := mem_ops.1 ho
    refine ⟨?_, ?_, rfl⟩
    · show 0 < c (axes.getD i 0)
      rw [hcc i hi]
      exact hk i hi
    · show (size.map spike).entry [] i = spike (c (axes.getD i 0))
      rw [hcc i hi, spikes_entry]

theorem gauss_sizes {L : Nat → List ℝ} (hlen : ∀ k, (L k).length = k) (hm : axes.length = m) {sigma : Given ℝ} :
    SameSizes axes.length (⟨gaussKernels m size sigma (.one 0), st⟩ : PoolArgs ℝ) ⟨size.map L, st⟩ := by
  refine ⟨rfl, fun j hj => ?_⟩
  have h0 : L 0 = [] := List.length_eq_zero_iff.1 (hlen 0)
  have := given_entry_map L size 0 j
  rw [h0] at this
  show ((gaussKernels m size sigma (.one 0)).entry [] j).length = ((size.map L).entry [] j).length
  rw [this, hlen, gaussKernels_entry (hm ▸ hj), gaussWeights_length]

/-- **C162.** As the sigmas of a `GaussianPoolNd` grow, the pooled image tends to the result of the `AvgPoolNd` of the same sizes and strides, at every position; without a padder. -/
theorem C162_wide (hm0 : 0 < m) (hs : size.Fits m) (hg : ∀ e, (sigma e).Fits m) (hst : st.Fits m) (hv : ∀ s ∈ st.values, s ≠ some 0) (hnz : ∀ e, ∀ s ∈ (sigma e).values, s ≠ 0)
    (hσ : ∀ i < m, Tendsto (fun e => |(sigma e).entry 1 i|) F atTop) (hm : axes.length = m) (hax : axesOf x.ndim ax = some axes)
    (hf : Fitting x ((⟨size.map avgKernel, st⟩ : PoolArgs ℝ).ops axes)) (junk : List Nat → ℝ) :
    ∃ (pool : E → SepPool ℝ) (avg : SepPool ℝ) (z : E → Tensor ℝ) (u : Tensor ℝ),
      (∀ e, SepPool.gaussInit (size.toPy pyNat) ((sigma e).toPy Py.leaf) (.leaf 0) (st.toPy PoolArgs.pyStride) = .ok (pool e)) ∧
      SepPool.avgInit (size.toPy fun k : Nat => .leaf (some (k : Int))) (st.toPy PoolArgs.pyStride) = .ok avg ∧
      (∀ e, ((pool e).forward none junk x ax).2 = .ok (z e)) ∧ (avg.forward none junk x ax).2 = .ok u ∧ (∀ e, (z e).shape = u.shape) ∧
      ∀ ix, InB u.shape ix → Tendsto (fun e => (z e).get ix) F (𝓝 (u.get ix)) := by
  choose pool e1 hb _ using fun e => C34_gaussian_kernels (order := .one 0) (st := st) hm0 hs (hg e) trivial hst hv (hnz e)
  obtain ⟨avg, a1, ha, -⟩ := C34_average_kernels (α := ℝ) hm0 hs hst hv
  have hlen : ∀ k, (avgKernel (α := ℝ) k).length = k := fun k => by simp [avgKernel]
  have hq := gauss_limit_weights (F := F) (size := size) (sigma := sigma) (st := st) (axes := axes) hlen hm fun i hi j hj => gaussWeights_wide (hσ i hi) hj
  obtain ⟨T, hT⟩ := hq.pooled arithmetic_tends none (List.range axes.length) (x := fun _ => x) ⟨fun _ => rfl, fun ix _ => arithmetic_tends.const _⟩ (fun i hi => List.mem_range.1 hi) hf
  refine ⟨pool, avg, _, _, e1, a1, fun e => by rw [(hb e).poolIs.1.forward_none hax (fun _ => hm) ((gauss_sizes hlen hm).fitting (fun j hj => List.mem_range.1 hj) rfl hf) junk]; rfl,
    by rw [ha.poolIs.1.forward_none hax (fun _ => hm) hf junk]; rfl, fun e => (hT.shape (some e)).trans (hT.shape none).symm, fun ix hix => ?_⟩
  exact hT.entry ix (hT.shape none ▸ hix)

/-- **C162** with a padder whose modes are affine -/
theorem C162_wide_same {gp : PadArgs ℝ} {p : Padder ℝ} (hm0 : 0 < m) (hs : size.Fits m) (hg : ∀ e, (sigma e).Fits m) (hst : st.Fits m) (hv : ∀ s ∈ st.values, s ≠ some 0)
    (hnz : ∀ e, ∀ s ∈ (sigma e).values, s ≠ 0) (hσ : ∀ i < m, Tendsto (fun e => |(sigma e).entry 1 i|) F atTop) (hm : axes.length = m)
    (hc : SameCall (⟨size.map avgKernel, st⟩ : PoolArgs ℝ) gp x ax axes) (hl : ∀ i < axes.length, (gp.entry i).Affine) (hp : Holds p gp) (junk : List Nat → ℝ) :
    ∃ (pool : E → SepPool ℝ) (avg : SepPool ℝ) (z : E → Tensor ℝ) (u : Tensor ℝ),
      (∀ e, SepPool.gaussInit (size.toPy pyNat) ((sigma e).toPy Py.leaf) (.leaf 0) (st.toPy PoolArgs.pyStride) = .ok (pool e)) ∧
      SepPool.avgInit (size.toPy fun k : Nat => .leaf (some (k : Int))) (st.toPy PoolArgs.pyStride) = .ok avg ∧
      (∀ e, ((pool e).forward (some p) junk x ax).2 = .ok (z e)) ∧ (avg.forward (some p) junk x ax).2 = .ok u ∧ (∀ e, (z e).shape = u.shape) ∧
      ∀ ix, InB u.shape ix → Tendsto (fun e => (z e).get ix) F (𝓝 (u.get ix)) := by
  choose pool e1 hb _ using fun e => C34_gaussian_kernels (order := .one 0) (st := st) hm0 hs (hg e) trivial hst hv (hnz e)
  obtain ⟨avg, a1, ha, -⟩ := C34_average_kernels (α := ℝ) hm0 hs hst hv
  have hlen : ∀ k, (avgKernel (α := ℝ) k).length = k := fun k => by simp [avgKernel]
  have hq := gauss_limit_weights (F := F) (size := size) (sigma := sigma) (st := st) (axes := axes) hlen hm fun i hi j hj => gaussWeights_wide (hσ i hi) hj
  have hcs : ∀ e, SameCall (⟨gaussKernels m size (sigma e) (.one 0), st⟩ : PoolArgs ℝ) gp x ax axes := fun e =>
    (gauss_sizes hlen hm).sameCall (fun _ => by subst hm; exact ⟨gaussKernels_fits, hst⟩) hc
  obtain ⟨T, hT⟩ := hq.same arithmetic_tends (x := fun _ => x) ⟨fun _ => rfl, fun ix _ => arithmetic_tends.const _⟩ none (fun e => by cases e <;> [exact hc; exact hcs _]) hl
  refine ⟨pool, avg, _, _, e1, a1, fun e => by rw [(hb e).poolIs.1.forward_same (hcs e) (fun _ => hm) hp junk]; rfl,
    by rw [ha.poolIs.1.forward_same hc (fun _ => hm) hp junk]; rfl, fun e => (hT.shape (some e)).trans (hT.shape none).symm, fun ix hix => ?_⟩
  exact hT.entry ix (hT.shape none ▸ hix)

/-- narrow Gaussian filters -/
theorem filtered_narrow {gp : PadArgs ℝ} (hs : size.Fits m) (hg : ∀ e, (sigma e).Fits m) (hnz : ∀ e, ∀ s ∈ (sigma e).values, s ≠ 0)
    (hσ : ∀ i < m, Tendsto (fun e => (sigma e).entry 1 i) F (𝓝 0)) (hm : axes.length = m) (hk : ∀ i < m, 0 < size.entry 0 i)
    (hc : ∀ e, SameCall (PoolArgs.filter (gaussKernels m size (sigma e) (.one 0))) gp x ax axes) (hl : ∀ i < axes.length, (gp.entry i).Affine)
    (hper : ∀ i < axes.length, (gp.mode.entry .unknown i).isPeriodize = false ∨ x.shape.getD (axes.getD i 0) 0 % 2 = 0) {ix : List Nat} (hix : InB x.shape ix) :
    Tendsto (fun e => (filtered (gaussKernels m size (sigma e) (.one 0)) gp x axes).get ix) F (𝓝 (x.get ix)) := by
  by_cases hE : Nonempty E
  swap
  · have : F = ⊥ := by
      have := not_nonempty_iff.1 hE
      exact filter_eq_bot_of_isEmpty F
    rw [this]
    exact tendsto_bot
  obtain ⟨e0⟩ := hE
  have hlen : ∀ k, (spike k).length = k := fun k => by simp [spike]
  have hne : ∀ e, ∀ i < m, (sigma e).entry 1 i ≠ 0 := fun e i hi => hnz e _ (entry_mem (hg e) 1 fun _ => hi)
  have hq := gauss_limit_weights (F := F) (size := size) (sigma := sigma) (st := .one (some 1)) (axes := axes) hlen hm fun i hi j hj => gaussWeights_narrow (hσ i hi) (fun e => hne e i hi) hj
  have hcn : SameCall (PoolArgs.filter (size.map spike)) gp x ax axes := by
    refine (gauss_sizes (size := size) (st := .one (some 1)) (sigma := sigma e0) hlen hm).symm.sameCall (fun _ => ⟨?_, trivial⟩) (hc e0)
    show (size.map spike).Fits axes.length
    rw [hm]
    cases size with
    | one k => trivial
    | many l => exact (List.length_map _).trans hs
  obtain ⟨T, hT⟩ := hq.same arithmetic_tends (x := fun _ => x) ⟨fun _ => rfl, fun ix _ => arithmetic_tends.const _⟩ none (fun e => by cases e <;> [exact hcn; exact hc _]) hl
  have hx := filtered_spikes hcn (hm ▸ hk) hper
  have hTx : x.shape = T := by
    have := hT.shape none
    rw [← this]
    exact (congrArg Tensor.shape hx).symm
  have h2 : Tendsto (fun e => (filtered (gaussKernels m size (sigma e) (.one 0)) gp x axes).get ix) F (𝓝 ((filtered (size.map spike) gp x axes).get ix)) := hT.entry ix (hTx ▸ hix)
  rw [hx] at h2
  exact h2

/-- **C162.** As the sigmas of a `GaussianPoolNd` of stride 1 tend to zero, the same-padded result tends to the image, for kernels of odd and of even size: an even kernel does not shift the image. -/
theorem C162_narrow {gp : PadArgs ℝ} {p : Padder ℝ} (hm0 : 0 < m) (hs : size.Fits m) (hg : ∀ e, (sigma e).Fits m) (hnz : ∀ e, ∀ s ∈ (sigma e).values, s ≠ 0)
    (hσ : ∀ i < m, Tendsto (fun e => (sigma e).entry 1 i) F (𝓝 0)) (hm : axes.length = m) (hk : ∀ i < m, 0 < size.entry 0 i)
    (hc : ∀ e, SameCall (PoolArgs.filter (gaussKernels m size (sigma e) (.one 0))) gp x ax axes) (hl : ∀ i < axes.length, (gp.entry i).Affine)
    (hper : ∀ i < axes.length, (gp.mode.entry .unknown i).isPeriodize = false ∨ x.shape.getD (axes.getD i 0) 0 % 2 = 0) (hp : Holds p gp) (junk : List Nat → ℝ) :
    ∃ (pool : E → SepPool ℝ) (z : E → Tensor ℝ),
      (∀ e, SepPool.gaussInit (size.toPy pyNat) ((sigma e).toPy Py.leaf) (.leaf 0) (.leaf (some 1)) = .ok (pool e)) ∧
      (∀ e, ((pool e).forward (some p) junk x ax).2 = .ok (z e)) ∧ (∀ e, (z e).shape = x.shape) ∧ ∀ ix, InB x.shape ix → Tendsto (fun e => (z e).get ix) F (𝓝 (x.get ix)) := by
  choose pool e1 hb _ using fun e => C34_gaussian_kernels (order := .one 0) (st := .one (some 1)) hm0 hs (hg e) trivial trivial (by simp [Given.values]) (hnz e)
  exact ⟨pool, fun e => filtered (gaussKernels m size (sigma e) (.one 0)) gp x axes, e1, fun e => by rw [(hb e).poolIs.1.forward_same (hc e) (fun _ => hm) hp junk]; rfl,
    fun e => filtered_shape (hc e) hper, fun ix hix => filtered_narrow hs hg hnz hσ hm hk hc hl hper hix⟩

/-- **C162.** As the sigmas tend to zero, unsharp masking with a Gaussian tends to the image, whatever the amount and the threshold; with a threshold above zero every pixel is left as it is from some
point on. -/
theorem C162_sharpen {gp : PadArgs ℝ} {p : Padder ℝ} {amount threshold : ℝ} (hm0 : 0 < m) (hs : size.Fits m) (hg : ∀ e, (sigma e).Fits m) (hnz : ∀ e, ∀ s ∈ (sigma e).values, s ≠ 0)
    (hst : st.Fits m) (hv : ∀ s ∈ st.values, s ≠ some 0)
    (hσ : ∀ i < m, Tendsto (fun e => (sigma e).entry 1 i) F (𝓝 0)) (hm : axes.length = m) (hk : ∀ i < m, 0 < size.entry 0 i)
    (hc : ∀ e, SharpenCall (gaussKernels m size (sigma e) (.one 0)) m gp x ax axes) (hl : ∀ i < axes.length, (gp.entry i).Affine) (hp : Holds p gp) (junk : List Nat → ℝ) :
    ∃ (pool : E → SepPool ℝ) (u : E → UnsharpMask ℝ) (z : E → Tensor ℝ),
      (∀ e, SepPool.gaussInit (size.toPy pyNat) ((sigma e).toPy Py.leaf) (.leaf 0) (st.toPy PoolArgs.pyStride) = .ok (pool e) ∧ UnsharpMask.init (pool e) amount threshold = .ok (u e)) ∧
      (∀ e, ((u e).forward (some p) junk x ax).2 = .ok (z e)) ∧ (∀ e, (z e).shape = x.shape) ∧
      ∀ ix, InB x.shape ix → Tendsto (fun e => (z e).get ix) F (𝓝 (x.get ix)) ∧ (0 < threshold → ∀ᶠ e in F, (z e).get ix = x.get ix) := by
  choose pool e1 hb _ using fun e => C34_gaussian_kernels (order := .one 0) (st := st) hm0 hs (hg e) trivial hst hv (hnz e)
  choose u hu _ using fun e => C45_pooling (hb e) amount threshold
  choose q hq using fun e => unsharp_form (hb e) (hu e) (hc e) hp junk
  refine ⟨pool, u, fun e => sharpenedImage amount threshold (gaussKernels m size (sigma e) (.one 0)) gp x axes, fun e => ⟨e1 e, hu e⟩, fun e => by rw [hq e], fun e => rfl, fun ix hix => ?_⟩
  by_cases hE : Nonempty E
  swap
  · have : F = ⊥ := by
      have := not_nonempty_iff.1 hE
      exact filter_eq_bot_of_isEmpty F
    rw [this]
    exact ⟨tendsto_bot, fun _ => eventually_bot⟩
  obtain ⟨e0⟩ := hE
  have hn := filtered_narrow hs hg hnz hσ hm hk (fun e => (hc e).call) hl (hc e0).keep hix
  have hd : Tendsto (fun e => x.get ix - (filtered (gaussKernels m size (sigma e) (.one 0)) gp x axes).get ix) F (𝓝 0) := by
    have := (tendsto_const_nhds (x := x.get ix)).sub hn
    rwa [sub_self] at this
  have hg' : ∀ e, (sharpenedImage amount threshold (gaussKernels m size (sigma e) (.one 0)) gp x axes).get ix =
      sharpened amount threshold (x.get ix) ((filtered (gaussKernels m size (sigma e) (.one 0)) gp x axes).get ix) := fun e => by
    rw [sharpenedImage, get_ofFn hix]
  simp only [hg']
  constructor
  · rw [tendsto_iff_dist_tendsto_zero]
    refine squeeze_zero (fun _ => dist_nonneg) (g := fun e => |amount| * |x.get ix - (filtered (gaussKernels m size (sigma e) (.one 0)) gp x axes).get ix|) (fun e => ?_) ?_
    · rw [Real.dist_eq, sharpened]
      split_ifs
      · rw [sub_self, abs_zero]
        positivity
      · rw [add_sub_cancel_left, abs_mul]
    · have := (hd.abs).const_mul |amount|
      rwa [abs_zero, mul_zero] at this
  · intro ht
    have := hd.abs
    rw [abs_zero] at this
    filter_upwards [this.eventually_lt_const ht] with e he
    rw [sharpened, if_pos he]

/-- **C162.** As the sigmas of the Gaussian window of SSIM grow, the score and the map tend to those with the flat window of the same sizes. -/
theorem C162_ssim {gp : Option (PadArgs ℝ)} {p : Option (Padder ℝ)} {k1 k2 : ℝ} {sc cr : Bool} {y : Tensor ℝ} {rax : Axes} {raxes : List Nat} (hm0 : 0 < m) (hs : size.Fits m) (hg : ∀ e, (sigma e).Fits m)
    (hst : st.Fits m) (hv : ∀ s ∈ st.values, s ≠ some 0) (hnz : ∀ e, ∀ s ∈ (sigma e).values, s ≠ 0) (hσ : ∀ i < m, Tendsto (fun e => |(sigma e).entry 1 i|) F atTop) (hm : axes.length = m)
    (h : BlurCall (size.map avgKernel) gp x ax axes p) (hy : y.shape = x.shape) (hN : sc = true → windowSize (size.map (avgKernel (α := ℝ))) axes.length ≠ 1)
    (hr : axesOf x.ndim rax = some raxes) (hrn : raxes.Nodup) (hc : cr = false ∨ gp = none) (hk : KeepsMoments gp axes) (hk1 : k1 ≠ 0) (hk2 : k2 ≠ 0) (junk : List Nat → ℝ) :
    ∃ (pool : E → SepPool ℝ) (avg : SepPool ℝ) (s : E → SSIM ℝ) (t : SSIM ℝ) (score full : E → Tensor ℝ) (score' full' : Tensor ℝ),
      (∀ e, SepPool.gaussInit (size.toPy pyNat) ((sigma e).toPy Py.leaf) (.leaf 0) (st.toPy PoolArgs.pyStride) = .ok (pool e) ∧ SSIM.init (pool e) false k1 k2 sc cr = .ok (s e)) ∧
      SepPool.avgInit (size.toPy fun k : Nat => .leaf (some (k : Int))) (st.toPy PoolArgs.pyStride) = .ok avg ∧ SSIM.init avg false k1 k2 sc cr = .ok t ∧
      (∀ e, ((s e).forward junk x y ax rax p).2 = .ok (score e, full e)) ∧ (t.forward junk x y ax rax p).2 = .ok (score', full') ∧
      (∀ e, (score e).shape = score'.shape ∧ (full e).shape = full'.shape) ∧
      (∀ ix, InB score'.shape ix → Tendsto (fun e => (score e).get ix) F (𝓝 (score'.get ix))) ∧
      ∀ ix, InB full'.shape ix → Tendsto (fun e => (full e).get ix) F (𝓝 (full'.get ix)) := by
  choose pool e1 hb e3 using fun e => C34_gaussian_kernels (order := .one 0) (st := st) hm0 hs (hg e) trivial hst hv (hnz e)
  obtain ⟨avg, a1, ha, a3⟩ := C34_average_kernels (α := ℝ) hm0 hs hst hv
  choose g hg' _ using fun e => (hb e).poolIs.1.toFilter
  obtain ⟨g0, hg0, -⟩ := ha.poolIs.1.toFilter
  have hlen : ∀ k, (avgKernel (α := ℝ) k).length = k := fun k => by simp [avgKernel]
  set G : Option E → Given (List ℝ) := fun e => match e with
    | some e => gaussKernels m size (sigma e) (.one 0)
    | none => size.map avgKernel with hG
  have hq : Weights (Tends F) axes.length (.one (some 1)) (fun i => size.entry 0 i) fun e => PoolArgs.filter (G e) := by
    have := gauss_limit_weights (F := F) (size := size) (sigma := sigma) (st := .one (some 1)) (axes := axes) hlen hm fun i hi j hj => gaussWeights_wide (hσ i hi) hj
    have e : (withLimit (fun e => ⟨gaussKernels m size (sigma e) (.one 0), .one (some 1)⟩) ⟨size.map avgKernel, .one (some 1)⟩ : Option E → PoolArgs ℝ) = fun e => PoolArgs.filter (G e) := by
      funext e
      cases e <;> rfl
    rwa [e] at this
  have hcall : ∀ e, BlurCall (G e) gp x ax axes p := fun e => by
    cases e with
    | none => exact h
    | some e =>
      have hss := gauss_sizes (size := size) (st := .one (some 1)) (sigma := sigma e) hlen hm
      cases gp with
      | none => exact ⟨h.1, h.2.1, hss.fitting (fun j hj => List.mem_range.1 hj) rfl h.2.2⟩
      | some gp => exact ⟨h.1, hss.sameCall (fun _ => by subst hm; exact ⟨gaussKernels_fits, trivial⟩) h.2⟩
  have hav : ∀ e, Averages (G e) axes := fun e => by
    cases e with
    | none => exact fun i hi hne => a3 axes hm _ (List.mem_map.2 ⟨i, List.mem_range.2 hi, rfl⟩) hne
    | some e => exact fun i hi hne => e3 e (by simp [Given.values]) axes hm _ (List.mem_map.2 ⟨i, List.mem_range.2 hi, rfl⟩) hne
  have fx : Family (Tends F) x.shape fun _ => x := ⟨fun _ => rfl, fun ix _ => arithmetic_tends.const _⟩
  have fy : Family (Tends F) x.shape fun _ => y := ⟨fun _ => hy, fun ix _ => arithmetic_tends.const _⟩
  have hfull := (hq.maps (sc := sc) (N := windowSize (G none) axes.length) arithmetic_tends fx fy none hcall hav hk (arithmetic_tends.const k1) (arithmetic_tends.const k2) (fun _ => hk1) (fun _ => hk2)).1
  have hscore := hfull.meanOver arithmetic_tends raxes
  have hw := fun e => hq.windowSize_eq e none
  have i1 : ∀ e, SSIM.init (pool e) false k1 k2 sc cr = .ok ⟨g e, false, k1, k2, sc, cr⟩ := fun e => by simp only [SSIM.init, hg', ok_bind]
  have i2 : SSIM.init avg false k1 k2 sc cr = .ok ⟨g0, false, k1, k2, sc, cr⟩ := by simp only [SSIM.init, hg0, ok_bind]
  refine ⟨pool, avg, fun e => ⟨g e, false, k1, k2, sc, cr⟩, ⟨g0, false, k1, k2, sc, cr⟩, _, _, _, _, fun e => ⟨e1 e, i1 e⟩, a1, i2, fun e => ?_, ?_,
    fun e => ⟨(hscore.shape (some e)).trans (hscore.shape none).symm, (hfull.shape (some e)).trans (hfull.shape none).symm⟩,
    fun ix hix => hscore.entry ix (hscore.shape none ▸ hix), fun ix hix => hfull.entry ix (hfull.shape none ▸ hix)⟩
  · have hwe : windowSize (gaussKernels m size (sigma e) (.one 0)) axes.length = windowSize (G none) axes.length := hw (some e)
    rw [C79_formula (i1 e) (hb e) (fun _ => hm) (hcall (some e)) (fun hsc hh => hN hsc (hwe.symm.trans hh)) hy hr hrn hc junk, hwe]
  · rw [C79_formula i2 ha (fun _ => hm) (hcall none) hN hy hr hrn hc junk]

/-- **C162** for MS-SSIM: with the window of a `GaussianPoolNd`, as the sigmas grow it tends to MS-SSIM with the flat window of an `AvgPoolNd`, in the sum form and, for `eps > 0`, in the product form. -/
theorem C162_msssim {y : Tensor ℝ} {gp : Option (PadArgs ℝ)} {p : Option (Padder ℝ)} {k1 k2 eps : ℝ} {sc cr up : Bool} {ws : List ℝ} {rax : Axes} {raxes : List Nat} (hm0 : 0 < m) (hs : size.Fits m)
    (hg : ∀ e, (sigma e).Fits m) (hst : st.Fits m) (hv : ∀ s ∈ st.values, s ≠ some 0) (hnz : ∀ e, ∀ s ∈ (sigma e).values, s ≠ 0) (hσ : ∀ i < m, Tendsto (fun e => |(sigma e).entry 1 i|) F atTop)
    (hm : axes.length = m) (hws : 2 ≤ ws.length) (h : MsCall (size.map avgKernel) gp cr ws.length x ax axes p) (hy : y.shape = x.shape)
    (hN : sc = true → windowSize (size.map (avgKernel (α := ℝ))) axes.length ≠ 1) (hr : axesOf x.ndim rax = some raxes) (hrn : raxes.Nodup) (hk : cr = false → KeepsMoments gp axes)
    (hk1 : k1 ≠ 0) (hk2 : k2 ≠ 0) (hup : up = true → 0 < eps) (junk : List Nat → ℝ) :
    ∃ (pool : E → SepPool ℝ) (avg : SepPool ℝ) (s : E → SSIM ℝ) (t : SSIM ℝ) (score : E → Tensor ℝ) (score' : Tensor ℝ),
      (∀ e, SepPool.gaussInit (size.toPy pyNat) ((sigma e).toPy Py.leaf) (.leaf 0) (st.toPy PoolArgs.pyStride) = .ok (pool e) ∧ SSIM.init (pool e) false k1 k2 sc cr = .ok (s e)) ∧
      SepPool.avgInit (size.toPy fun k : Nat => .leaf (some (k : Int))) (st.toPy PoolArgs.pyStride) = .ok avg ∧ SSIM.init avg false k1 k2 sc cr = .ok t ∧
      (∀ e, ((⟨s e, ws, up, eps⟩ : MsSsim).forward junk x y ax rax p).2 = .ok (score e)) ∧ ((⟨t, ws, up, eps⟩ : MsSsim).forward junk x y ax rax p).2 = .ok score' ∧
      (∀ e, (score e).shape = score'.shape) ∧ ∀ ix, InB score'.shape ix → Tendsto (fun e => (score e).get ix) F (𝓝 (score'.get ix)) := by
  choose pool e1 hb e3 using fun e => C34_gaussian_kernels (order := .one 0) (st := st) hm0 hs (hg e) trivial hst hv (hnz e)
  obtain ⟨avg, a1, ha, a3⟩ := C34_average_kernels (α := ℝ) hm0 hs hst hv
  choose g hg' _ using fun e => (hb e).poolIs.1.toFilter
  obtain ⟨g0, hg0, -⟩ := ha.poolIs.1.toFilter
  have hlen : ∀ k, (avgKernel (α := ℝ) k).length = k := fun k => by simp [avgKernel]
  set G : Option E → Given (List ℝ) := fun e => match e with
    | some e => gaussKernels m size (sigma e) (.one 0)
    | none => size.map avgKernel with hG
  have hq : Weights (Tends F) axes.length (.one (some 1)) (fun i => size.entry 0 i) fun e => PoolArgs.filter (G e) := by
    have := gauss_limit_weights (F := F) (size := size) (sigma := sigma) (st := .one (some 1)) (axes := axes) hlen hm fun i hi j hj => gaussWeights_wide (hσ i hi) hj
    have e : (withLimit (fun e => ⟨gaussKernels m size (sigma e) (.one 0), .one (some 1)⟩) ⟨size.map avgKernel, .one (some 1)⟩ : Option E → PoolArgs ℝ) = fun e => PoolArgs.filter (G e) := by
      funext e
      cases e <;> rfl
    rwa [e] at this
  have hsz : ∀ e i, i < axes.length → ((G e).entry [] i).length = ((G none).entry [] i).length := fun e i hi => (hq.size e i hi).trans (hq.size none i hi).symm
  have hcall : ∀ e, MsCall (G e) gp cr ws.length x ax axes p := fun e => by
    cases e with
    | none => exact h
    | some e =>
      refine ⟨h.axes_eq, h.ne, h.nodup, by subst hm; exact gaussKernels_fits, fun i hi h0 => h.kernel i hi ?_, fun i hi => ?_, h.padder⟩
      · have := hsz (some e) i hi
        rw [show (G (some e)).entry [] i = [] from h0] at this
        exact List.length_eq_zero_iff.1 this.symm
      · have := h.large i hi
        rw [← hsz (some e) i hi] at this
        exact this
  have hp : ∀ e, MsPossible (G e) gp cr axes k1 k2 := fun e => by
    refine ⟨?_, hk, hk1, hk2⟩
    cases e with
    | none => exact fun i hi hne => a3 axes hm _ (List.mem_map.2 ⟨i, List.mem_range.2 hi, rfl⟩) hne
    | some e => exact fun i hi hne => e3 e (by simp [Given.values]) axes hm _ (List.mem_map.2 ⟨i, List.mem_range.2 hi, rfl⟩) hne
  have fx : Family (Tends F) x.shape fun _ => x := ⟨fun _ => rfl, fun ix _ => arithmetic_tends.const _⟩
  have fy : Family (Tends F) x.shape fun _ => y := ⟨fun _ => hy, fun ix _ => arithmetic_tends.const _⟩
  have hscore := (hq.msMap (sc := sc) (N := windowSize (G none) axes.length) (up := up) (eps := eps) (ws := fun _ => ws) arithmetic_tends fx fy none (fun _ => rfl) hcall hp (arithmetic_tends.const k1)
    (arithmetic_tends.const k2) (by
      intro i hi jx hjx hv
      cases up with
      | false => exact Tendsto.mul hv tendsto_const_nhds
      | true =>
        refine Tendsto.rpow_const (Tendsto.max hv tendsto_const_nhds) (Or.inl ?_)
        exact ((hup rfl).trans_le (le_max_right _ _)).ne')).meanOver arithmetic_tends raxes
  have hw := fun e => hq.windowSize_eq e none
  have i1 : ∀ e, SSIM.init (pool e) false k1 k2 sc cr = .ok ⟨g e, false, k1, k2, sc, cr⟩ := fun e => by simp only [SSIM.init, hg', ok_bind]
  have i2 : SSIM.init avg false k1 k2 sc cr = .ok ⟨g0, false, k1, k2, sc, cr⟩ := by simp only [SSIM.init, hg0, ok_bind]
  refine ⟨pool, avg, fun e => ⟨g e, false, k1, k2, sc, cr⟩, ⟨g0, false, k1, k2, sc, cr⟩, _, _, fun e => ⟨e1 e, i1 e⟩, a1, i2, fun e => ?_, ?_,
    fun e => (hscore.shape (some e)).trans (hscore.shape none).symm, fun ix hix => hscore.entry ix (hscore.shape none ▸ hix)⟩
  · have hwe : windowSize (gaussKernels m size (sigma e) (.one 0)) axes.length = windowSize (G none) axes.length := hw (some e)
    rw [C80_formula (i1 e) (hb e) (fun _ => hm) hws (hcall (some e)) (fun hsc hh => hN hsc (hwe.symm.trans hh)) hy hr hrn up eps junk, hwe]
  · rw [C80_formula i2 ha (fun _ => hm) hws (hcall none) hN hy hr hrn up eps junk]

/-- the comparison of two pixels that is left of the SSIM index where all windows are single pixels -/
noncomputable def Spec.pixelwise (k1 : ℝ) (x y : Tensor ℝ) : Tensor ℝ := ofFn x.shape fun ix => (2 * (x.get ix * y.get ix) + k1 ^ 2) / (x.get ix ^ 2 + y.get ix ^ 2 + k1 ^ 2)

theorem isAverage_spike {k : Nat} (hk : 0 < k) : IsAverage (spike k) := by
  constructor
  · intro a ha
    obtain ⟨j, -, rfl⟩ := List.mem_map.1 ha
    split_ifs <;> norm_num
  · rw [spike, List.sum_map_ite_eq]
    simp [List.count_eq_one_of_mem List.nodup_range (List.mem_range.2 (show k / 2 < k by omega))]

/-- **C162** for SSIM with narrow windows: as the sigmas tend to zero, the same-padded map tends to a comparison of single pixels by their values, `(2xy + k1²) / (x² + y² + k1²)`, and the score to its
mean; the second constant and the size of the window play no part in the limit. -/
theorem C162_ssim_narrow {y : Tensor ℝ} {gp : PadArgs ℝ} {p : Option (Padder ℝ)} {k1 k2 : ℝ} {sc : Bool} {rax : Axes} {raxes : List Nat} (hm0 : 0 < m) (hs : size.Fits m) (hg : ∀ e, (sigma e).Fits m)
    (hst : st.Fits m) (hv : ∀ s ∈ st.values, s ≠ some 0) (hnz : ∀ e, ∀ s ∈ (sigma e).values, s ≠ 0) (hσ : ∀ i < m, Tendsto (fun e => (sigma e).entry 1 i) F (𝓝 0)) (hm : axes.length = m)
    (hpos : ∀ i < m, 0 < size.entry 0 i) (h : BlurCall (size.map avgKernel) (some gp) x ax axes p) (hy : y.shape = x.shape)
    (hper : ∀ i < axes.length, (gp.mode.entry .unknown i).isPeriodize = false ∨ x.shape.getD (axes.getD i 0) 0 % 2 = 0)
    (hN : sc = true → windowSize (size.map (avgKernel (α := ℝ))) axes.length ≠ 1)
    (hr : axesOf x.ndim rax = some raxes) (hrn : raxes.Nodup) (hk : KeepsMoments (some gp) axes) (hk1 : k1 ≠ 0) (hk2 : k2 ≠ 0) (junk : List Nat → ℝ) :
    ∃ (pool : E → SepPool ℝ) (s : E → SSIM ℝ) (score full : E → Tensor ℝ),
      (∀ e, SepPool.gaussInit (size.toPy pyNat) ((sigma e).toPy Py.leaf) (.leaf 0) (st.toPy PoolArgs.pyStride) = .ok (pool e) ∧ SSIM.init (pool e) false k1 k2 sc false = .ok (s e)) ∧
      (∀ e, ((s e).forward junk x y ax rax p).2 = .ok (score e, full e)) ∧
      (∀ e, (score e).shape = (meanOver (pixelwise k1 x y) raxes).shape ∧ (full e).shape = x.shape) ∧
      (∀ ix, InB (meanOver (pixelwise k1 x y) raxes).shape ix → Tendsto (fun e => (score e).get ix) F (𝓝 ((meanOver (pixelwise k1 x y) raxes).get ix))) ∧
      ∀ ix, InB x.shape ix → Tendsto (fun e => (full e).get ix) F (𝓝 ((2 * (x.get ix * y.get ix) + k1 ^ 2) / (x.get ix ^ 2 + y.get ix ^ 2 + k1 ^ 2))) := by
  choose pool e1 hb e3 using fun e => C34_gaussian_kernels (order := .one 0) (st := st) hm0 hs (hg e) trivial hst hv (hnz e)
  choose g hg' _ using fun e => (hb e).poolIs.1.toFilter
  have hlen : ∀ k, (spike k).length = k := fun k => by simp [spike]
  have hlena : ∀ k, (avgKernel (α := ℝ) k).length = k := fun k => by simp [avgKernel]
  have hfits : (size.map spike).Fits axes.length := by
    rw [hm]
    cases size with
    | one k => trivial
    | many l => exact (List.length_map _).trans hs
  set G : Option E → Given (List ℝ) := fun e => match e with
    | some e => gaussKernels m size (sigma e) (.one 0)
    | none => size.map spike with hG
  have hne : ∀ e, ∀ i < m, (sigma e).entry 1 i ≠ 0 := fun e i hi => hnz e _ (entry_mem (hg e) 1 fun _ => hi)
  have hq : Weights (Tends F) axes.length (.one (some 1)) (fun i => size.entry 0 i) fun e => PoolArgs.filter (G e) := by
    have := gauss_limit_weights (F := F) (size := size) (sigma := sigma) (st := .one (some 1)) (axes := axes) hlen hm fun i hi j hj => gaussWeights_narrow (hσ i hi) (fun e => hne e i hi) hj
    have e : (withLimit (fun e => ⟨gaussKernels m size (sigma e) (.one 0), .one (some 1)⟩) ⟨size.map spike, .one (some 1)⟩ : Option E → PoolArgs ℝ) = fun e => PoolArgs.filter (G e) := by
      funext e
      cases e <;> rfl
    rwa [e] at this
  have hga : ∀ e, BlurCall (gaussKernels m size (sigma e) (.one 0)) (some gp) x ax axes p := fun e =>
    ⟨h.1, (gauss_sizes (size := size) (st := .one (some 1)) (sigma := sigma e) hlena hm).sameCall (fun _ => by subst hm; exact ⟨gaussKernels_fits, trivial⟩) h.2⟩
  have hsa : SameSizes axes.length (PoolArgs.filter (size.map spike)) (PoolArgs.filter (size.map (avgKernel (α := ℝ)))) := by
    have e1 := gauss_sizes (size := size) (st := .one (some 1)) (sigma := .one 1) hlena hm
    have e2 := gauss_sizes (size := size) (st := .one (some 1)) (sigma := .one 1) hlen hm
    exact ⟨rfl, fun j hj => (e2.2 j hj).symm.trans (e1.2 j hj)⟩
  have hcall : ∀ e, BlurCall (G e) (some gp) x ax axes p := fun e => by
    cases e with
    | none => exact ⟨h.1, hsa.sameCall (fun _ => ⟨hfits, trivial⟩) h.2⟩
    | some e => exact hga e
  have hav : ∀ e, Averages (G e) axes := fun e => by
    cases e with
    | none =>
      intro i hi _
      show IsAverage ((size.map spike).entry [] i)
      rw [spikes_entry]
      exact isAverage_spike (hpos i (hm ▸ hi))
    | some e => exact fun i hi hne => e3 e (by simp [Given.values]) axes hm _ (List.mem_map.2 ⟨i, List.mem_range.2 hi, rfl⟩) hne
  have fx : Family (Tends F) x.shape fun _ => x := ⟨fun _ => rfl, fun ix _ => arithmetic_tends.const _⟩
  have fy : Family (Tends F) x.shape fun _ => y := ⟨fun _ => hy, fun ix _ => arithmetic_tends.const _⟩
  have hfull := (hq.maps (sc := sc) (N := windowSize (G none) axes.length) arithmetic_tends fx fy none hcall hav hk (arithmetic_tends.const k1) (arithmetic_tends.const k2) (fun _ => hk1) (fun _ => hk2)).1
  have hid : ∀ z : Tensor ℝ, z.shape = x.shape → blurred (G none) (some gp) axes z = z := fun z hz =>
    filtered_spikes (blurCall_congr (hcall none) hz).2 (hm ▸ hpos) (by rw [hz]; exact hper)
  have hpix : ssimMap k1 k2 (covFactor sc (windowSize (G none) axes.length)) (blurred (G none) (some gp) axes) x y = pixelwise k1 x y := by
    rw [ssimMap, pixelwise, hid x rfl, hid y hy, hid (times x x) rfl, hid (times y y) hy, hid (times x y) rfl]
    refine ext_get rfl fun ix hix => ?_
    have hix : InB x.shape ix := hix
    have hiy : InB y.shape ix := hy ▸ hix
    rw [get_ofFn hix, get_ofFn hix, times, times, times, get_ofFn hix, get_ofFn hiy, get_ofFn hix, ssimIndex]
    have hk2' : k2 ^ 2 ≠ 0 := pow_ne_zero 2 hk2
    have e : ∀ a : ℝ, a * a - a ^ 2 = 0 := fun a => by ring
    simp only [e, sub_self, mul_zero, add_zero, zero_add]
    rw [mul_div_mul_right _ _ hk2']
  have hscore := hfull.meanOver arithmetic_tends raxes
  have hw := fun e => hq.windowSize_eq e none
  have i1 : ∀ e, SSIM.init (pool e) false k1 k2 sc false = .ok ⟨g e, false, k1, k2, sc, false⟩ := fun e => by simp only [SSIM.init, hg', ok_bind]
  have hsh : (ssimMap k1 k2 (covFactor sc (windowSize (G none) axes.length)) (blurred (G none) (some gp) axes) x y).shape = x.shape := by rw [hpix]; rfl
  have hwn : windowSize (size.map (avgKernel (α := ℝ))) axes.length = windowSize (G none) axes.length := by
    rw [windowSize, windowSize]
    congr 1
    exact List.map_congr_left fun i hi => (hsa.2 i (List.mem_range.1 hi)).symm
  rw [← hpix]
  refine ⟨pool, fun e => ⟨g e, false, k1, k2, sc, false⟩, _, _, fun e => ⟨e1 e, i1 e⟩, fun e => ?_,
    fun e => ⟨(hscore.shape (some e)).trans (hscore.shape none).symm, ((hfull.shape (some e)).trans (hfull.shape none).symm).trans hsh⟩,
    fun ix hix => hscore.entry ix (hscore.shape none ▸ hix), fun ix hix => ?_⟩
  · have hwe : windowSize (gaussKernels m size (sigma e) (.one 0)) axes.length = windowSize (G none) axes.length := hw (some e)
    rw [C79_formula (i1 e) (hb e) (fun _ => hm) (hcall (some e)) (fun hsc hh => hN hsc (hwn.trans (hwe.symm.trans hh))) hy hr hrn (Or.inl rfl) junk, hwe]
  · have := hfull.entry ix (hfull.shape none ▸ hsh ▸ hix)
    rw [Tends, hpix, pixelwise, get_ofFn hix] at this
    exact this

/-- five pixels -/
def GaussLimitExample.five : Tensor ℝ := ⟨[5], [3, 1, 4, 1, 5], rfl⟩

/-- a reflected border -/
def GaussLimitExample.mirrored : PadArgs ℝ := ⟨.one (0, 0), .one .reflect, .one (0, 0), .one (0, 0), .one (none, none)⟩

open GaussLimitExample in
/-- windows of three pixels: as sigma grows, the Gaussian pooling of the five pixels tends to their moving average -/
example (junk : List Nat → ℝ) : ∃ (pool : ℝ → SepPool ℝ) (avg : SepPool ℝ) (z : ℝ → Tensor ℝ) (u : Tensor ℝ),
    (∀ s, SepPool.gaussInit (.leaf 3) (.leaf (s ^ 2 + 1)) (.leaf 0) (.leaf (some 1)) = .ok (pool s)) ∧ SepPool.avgInit (.leaf (some 3)) (.leaf (some 1)) = .ok avg ∧
    (∀ s, ((pool s).forward none junk five (.int 0)).2 = .ok (z s)) ∧ (avg.forward none junk five (.int 0)).2 = .ok u ∧ (∀ s, (z s).shape = u.shape) ∧
    ∀ ix, InB u.shape ix → Tendsto (fun s => (z s).get ix) atTop (𝓝 (u.get ix)) := by
  refine C162_wide (m := 1) (size := .one 3) (st := .one (some 1)) (sigma := fun s : ℝ => .one (s ^ 2 + 1)) (axes := [0]) one_pos trivial (fun _ => trivial) trivial (by simp [Given.values])
    (fun e s hs => by simp [Given.values] at hs; rw [hs]; positivity) (fun i _ => ?_) rfl rfl ⟨fun _ => ⟨by simp [ndim, PoolArgs.op, five], Nat.one_pos, ?_⟩, trivial⟩ junk
  · have h : Tendsto (fun s : ℝ => s ^ 2 + 1) atTop atTop := tendsto_atTop_add_const_right _ _ (tendsto_pow_atTop two_ne_zero)
    refine h.congr fun s => ?_
    show s ^ 2 + 1 = |s ^ 2 + 1|
    rw [abs_of_nonneg (by positivity)]
  · simp [PoolArgs.op, Given.map, Given.entry, avgKernel, five]

open GaussLimitExample in
theorem GaussLimitExample.five_call (s : ℝ) {ax : Axes} (h : axesOf 1 ax = some [0]) :
    SameCall (PoolArgs.filter (gaussKernels 1 (.one 4) (.one (1 / (s ^ 2 + 1))) (.one 0))) mirrored five ax [0] where
  axes_eq := h
  ne := by simp
  nodup := by simp
  fits := fun h => by cases h
  rest := by simp [mirrored, PadArgs.FitsRest, Given.Fits]
  stride := fun _ _ => Nat.one_pos
  pos := by simp [five]
  valued := by
    intro o ho _
    obtain ⟨i, hi, rfl⟩ := sameOps_mem ho
    exact ⟨by simp [sameSetting, mirrored, Given.entry, AxisPad.rule?], by simp [sameSetting, mirrored, Given.entry]⟩

open GaussLimitExample in
/-- windows of four pixels and a reflected border: as sigma tends to zero, the filtered pixels tend to the pixels, in their places -/
example (junk : List Nat → ℝ) : ∃ (pool : ℝ → SepPool ℝ) (z : ℝ → Tensor ℝ),
    (∀ s, SepPool.gaussInit (.leaf 4) (.leaf (1 / (s ^ 2 + 1))) (.leaf 0) (.leaf (some 1)) = .ok (pool s)) ∧
    (∀ s, ((pool s).forward (some (mirrored.padder 1)) junk five (.int 0)).2 = .ok (z s)) ∧ (∀ s, (z s).shape = [5]) ∧
    ∀ ix, InB [5] ix → Tendsto (fun s => (z s).get ix) atTop (𝓝 (five.get ix)) := by
  refine C162_narrow (m := 1) (size := .one 4) (sigma := fun s : ℝ => .one (1 / (s ^ 2 + 1))) (axes := [0]) (gp := mirrored) (x := five) one_pos trivial (fun _ => trivial)
    (fun e s hs => by simp [Given.values] at hs; rw [hs]; positivity) (fun i _ => ?_) rfl (fun i _ => by simp [Given.entry]) (fun e => ?_) (fun i _ => trivial) (fun i _ => Or.inl rfl) (holds_padder _ 1) junk
  · have h : Tendsto (fun s : ℝ => s ^ 2 + 1) atTop atTop := tendsto_atTop_add_const_right _ _ (tendsto_pow_atTop two_ne_zero)
    exact h.const_div_atTop 1
  · exact five_call e rfl

open GaussLimitExample in
/-- sharpening the five pixels with narrow Gaussians -/
example (junk : List Nat → ℝ) : ∃ (pool : ℝ → SepPool ℝ) (u : ℝ → UnsharpMask ℝ) (z : ℝ → Tensor ℝ),
    (∀ s, SepPool.gaussInit (.leaf 4) (.leaf (1 / (s ^ 2 + 1))) (.leaf 0) (.leaf none) = .ok (pool s) ∧ UnsharpMask.init (pool s) 7 (1 / 10) = .ok (u s)) ∧
    (∀ s, ((u s).forward (some (mirrored.padder 1)) junk five (.int 0)).2 = .ok (z s)) ∧ (∀ s, (z s).shape = [5]) ∧
    ∀ ix, InB [5] ix → Tendsto (fun s => (z s).get ix) atTop (𝓝 (five.get ix)) ∧ (0 < (1 / 10 : ℝ) → ∀ᶠ s in atTop, (z s).get ix = five.get ix) := by
  refine C162_sharpen (m := 1) (size := .one 4) (st := .one none) (sigma := fun s : ℝ => .one (1 / (s ^ 2 + 1))) (axes := [0]) (gp := mirrored) (x := five) one_pos trivial (fun _ => trivial)
    (fun e s hs => by simp [Given.values] at hs; rw [hs]; positivity) trivial (by simp [Given.values]) (fun i _ => ?_) rfl (fun i _ => by simp [Given.entry])
    (fun e => ⟨rfl, five_call e rfl, fun _ => rfl, fun i _ => Or.inl rfl⟩) (fun i _ => trivial) (holds_padder _ 1) junk
  have h : Tendsto (fun s : ℝ => s ^ 2 + 1) atTop atTop := tendsto_atTop_add_const_right _ _ (tendsto_pow_atTop two_ne_zero)
  exact h.const_div_atTop 1

open GaussLimitExample in
/-- SSIM of the five pixels and their negatives, with Gaussian windows of three pixels of growing sigma and with the flat window -/
example (junk : List Nat → ℝ) : ∃ (pool : ℝ → SepPool ℝ) (avg : SepPool ℝ) (s : ℝ → SSIM ℝ) (t : SSIM ℝ) (score full : ℝ → Tensor ℝ) (score' full' : Tensor ℝ),
    (∀ e, SepPool.gaussInit (.leaf 3) (.leaf (e ^ 2 + 1)) (.leaf 0) (.leaf none) = .ok (pool e) ∧ SSIM.init (pool e) false 1 2 true false = .ok (s e)) ∧
    SepPool.avgInit (.leaf (some 3)) (.leaf none) = .ok avg ∧ SSIM.init avg false 1 2 true false = .ok t ∧
    (∀ e, ((s e).forward junk five (ofFn [5] fun ix => -five.get ix) (.int 0) .none none).2 = .ok (score e, full e)) ∧
    (t.forward junk five (ofFn [5] fun ix => -five.get ix) (.int 0) .none none).2 = .ok (score', full') ∧
    (∀ e, (score e).shape = score'.shape ∧ (full e).shape = full'.shape) ∧
    (∀ ix, InB score'.shape ix → Tendsto (fun e => (score e).get ix) atTop (𝓝 (score'.get ix))) ∧
    ∀ ix, InB full'.shape ix → Tendsto (fun e => (full e).get ix) atTop (𝓝 (full'.get ix)) := by
  refine C162_ssim (x := five) (ax := .int 0) (rax := .none) (y := ofFn [5] fun ix => -five.get ix) (m := 1) (size := .one 3) (st := .one none) (sigma := fun s : ℝ => .one (s ^ 2 + 1)) (axes := [0]) (raxes := [0]) (gp := none) (k1 := 1) (k2 := 2) one_pos trivial (fun _ => trivial) trivial
    (by simp [Given.values]) (fun e s hs => by simp [Given.values] at hs; rw [hs]; positivity) (fun i _ => ?_) rfl
    ⟨rfl, rfl, fun _ => ⟨by simp [ndim, PoolArgs.op, five], Nat.one_pos, by simp [PoolArgs.op, PoolArgs.filter, Given.map, Given.entry, avgKernel, five]⟩, trivial⟩ rfl
    (fun _ => by simp [windowSize, Given.map, Given.entry, avgKernel]) rfl (by decide) (Or.inl rfl) (by intro g hg; cases hg) one_ne_zero two_ne_zero junk
  have h : Tendsto (fun s : ℝ => s ^ 2 + 1) atTop atTop := tendsto_atTop_add_const_right _ _ (tendsto_pow_atTop two_ne_zero)
  refine h.congr fun s => ?_
  show s ^ 2 + 1 = |s ^ 2 + 1|
  rw [abs_of_nonneg (by positivity)]

/-- MS-SSIM of two images of eight pixels with two levels, in the product form, with Gaussian windows of three pixels of growing sigma and with the flat window -/
example (x y : Tensor ℝ) (hx : x.shape = [8]) (hy : y.shape = [8]) (junk : List Nat → ℝ) : ∃ (pool : ℝ → SepPool ℝ) (avg : SepPool ℝ) (s : ℝ → SSIM ℝ) (t : SSIM ℝ) (score : ℝ → Tensor ℝ) (score' : Tensor ℝ),
    (∀ e, SepPool.gaussInit (.leaf 3) (.leaf (e ^ 2 + 1)) (.leaf 0) (.leaf none) = .ok (pool e) ∧ SSIM.init (pool e) false 1 2 true false = .ok (s e)) ∧
    SepPool.avgInit (.leaf (some 3)) (.leaf none) = .ok avg ∧ SSIM.init avg false 1 2 true false = .ok t ∧
    (∀ e, ((⟨s e, [1 / 3, 2 / 3], true, 1 / 100⟩ : MsSsim).forward junk x y (.int 0) .none none).2 = .ok (score e)) ∧
    ((⟨t, [1 / 3, 2 / 3], true, 1 / 100⟩ : MsSsim).forward junk x y (.int 0) .none none).2 = .ok score' ∧
    (∀ e, (score e).shape = score'.shape) ∧ ∀ ix, InB score'.shape ix → Tendsto (fun e => (score e).get ix) atTop (𝓝 (score'.get ix)) := by
  refine C162_msssim (m := 1) (size := .one 3) (st := .one none) (sigma := fun e : ℝ => .one (e ^ 2 + 1)) (axes := [0]) (raxes := [0]) (gp := none) one_pos trivial (fun _ => trivial) trivial
    (by simp [Given.values]) (fun e s hs => by simp [Given.values] at hs; rw [hs]; positivity) (fun i _ => ?_) rfl le_rfl ?_ (hy.trans hx.symm)
    (fun _ => by simp [windowSize, Given.map, Given.entry, avgKernel]) (by rw [ndim, hx]; rfl) (by decide) (by intro _ g hg; cases hg) one_ne_zero two_ne_zero (fun _ => by norm_num) junk
  · have h : Tendsto (fun s : ℝ => s ^ 2 + 1) atTop atTop := tendsto_atTop_add_const_right _ _ (tendsto_pow_atTop two_ne_zero)
    refine h.congr fun s => ?_
    show s ^ 2 + 1 = |s ^ 2 + 1|
    rw [abs_of_nonneg (by positivity)]
  · refine msCall_one (L := 2) (by simp [avgKernel]) (by rw [ndim, hx]; rfl) (by decide) (by decide) fun k hk => ?_
    simp at hk
    subst hk
    rw [hx]
    simp [avgKernel]

open GaussLimitExample in
/-- SSIM of the five pixels and their negatives, with Gaussian windows of four pixels of a sigma that tends to zero and a reflected border -/
example (junk : List Nat → ℝ) : ∃ (pool : ℝ → SepPool ℝ) (s : ℝ → SSIM ℝ) (score full : ℝ → Tensor ℝ),
    (∀ e, SepPool.gaussInit (.leaf 4) (.leaf (1 / (e ^ 2 + 1))) (.leaf 0) (.leaf none) = .ok (pool e) ∧ SSIM.init (pool e) false 1 2 true false = .ok (s e)) ∧
    (∀ e, ((s e).forward junk five (ofFn [5] fun ix => -five.get ix) (.int 0) .none (some (mirrored.padder 1))).2 = .ok (score e, full e)) ∧
    ∀ ix, InB [5] ix → Tendsto (fun e => (full e).get ix) atTop (𝓝 ((1 - 2 * five.get ix ^ 2) / (1 + 2 * five.get ix ^ 2))) := by
  have h : Tendsto (fun s : ℝ => s ^ 2 + 1) atTop atTop := tendsto_atTop_add_const_right _ _ (tendsto_pow_atTop two_ne_zero)
  have hc : BlurCall ((Given.one 4).map (avgKernel (α := ℝ))) (some mirrored) five (.int 0) [0] (some (mirrored.padder 1)) := by
    refine ⟨⟨_, rfl, holds_padder _ 1⟩, (gauss_sizes (axes := [0]) (m := 1) (size := .one 4) (st := .one (some 1)) (sigma := .one (1 / ((0 : ℝ) ^ 2 + 1))) (L := avgKernel) (fun k => by simp [avgKernel])
      rfl).symm.sameCall (fun h => by cases h) (five_call 0 rfl)⟩
  obtain ⟨pool, s, score, full, h1, h2, -, -, h3⟩ := C162_ssim_narrow (F := atTop) (m := 1) (size := .one 4) (st := .one none) (sigma := fun e : ℝ => .one (1 / (e ^ 2 + 1))) (axes := [0]) (raxes := [0]) (gp := mirrored)
    (x := five) (y := ofFn [5] fun ix => -five.get ix) (ax := .int 0) (rax := .none) (sc := true) (k1 := 1) (k2 := 2) one_pos trivial (fun _ => trivial) trivial
    (by simp [Given.values]) (fun e s hs => by simp [Given.values] at hs; rw [hs]; positivity) (fun i _ => h.const_div_atTop 1) rfl (fun i _ => by simp [Given.entry]) hc rfl (fun i _ => Or.inl rfl)
    (fun _ => by simp [windowSize, Given.map, Given.entry, avgKernel]) rfl (by decide) (by intro g hg i _; cases hg; trivial) one_ne_zero two_ne_zero junk
  refine ⟨pool, s, score, full, h1, h2, fun ix hix => ?_⟩
  have := h3 ix hix
  rw [get_ofFn hix] at this
  convert this using 2
  ring

end TI
