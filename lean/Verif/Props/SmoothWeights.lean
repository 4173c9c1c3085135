import Mathlib.Algebra.Polynomial.Derivative
import Verif.Props.Gaussian
import Verif.Proofs.Smooth

/-!
# Filters as functions of their weights and of sigma (C159)
-/

set_option linter.unusedSectionVars false

namespace TI
open Tensor Spec Polynomial

/-- the arguments of a pooling module depend on a parameter: the strides and the number of weights on each of `N` axes do not, and every weight is a function of a class -/
structure Spec.Weights {E : Type} (R : (E → ℝ) → Prop) (N : Nat) (st : Given (Option Nat)) (K : Nat → Nat) (q : E → PoolArgs ℝ) : Prop where
  stride : ∀ e, (q e).stride = st
  size : ∀ e, ∀ i < N, ((q e).kernel.entry [] i).length = K i
  weight : ∀ i < N, ∀ j < K i, R fun e => ((q e).kernel.entry [] i).getD j 0

section
variable {E : Type} {R : (E → ℝ) → Prop} {S : List Nat} {x : E → Tensor ℝ} {q : E → PoolArgs ℝ} {st : Given (Option Nat)} {K : Nat → Nat} {axes : List Nat}

theorem Spec.Family.slid (hR : Arithmetic R) (hx : Family R S x) {o : E → PoolOp ℝ} {a s k : Nat} (ha : ∀ e, (o e).axis = a) (hs : ∀ e, (o e).stride = s)
    (hk : ∀ e, (o e).kernel.length = k) (hw : ∀ j < k, R fun e => (o e).kernel.getD j 0) (hf : k ≠ 0 → a < S.length ∧ 0 < s) :
    Family R (if k = 0 then S else S.set a (windowCount (S.getD a 0) k s 1)) fun e => slide (x e) (o e) := by
  by_cases h0 : k = 0
  · rw [if_pos h0]
    have e : ∀ e, slide (x e) (o e) = x e := fun e => by
      rw [slide, if_pos (List.length_eq_zero_iff.1 ((hk e).trans h0))]
    simpa only [e] using hx
  · rw [if_neg h0]
    obtain ⟨h1, h2⟩ := hf h0
    have hne : ∀ e, (o e).kernel ≠ [] := fun e hn => h0 (by rw [← hk e, hn]; rfl)
    have hsh : ∀ e, (slide (x e) (o e)).shape = S.set a (windowCount (S.getD a 0) k s 1) := fun e => by
      rw [slide_shape, if_neg (hne e), ha, hs, hk, hx.shape]
    refine ⟨hsh, fun ix hix => ?_⟩
    have e : ∀ e, (slide (x e) (o e)).get ix = ((List.range k).map fun j => (o e).kernel.getD j 0 * (x e).get (ix.set a (ix.getD a 0 * s + j))).sum := fun e => by
      rw [slide_get (hne e) (by rw [hsh]; exact hix), ha, hs, hk]
    simp only [e]
    by_cases hE : Nonempty E
    · obtain ⟨e0⟩ := hE
      refine hR.sum (u := fun j e => (o e).kernel.getD j 0 * (x e).get (ix.set a (ix.getD a 0 * s + j))) fun j hj => ?_
      have hj' := List.mem_range.1 hj
      refine hR.mul (hw j hj') (hx.entry _ ?_)
      have := slide_inB (x := x e0) (o := o e0) (by rw [hs]; exact h2) (by rw [ha, ndim, hx.shape]; exact h1) (hne e0) (ix := ix) (by rw [hsh]; exact hix) (j := j) (by rw [hk]; exact hj')
      rwa [ha, hs, hx.shape] at this
    · have h : (fun e => ((List.range k).map fun j => (o e).kernel.getD j 0 * (x e).get (ix.set a (ix.getD a 0 * s + j))).sum) = fun _ => 0 := by
        funext e
        exact absurd ⟨e⟩ hE
      rw [h]
      exact hR.const 0

theorem Spec.Weights.pooled (hR : Arithmetic R) (hq : Weights R axes.length st K q) (e0 : E) : ∀ (l : List Nat) {S : List Nat} {x : E → Tensor ℝ}, Family R S x → (∀ i ∈ l, i < axes.length) →
    Fitting (x e0) (l.map ((q e0).op axes)) → ∃ T, Family R T fun e => poolSeq (x e) (l.map ((q e).op axes))
  | [], S, _, hx, _, _ => ⟨S, hx⟩
  | i :: l, S, x, hx, hl, hf => by
    have hi := hl i (by simp)
    have h0 := hf.1
    refine Spec.Weights.pooled hR hq e0 l (x := fun e => slide (x e) ((q e).op axes i))
      (hx.slid hR (o := fun e => (q e).op axes i) (a := axes.getD i 0) (s := (st.entry none i).getD (K i)) (k := K i) (fun _ => rfl) (fun e => ?_)
        (fun e => hq.size e i hi) (fun j hj => hq.weight i hi j hj) fun hk => ?_) (fun j hj => hl j (by simp [hj])) hf.2
    · show ((q e).stride.entry none i).getD ((q e).kernel.entry [] i).length = _
      rw [hq.stride, hq.size e i hi]
    · have hne : ((q e0).op axes i).kernel ≠ [] := fun hn => hk (by rw [← hq.size e0 i hi]; exact congrArg List.length hn)
      obtain ⟨h1, h2, _⟩ := h0 hne
      refine ⟨by rw [ndim, hx.shape] at h1; exact h1, ?_⟩
      have e : ((q e0).op axes i).stride = ((q e0).stride.entry none i).getD ((q e0).kernel.entry [] i).length := rfl
      rw [e, hq.stride, hq.size e0 i hi] at h2
      exact h2

theorem Spec.Weights.sameOps_eq (hq : Weights R axes.length st K q) {gp : PadArgs ℝ} (e e' : E) (S : List Nat) : sameOps (q e) gp S axes = sameOps (q e') gp S axes := by
  rw [sameOps, sameOps]
  congr 1
  refine List.map_congr_left fun i hi => ?_
  have hi' := List.mem_range.1 hi
  rw [withWidths_entry _ _ _ _ hi', withWidths_entry _ _ _ _ hi']
  have e1 : ∀ e, ((q e).op axes i).kernel.length = K i := fun e => hq.size e i hi'
  have e2 : ∀ e, ((q e).op axes i).stride = (st.entry none i).getD (K i) := fun e => by
    show ((q e).stride.entry none i).getD ((q e).kernel.entry [] i).length = _
    rw [hq.stride, hq.size e i hi']
  simp only [sameSetting, e1, e2]

/-- the padded and pooled images -/
theorem Spec.Weights.same (hR : Arithmetic R) (hq : Weights R axes.length st K q) (hx : Family R S x) (e0 : E) {gp : PadArgs ℝ} {ax : Axes}
    (hc : ∀ e, SameCall (q e) gp (x e) ax axes) (hl : ∀ i < axes.length, (gp.entry i).Affine) :
    ∃ T, Family R T fun e => poolSeq (padSeq (x e) (sameOps (q e) gp (x e).shape axes)) ((q e).ops axes) := by
  set ops := sameOps (q e0) gp S axes with hops
  have ee : ∀ e, sameOps (q e) gp (x e).shape axes = ops := fun e => by rw [hx.shape, hops, hq.sameOps_eq e e0]
  have hc0 := hc e0
  have hnd : (ops.map Prod.fst).Nodup := by rw [hops, sameOps_fst]; exact hc0.nodup
  have hok : OpsOK ops := ee e0 ▸ hc0.opsOK
  have hlt : ∀ o ∈ ops, o.1 < (x e0).ndim := ee e0 ▸ hc0.lt
  have hsh : ∀ u : Tensor ℝ, u.shape = S → (padSeq u ops).shape = (padSeq (x e0) ops).shape := fun u hu =>
    (padSeq_shape_congr hok hnd hlt ((hx.shape e0).trans hu.symm)).symm
  have hp : Family R (padSeq (x e0) ops).shape fun e => padSeq (x e) ops := by
    refine hx.affine hR (b := fun u => padSeq u ops) hsh fun c d u v hcd hu hv => padSeq_blend hcd (hu.trans hv.symm) hnd (fun o ho => ?_) fun o ho _ => ?_
    · have := hlt o ho
      rwa [ndim, hx.shape, ← hu] at this
    · obtain ⟨i, hi, rfl⟩ := sameOps_mem ho
      refine ⟨setting_affine (hl i hi), ?_⟩
      have := hc0.pos _ (getD_mem_lt hi)
      rwa [hx.shape, ← hu] at this
  simp only [ee]
  refine hq.pooled hR e0 (List.range axes.length) hp (fun i hi => List.mem_range.1 hi) ?_
  have := hc0.poolOps.fitting
  rwa [ee] at this

end

section
variable {σ t : ℝ}

theorem iterate_bellPoly {E : Type} {R : (E → ℝ) → Prop} (hR : Arithmetic R) {σ : E → ℝ} (hσ : R σ) (h0 : ∀ e, σ e ≠ 0) (t : ℝ) :
    ∀ m k : Nat, R fun e => (derivative^[k] (bellPoly (σ e) m)).eval t
  | 0, k => by
    have : (fun e => (derivative^[k] (bellPoly (σ e) 0)).eval t) = fun _ => (derivative^[k] (1 : ℝ[X])).eval t := rfl
    rw [this]
    exact hR.const _
  | m + 1, k => by
    have ih := iterate_bellPoly hR hσ h0 t m
    have e : ∀ e, (derivative^[k] (bellPoly (σ e) (m + 1))).eval t = (derivative^[k + 1] (bellPoly (σ e) m)).eval t -
        1 / σ e ^ 2 * (t * (derivative^[k] (bellPoly (σ e) m)).eval t + (k : ℝ) * (derivative^[k - 1] (bellPoly (σ e) m)).eval t) := by
      intro e
      rw [bellPoly, iterate_derivative_sub, ← Function.iterate_succ_apply, iterate_derivative_C_mul, mul_comm X, iterate_derivative_mul_X]
      simp [nsmul_eq_mul, mul_comm t]
    simp only [e]
    refine hR.sub (ih _) (hR.mul (hR.div (hR.const 1) (hR.sq hσ) fun e => pow_ne_zero 2 (h0 e)) (hR.add (hR.mul (hR.const t) (ih k)) (hR.mul (hR.const _) (ih _))))

variable {E : Type} [NormedAddCommGroup E] [NormedSpace ℝ E] {n : WithTop ℕ∞} {e0 : E}

theorem bell_smooth {σ : E → ℝ} (hσ : ContDiffAt ℝ n σ e0) (h0 : σ e0 ≠ 0) (t : ℝ) : ContDiffAt ℝ n (fun e => bell (σ e) t) e0 := by
  have h1 : ContDiffAt ℝ n (fun e => -(t ^ 2) / (2 * σ e ^ 2)) e0 := by
    have := (contDiffAt_const (c := -(t ^ 2)) (𝕜 := ℝ) (x := e0) (n := n)).div ((contDiffAt_const (c := (2 : ℝ))).mul (hσ.pow 2)) (mul_ne_zero two_ne_zero (pow_ne_zero 2 h0))
    exact this
  exact h1.exp

theorem gaussWeights_length (k : Nat) (σ : ℝ) (m : Nat) : (gaussWeights k σ m).length = k := by simp [gaussWeights]

theorem gaussWeights_smooth {σ : E → ℝ} (hσ : ContDiffAt ℝ n σ e0) (h0 : ∀ e, σ e ≠ 0) (k m : Nat) {j : Nat} (hj : j < k) :
    ContDiffAt ℝ n (fun e => (gaussWeights k (σ e) m).getD j 0) e0 := by
  have hR := arithmetic_contDiffAt (E := E) (n := n) (e0 := e0)
  have e : ∀ e, (gaussWeights k (σ e) m).getD j 0 = (derivative^[0] (bellPoly (σ e) m)).eval (samplePoint k j) * bell (σ e) (samplePoint k j) /
      ((List.range (if m = 0 then k else 2 * (k / 2) + 1)).map fun i : Nat => bell (σ e) (samplePoint k i)).sum := by
    intro e
    have := bellDeriv_eq m (σ e) (samplePoint k j)
    rw [bellDeriv] at this
    rw [Function.iterate_zero, id, ← this, gaussWeights]
    split_ifs <;> simp [hj]
  simp only [e]
  refine hR.div (hR.mul (iterate_bellPoly hR hσ h0 _ m 0) (bell_smooth hσ (h0 e0) _)) (hR.sum (u := fun i e => bell (σ e) (samplePoint k i)) fun i _ => bell_smooth hσ (h0 e0) _) fun e => ?_
  refine (sum_pos' ?_ ?_).ne'
  · intro a ha
    obtain ⟨i, _, rfl⟩ := List.mem_map.1 ha
    exact bell_pos _ _
  · split_ifs <;> simp
    omega

variable {S : List Nat} {x : E → Tensor ℝ} {q : E → PoolArgs ℝ} {st : Given (Option Nat)} {K : Nat → Nat} {axes : List Nat} {m : Nat} {pool : E → SepPool ℝ} {ax : Axes}

/-- **C159.** A filter whose weights are `n` times continuously differentiable functions of a parameter, applied without padding to images of one shape that are such functions too, gives images that are
such functions: the filters can be learned by gradient descent. -/
theorem C159_valid (hb : ∀ e, Built (pool e) (q e) m) (hq : Weights (fun f => ContDiffAt ℝ n f e0) axes.length st K q) (hx : SmoothAt n e0 S x) (hax : axesOf S.length ax = some axes)
    (hm : ∀ e, (q e).isMany = true → axes.length = m) (hf : ∀ e, Fitting (x e) ((q e).ops axes)) (junk : List Nat → ℝ) :
    ∃ T z, (∀ e, ((pool e).forward none junk (x e) ax).2 = .ok (z e)) ∧ SmoothAt n e0 T z := by
  obtain ⟨T, hT⟩ := hq.pooled arithmetic_contDiffAt e0 (List.range axes.length) hx (fun i hi => List.mem_range.1 hi) (hf e0)
  exact ⟨T, _, fun e => by rw [(hb e).poolIs.1.forward_none (by rw [ndim, hx.shape]; exact hax) (hm e) (hf e) junk]; rfl, hT⟩

/-- **C159** with a padder whose modes are affine -/
theorem C159_same (hb : ∀ e, Built (pool e) (q e) m) (hq : Weights (fun f => ContDiffAt ℝ n f e0) axes.length st K q) (hx : SmoothAt n e0 S x) {gp : PadArgs ℝ}
    (hc : ∀ e, SameCall (q e) gp (x e) ax axes) (hl : ∀ i < axes.length, (gp.entry i).Affine) (hm : ∀ e, (q e).isMany = true → axes.length = m) {p : Padder ℝ} (hp : Holds p gp)
    (junk : List Nat → ℝ) : ∃ T z, (∀ e, ((pool e).forward (some p) junk (x e) ax).2 = .ok (z e)) ∧ SmoothAt n e0 T z := by
  obtain ⟨T, hT⟩ := hq.same arithmetic_contDiffAt hx e0 hc hl
  exact ⟨T, _, fun e => by rw [(hb e).poolIs.1.forward_same (hc e) (hm e) hp junk], hT⟩

variable {size order : Given Nat} {sigma : E → Given ℝ}

theorem gaussKernels_entry' {sigma : Given ℝ} {i N : Nat} (hi : i < N) (hm : (⟨gaussKernels m size sigma order, st⟩ : PoolArgs ℝ).isMany = true → N = m) :
    (gaussKernels m size sigma order).entry [] i = gaussWeights (size.entry 0 i) (sigma.entry 1 i) (order.entry 0 i) := by
  by_cases h : (⟨gaussKernels m size sigma order, st⟩ : PoolArgs ℝ).isMany = true
  · exact gaussKernels_entry (hm h ▸ hi)
  · have h1 : (gaussKernels m size sigma order).isMany = false := by
      simp only [PoolArgs.isMany, Bool.or_eq_true, not_or, Bool.not_eq_true] at h
      exact h.1
    rw [gaussKernels] at h1 ⊢
    split_ifs at h1 ⊢ with h2
    · simp [Given.isMany] at h1
    · simp only [Bool.or_eq_true, not_or, Bool.not_eq_true] at h2
      rw [entry_of_not_many h2.1.1 0 i, entry_of_not_many h2.1.2 1 i, entry_of_not_many h2.2 0 i]
      rfl

/-- the weights of the Gaussian filters -/
theorem gauss_weights (hσ : ∀ i < axes.length, ContDiffAt ℝ n (fun e => (sigma e).entry 1 i) e0) (hnz : ∀ e, ∀ i < axes.length, (sigma e).entry 1 i ≠ 0)
    (hm : ∀ e, (⟨gaussKernels m size (sigma e) order, st⟩ : PoolArgs ℝ).isMany = true → axes.length = m) :
    Weights (fun f => ContDiffAt ℝ n f e0) axes.length st (fun i => size.entry 0 i) fun e => ⟨gaussKernels m size (sigma e) order, st⟩ where
  stride _ := rfl
  size e i hi := by rw [gaussKernels_entry' hi (hm e), gaussWeights_length]
  weight i hi j hj := by
    have h : ∀ e, (gaussKernels m size (sigma e) order).entry [] i = gaussWeights (size.entry 0 i) ((sigma e).entry 1 i) (order.entry 0 i) := fun e => gaussKernels_entry' hi (hm e)
    simp only [h]
    have := gaussWeights_smooth (n := n) (e0 := e0) (σ := fun e => if i < axes.length then (sigma e).entry 1 i else 1) (by simpa [hi] using hσ i hi) (fun e => by simpa [hi] using hnz e i hi)
      (size.entry 0 i) (order.entry 0 i) hj
    simpa [hi] using this

/-- **C159** for `GaussianPoolNd`: with any sizes, orders and strides, the pooled image is an `n` times continuously differentiable function of the sigmas and of the pixels. -/
theorem C159_gaussian (hm0 : 0 < m) (hs : size.Fits m) (hg : ∀ e, (sigma e).Fits m) (ho : order.Fits m) (hst : st.Fits m) (hv : ∀ s ∈ st.values, s ≠ some 0)
    (hnz : ∀ e, ∀ s ∈ (sigma e).values, s ≠ 0) (hσ : ∀ i < axes.length, ContDiffAt ℝ n (fun e => (sigma e).entry 1 i) e0) (hx : SmoothAt n e0 S x)
    (hm : ∀ e, (⟨gaussKernels m size (sigma e) order, st⟩ : PoolArgs ℝ).isMany = true → axes.length = m) :
    ∃ pool : E → SepPool ℝ, (∀ e, SepPool.gaussInit (size.toPy pyNat) ((sigma e).toPy Py.leaf) (order.toPy pyNat) (st.toPy PoolArgs.pyStride) = .ok (pool e)) ∧
      (∀ junk, axesOf S.length ax = some axes → (∀ e, Fitting (x e) ((⟨gaussKernels m size (sigma e) order, st⟩ : PoolArgs ℝ).ops axes)) →
        ∃ T z, (∀ e, ((pool e).forward none junk (x e) ax).2 = .ok (z e)) ∧ SmoothAt n e0 T z) ∧
      ∀ junk gp p, Holds p gp → (∀ i < axes.length, (gp.entry i).Affine) → (∀ e, SameCall ⟨gaussKernels m size (sigma e) order, st⟩ gp (x e) ax axes) →
        ∃ T z, (∀ e, ((pool e).forward (some p) junk (x e) ax).2 = .ok (z e)) ∧ SmoothAt n e0 T z := by
  choose pool h1 h2 _ using fun e => C34_gaussian_kernels (order := order) (st := st) hm0 hs (hg e) ho hst hv (hnz e)
  have hq : Weights (fun f => ContDiffAt ℝ n f e0) axes.length st (fun i => size.entry 0 i) fun e => ⟨gaussKernels m size (sigma e) order, st⟩ := by
    refine gauss_weights hσ (fun e i hi => ?_) hm
    refine hnz e _ (entry_mem (hg e) 1 fun hh => ?_)
    have : (⟨gaussKernels m size (sigma e) order, st⟩ : PoolArgs ℝ).isMany = true := by
      rw [PoolArgs.isMany, gaussKernels, if_pos (by simp [hh])]
      rfl
    rw [← hm e this]
    exact hi
  exact ⟨pool, h1, fun junk hax hf => C159_valid h2 hq hx hax hm hf junk, fun junk gp p hp hl hc => C159_same h2 hq hx hc hl hm hp junk⟩

end

/-- a derivative of Gaussian on three pixels, one of which moves, and a sigma of `e² + 1`: the result is smooth in `e` -/
example (e0 : ℝ) (junk : List Nat → ℝ) : ∃ pool : ℝ → SepPool ℝ,
    (∀ e, SepPool.gaussInit (.leaf 3) (.leaf (e ^ 2 + 1)) (.leaf 1) (.leaf (some 1)) = .ok (pool e)) ∧
    ∃ T z, (∀ e, ((pool e).forward none junk (ofFn [4] fun ix => if ix = [2] then e else 1) (.int 0)).2 = .ok (z e)) ∧ SmoothAt ⊤ e0 T z := by
  have hx : SmoothAt ⊤ e0 [4] fun e : ℝ => ofFn [4] fun ix => if ix = [2] then e else 1 := by
    refine ⟨fun _ => rfl, fun ix hix => ?_⟩
    simp only [get_ofFn hix]
    split_ifs
    · exact contDiffAt_id
    · exact contDiffAt_const
  have h1 : ∀ e : ℝ, (Given.one (e ^ 2 + 1)).entry 1 0 ≠ 0 := fun e => (by positivity : (0 : ℝ) < e ^ 2 + 1).ne'
  obtain ⟨pool, hp, hv, _⟩ := C159_gaussian (n := ⊤) (e0 := e0) (m := 1) (size := .one 3) (order := .one 1) (st := .one (some 1)) (sigma := fun e : ℝ => .one (e ^ 2 + 1)) (axes := [0])
    (ax := .int 0) one_pos trivial (fun _ => trivial) trivial trivial (by simp [Given.values]) (fun e s hs => by simp [Given.values] at hs; rw [hs]; positivity)
    (fun i _ => (contDiffAt_id.pow 2).add contDiffAt_const) hx (fun _ _ => rfl)
  refine ⟨pool, hp, hv junk rfl fun e => ⟨fun _ => ⟨by simp [ndim, PoolArgs.op], Nat.one_pos, ?_⟩, trivial⟩⟩
  simp [PoolArgs.op, gaussKernels, Given.isMany, Given.entry, gaussWeights_length]

end TI
