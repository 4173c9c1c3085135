import Verif.Props.Interior

/-!
# Blurs, sharpening and edge filters on straight-line images (C98, C99)
-/

set_option linter.unusedSectionVars false

namespace TI
open Tensor Spec

section
variable {α : Type} [Field α] [LinearOrder α] [IsStrictOrderedRing α]

/-! ## C98: sharpening -/

/-- **C98**: with `smooth` or `odd_reflect`, sharpening by a blur with symmetric kernels of odd length and sum one returns straight-line images unchanged. -/
theorem C98_unsharp {pool : SepPool α} {g : PoolArgs α} {m : Nat} (hb : Built pool g m) (amount threshold : α) :
    ∃ u, UnsharpMask.init pool amount threshold = .ok u ∧
      ∀ {gp : PadArgs α} {p : Padder α} {x : Tensor α} {ax : Axes} {axes : List Nat}, axesOf x.ndim ax = some axes →
        SameCall (PoolArgs.filter g.kernel) gp x (.seq (castV axes)) axes → (g.kernel.isMany = true → axes.length = m) → Holds p gp →
        gp.Straight axes.length → (∀ a ∈ axes, 2 ≤ x.shape.getD a 0) →
        (∀ i < axes.length, g.kernel.entry [] i = [] ∨ (g.kernel.entry [] i).reverse = g.kernel.entry [] i ∧
          (g.kernel.entry [] i).length % 2 = 1 ∧ (g.kernel.entry [] i).sum = 1) →
        ∀ {c : α} {s : Nat → α}, Affine c s x → ∀ junk : List Nat → α, ∃ p', u.forward (some p) junk x ax = (p', .ok x) := by
  obtain ⟨u, e1, h1⟩ := C45_pooling hb amount threshold
  refine ⟨u, e1, ?_⟩
  intro gp p x ax axes hax hc hm hp hst h2 hw c s hx junk
  obtain ⟨p', z, e2, hs, h3⟩ := h1 hax hc hm hp (by
    intro i hi
    have h1 := hst i hi
    left
    cases hmode : gp.mode.entry .unknown i <;> rw [hmode] at h1 <;> first | exact absurd h1 id | rfl) junk
  refine ⟨p', ?_⟩
  rw [e2]
  congr 2
  apply ext_get hs
  intro ix hix
  rw [hs] at hix
  rw [h3 ix hix, filtered_straight hc hst h2 (fun i hi hne => ((hw i hi).resolve_left hne).2.2) hx ix hix, drift_symmetric s hw, add_zero, ← hx ix hix, sharpened]
  simp

/-! ## C98: box and Gaussian kernels -/

/-- **C98**: box kernels of odd size are symmetric and have sum one. -/
theorem C98_box_kernels {k : Nat} (hk : k % 2 = 1) :
    (avgKernel k : List α).reverse = avgKernel k ∧ (avgKernel k : List α).length % 2 = 1 ∧ (avgKernel k : List α).sum = 1 := by
  have hk0 : (k : α) ≠ 0 := by
    have : k ≠ 0 := by omega
    exact_mod_cast this
  refine ⟨by simp [avgKernel], by simpa [avgKernel] using hk, ?_⟩
  simp [avgKernel, hk0]

/-- **C98**: so are Gaussian kernels of odd size. -/
theorem C98_gaussian_kernels {k : Nat} (hk : k % 2 = 1) {σ : ℝ} (hσ : σ ≠ 0) :
    (gaussWeights k σ 0).reverse = gaussWeights k σ 0 ∧ (gaussWeights k σ 0).length % 2 = 1 ∧ (gaussWeights k σ 0).sum = 1 := by
  obtain ⟨w, q1, q2, _, q4, q5⟩ := C37_probability_vector hσ (k := k) (by omega)
  have q := gaussianKernel_weights hσ k 0
  rw [show ((0 : Nat) : Int) = 0 from rfl, q1] at q
  cases q
  exact ⟨q5 hk, by rw [q2]; exact hk, q4⟩

/-- **C98**: a Gaussian blur of order zero with odd sizes, non-zero sigmas and stride one returns straight-line images with `smooth` or `odd_reflect`. -/
theorem C98_gaussian_blur {size : Given Nat} {sigma : Given ℝ} {m : Nat} (hm : 0 < m) (hs : size.Fits m) (hg : sigma.Fits m)
    (hnz : ∀ s ∈ sigma.values, s ≠ 0) (hodd : ∀ k ∈ size.values, k % 2 = 1) :
    ∃ pool, SepPool.gaussInit (size.toPy pyNat) (sigma.toPy Py.leaf) (.leaf 0) (.leaf (some 1)) = .ok pool ∧
      ∀ {gp : PadArgs ℝ} {p : Padder ℝ} {x : Tensor ℝ} {ax : Axes} {axes : List Nat}, axes.length = m →
        SameCall (PoolArgs.filter (gaussKernels m size sigma (.one 0))) gp x ax axes → Holds p gp →
        gp.Straight axes.length → (∀ a ∈ axes, 2 ≤ x.shape.getD a 0) →
        ∀ {c : ℝ} {s : Nat → ℝ}, Affine c s x → ∀ junk, ∃ q, SepPool.forward pool (some p) junk x ax = (q, .ok x) := by
  obtain ⟨pool, h1, h2, _⟩ := C34_gaussian_kernels (size := size) (sigma := sigma) (order := .one 0) (st := .one (some 1)) (m := m)
    hm hs hg trivial trivial (by intro s hs; simp [Given.values] at hs; simp [hs]) hnz
  refine ⟨pool, h1, ?_⟩
  intro gp p x ax axes hl hc hp hst h3 c s hx junk
  refine C98_symmetric_straight (g := gaussKernels m size sigma (.one 0)) h2 (fun _ => hl) hc hp hst h3 ?_ hx junk
  intro i hi
  right
  have hi' : i < m := by omega
  rw [gaussKernels_entry hi']
  exact C98_gaussian_kernels (hodd _ (entry_mem hs 0 fun _ => hi')) (hnz _ (entry_mem hg 1 fun _ => hi'))

end

/-! ## C99 -/

section
variable {α : Type} [Field α] [LinearOrder α] [IsStrictOrderedRing α] [FloorRing α]
variable {f : EdgeFilter α} {w : List α} {g : Given (List α)} {m : Nat} {gp : PadArgs α} {x : Tensor α} {ax : Axes} {axes : List Nat} {a : Nat}

theorem slide_slope {w : List α} (hw : w ≠ []) (h0 : w.sum = 0) (ha : a < x.ndim) {c : α} {s : Nat → α} (hx : Affine c s x) :
    Constant (s a * moment w) (slide x ⟨a, w, 1⟩) := by
  intro ix hix
  have h := slide_affine (o := ⟨a, w, 1⟩) hw ha rfl hx ix hix
  rw [h]
  simp only [h0, zero_mul, zero_add, rise, Finset.sum_const_zero, add_zero]

theorem edge_slope (hc : SameCall (PoolArgs.filter (.one w)) gp x (.int a) [a]) (hw : w ≠ []) (h0 : w.sum = 0) {c : α} {s : Nat → α} (hx : Affine c s x)
    {jx : List Nat} (hj : Interior (.one w) [a] x.shape jx) : (filtered (.one w) gp x [a]).get jx = s a * moment w := by
  have hj0 := hj.2 0 (by simp)
  have hk : ∀ i < [a].length, ((Given.one w).entry [] i).length ≤ x.shape.getD ([a].getD i 0) 0 := by
    intro i hi
    have : i = 0 := by simpa using hi
    subst this
    omega
  have ha : a < x.ndim := (checkAxes_spec hc.axes_eq).2 a (by simp)
  have hcr := filtered_cropOf hc (fitting_of_sizes hc.toSameReq hk)
  have hmv := movedBack_moved (g := .one w) (axes := [a]) (jx := jx) (by simp) fun i hi => (hj.2 i hi).1
  have hix := interior_inB hc.toSameReq hk hj hmv
  rw [hmv.embed (gp := gp) (shape := x.shape) (by simp), hcr.get _ hix]
  have hv : valid (.one w) [a] x = slide x ⟨a, w, 1⟩ := rfl
  rw [hv] at hix ⊢
  exact slide_slope hw h0 ha hx _ hix

theorem response_slope (hs : EdgeSetup g gp x ax axes) (hw : w ≠ []) (h0 : w.sum = 0) (ha : a ∈ axes) {c : α} {s : Nat → α} (hx : Affine c s x)
    {jx : List Nat} (hj : EdgeInterior w g axes a x.shape jx) :
    (edgeResponse w g gp x axes a).get jx = s a * moment w * totalWeight ((PoolArgs.filter g).ops (axes.filter fun b => b ≠ a)) := by
  have hc := hs.edgeCall w ha
  set y := filtered (.one w) gp x [a] with hy
  set axes' := axes.filter fun b => b ≠ a with hax'
  have hsh : y.shape = x.shape := hs.edge_shape w ha
  have hj2 : Interior g axes' y.shape jx := by rw [hsh]; exact hj.2
  have hk : ∀ i < axes'.length, (g.entry [] i).length ≤ y.shape.getD (axes'.getD i 0) 0 := by
    intro i hi
    have := hj2.2 i hi
    omega
  have hpo := poolOps_of_sizes hc.smooth.toSameReq hk
  have hcr := filtered_cropOf hc.smooth (fitting_of_sizes hc.smooth.toSameReq hk)
  have hmv := movedBack_moved (g := g) (axes := axes') (jx := jx) hc.smooth.nodup fun i hi => (hj2.2 i hi).1
  have hix := interior_inB hc.smooth.toSameReq hk hj2 hmv
  have hna : a ∉ axes' := by simp [hax']
  have e1 : (edgeResponse w g gp x axes a).get jx = (valid g axes' y).get (movedBack g axes' jx) := by
    have := hmv.embed (gp := gp) (shape := y.shape) hc.smooth.nodup
    conv_lhs => rw [this]
    exact hcr.get _ hix
  have hcs : Constant (s a * moment w) (ofFn y.shape fun _ => s a * moment w) := fun ix hix => get_ofFn hix
  have e2 := poolSeq_local (ops := (PoolArgs.filter g).ops axes') (x := y) (y := ofFn y.shape fun _ => s a * moment w) hpo rfl hix (by
    intro kx hkx hwin
    rw [get_ofFn hkx]
    apply edge_slope hc.edge hw h0 hx
    refine ⟨by rw [← hsh]; exact hkx, ?_⟩
    intro i hi
    have hi0 : i = 0 := by simpa using hi
    subst hi0
    have e3 : kx.getD a 0 = jx.getD a 0 := by
      rw [hwin.other a, hmv.other a hna]
      intro o ho _ h
      obtain ⟨i, hi, rfl⟩ := mem_ops.1 ho
      apply hna
      rw [← h]
      exact getD_mem_lt hi
    have := hj.1.2 0 (by simp)
    change w.length / 2 ≤ kx.getD a 0 ∧ kx.getD a 0 - w.length / 2 + w.length ≤ x.shape.getD a 0
    rw [e3]
    exact this)
  rw [e1, show valid g axes' y = poolSeq y ((PoolArgs.filter g).ops axes') from rfl, e2]
  have hpo' : PoolOps (ofFn y.shape fun _ => s a * moment w) ((PoolArgs.filter g).ops axes') :=
    ⟨hpo.nodup, hpo.axis, hpo.stride, hpo.fits⟩
  exact poolSeq_weight hpo' hcs _ (by
    have e3 := poolSeq_shape_congr (ops := (PoolArgs.filter g).ops axes') (x := ofFn y.shape fun _ => s a * moment w) (y := y) rfl
    rw [e3]; exact hix)

/-- **C99**: an edge filter whose edge kernel sums to zero, applied to a straight-line image with any value-defining padder: away from the border the
component along every axis is the slope along that axis, times the moment of the edge kernel, times the product of the sums of the smoothing kernels.
In particular it has nothing to do with the slopes along the other axes. -/
theorem C99_components (hb : EdgeBuilt f w g m) (hw : w ≠ []) (h0 : w.sum = 0) {ps : EdgePadders α} (hps : HoldsBoth ps gp) (hs : EdgeSetup g gp x ax axes)
    (hm : g.isMany = true → axes.length - 1 = m) {c : α} {s : Nat → α} (hx : Affine c s x) (junk : List Nat → α) :
    ∃ ps' cs, f.allComponents ps junk x ax = (ps', .ok cs) ∧ cs.length = axes.length ∧
      ∀ i < axes.length, ∀ jx, EdgeInterior (usedKernel w) g axes (axes.getD i 0) x.shape jx →
        (cs.getD i ⟨[], [0], rfl⟩).get jx = s (axes.getD i 0) * moment (usedKernel w) *
          totalWeight ((PoolArgs.filter g).ops (axes.filter fun b => b ≠ axes.getD i 0)) := by
  obtain ⟨ps', e, _, hsh⟩ := C75_components hb hps hs hm junk
  refine ⟨ps', _, e, by simp, ?_⟩
  intro i hi jx hj
  have e1 : (axes.map (edgeResponse (usedKernel w) g gp x axes)).getD i ⟨[], [0], rfl⟩ = edgeResponse (usedKernel w) g gp x axes (axes.getD i 0) := by
    simp [hi]
  rw [e1]
  exact response_slope hs (usedKernel_ne hw) (usedKernel_sum h0) (getD_mem_lt hi) hx hj

/-- **C99**: the magnitude at positions away from the border. -/
theorem C99_magnitude (hb : EdgeBuilt f w g m) (hw : w ≠ []) (h0 : w.sum = 0) {ps : EdgePadders α} (hps : HoldsBoth ps gp) (hs : EdgeSetup g gp x ax axes)
    (hm : g.isMany = true → axes.length - 1 = m) {c : α} {s : Nat → α} (hx : Affine c s x) (root : α → α) (epsilon : α) {p : Nat} (hp : p ≠ 0)
    (junk : List Nat → α) :
    ∃ ps' z, f.magnitude root ps junk x ax epsilon p = (ps', .ok z) ∧ z.shape = x.shape ∧
      ∀ jx, (∀ a ∈ axes, EdgeInterior (usedKernel w) g axes a x.shape jx) →
        z.get jx = (if p = 1 then id else root) ((axes.map fun a => (s a * moment (usedKernel w) *
          totalWeight ((PoolArgs.filter g).ops (axes.filter fun b => b ≠ a))) ^ p).sum + epsilon) := by
  obtain ⟨ps', z, cs, e1, e2, h1, h2⟩ := C75_magnitude hb hps hs hm root epsilon hp (Or.inr (Or.inl hw)) junk
  obtain ⟨ps2, e3, _⟩ := C75_components hb hps hs hm junk
  rw [e3] at e2
  cases e2
  refine ⟨ps', z, e1, h1, ?_⟩
  intro jx hj
  have hjx : InB x.shape jx := by
    have h2 := hs.two
    obtain ⟨a, ha⟩ : ∃ a, a ∈ axes := by
      cases axes with
      | nil => simp at h2
      | cons a _ => exact ⟨a, by simp⟩
    exact (hj a ha).1.1
  have e4 : ∀ q : Nat, (axes.map fun a => (edgeResponse (usedKernel w) g gp x axes a).get jx ^ q) = axes.map fun a => (s a * moment (usedKernel w) *
          totalWeight ((PoolArgs.filter g).ops (axes.filter fun b => b ≠ a))) ^ q := by
    intro q
    apply List.map_congr_left
    intro a ha
    rw [response_slope hs (usedKernel_ne hw) (usedKernel_sum h0) ha hx (hj a ha)]
  rw [h2 jx hjx]
  split_ifs with hp1
  · subst hp1
    have := e4 1
    simp only [pow_one] at this
    simp only [List.map_map, Function.comp_def, this, pow_one, id]
  · simp only [List.map_map, Function.comp_def, e4 p]

/-- **C99**: with `smooth` or `odd_reflect` and at least two samples along every axis, the components are constant images. -/
theorem C99_straight (hb : EdgeBuilt f w g m) (hw : w ≠ []) (h0 : w.sum = 0) {ps : EdgePadders α} (hps : HoldsBoth ps gp) (hs : EdgeSetup g gp x ax axes)
    (hm : g.isMany = true → axes.length - 1 = m) (hst : gp.mode.entry .unknown 0 = .smooth ∨ gp.mode.entry .unknown 0 = .oddReflect)
    (h2 : ∀ a ∈ axes, 2 ≤ x.shape.getD a 0) {c : α} {s : Nat → α} (hx : Affine c s x) (junk : List Nat → α) :
    ∃ ps' cs, f.allComponents ps junk x ax = (ps', .ok cs) ∧ cs.length = axes.length ∧
      ∀ i < axes.length, (cs.getD i ⟨[], [0], rfl⟩).shape = x.shape ∧ Constant (s (axes.getD i 0) * moment (usedKernel w) *
          totalWeight ((PoolArgs.filter g).ops (axes.filter fun b => b ≠ axes.getD i 0))) (cs.getD i ⟨[], [0], rfl⟩) := by
  obtain ⟨ps', e, _, hsh⟩ := C75_components hb hps hs hm junk
  refine ⟨ps', _, e, by simp, ?_⟩
  intro i hi
  have e1 : (axes.map (edgeResponse (usedKernel w) g gp x axes)).getD i ⟨[], [0], rfl⟩ = edgeResponse (usedKernel w) g gp x axes (axes.getD i 0) := by
    simp [hi]
  rw [e1]
  have ha := getD_mem_lt hi
  set a := axes.getD i 0 with hadef
  refine ⟨hsh a ha, ?_⟩
  have hc := hs.edgeCall (usedKernel w) ha
  have hmode : ∀ (gs : PoolArgs α) (sh as : List Nat), ∀ o ∈ sameOps gs gp sh as, o.2.mode = .smooth ∨ o.2.mode = .oddReflect := by
    intro gs sh as o ho
    obtain ⟨j, _, rfl⟩ := sameOps_mem ho
    change gp.mode.entry .unknown j = _ ∨ gp.mode.entry .unknown j = _
    rw [uniform_entry hs.uniform]
    exact hst
  have hp1 := padSeq_affine (ops := sameOps (PoolArgs.filter (.one (usedKernel w))) gp x.shape [a]) (x := x) (by rw [sameOps_fst]; simp) hc.edge.lt (hmode _ _ _) (by
    intro o ho _
    obtain ⟨j, hj, rfl⟩ := sameOps_mem ho
    have : j = 0 := by simpa using hj
    subst this
    exact h2 a ha) hx
  have hlt : a < x.ndim := (checkAxes_spec hs.axes_eq).2 a ha
  have hy : Constant (s a * moment (usedKernel w)) (filtered (.one (usedKernel w)) gp x [a]) :=
    slide_slope (usedKernel_ne hw) (usedKernel_sum h0) (lt_of_lt_of_eq hlt hc.edge.paddedShape.ndim.symm) hp1
  have hy' : Affine (s a * moment (usedKernel w)) (fun _ => 0) (filtered (.one (usedKernel w)) gp x [a]) := by
    intro ix hix
    rw [hy ix hix]
    simp [rise]
  have hp2 := padSeq_affine (ops := sameOps (PoolArgs.filter g) gp (filtered (.one (usedKernel w)) gp x [a]).shape (axes.filter fun b => b ≠ a))
    (by rw [sameOps_fst]; exact hc.smooth.nodup) hc.smooth.lt (hmode _ _ _) (by
    intro o ho _
    obtain ⟨j, hj, rfl⟩ := sameOps_mem ho
    rw [hs.edge_shape _ ha]
    exact h2 _ (List.mem_of_mem_filter (getD_mem_lt hj))) hy'
  refine poolSeq_weight hc.smooth.poolOps ?_
  intro ix hix
  rw [hp2 ix hix]
  simp [rise]

/-! ### gains of the named filters -/

theorem totalWeight_same {v : List α} (hv : v ≠ []) (axes : List Nat) : totalWeight ((PoolArgs.filter (.one v)).ops axes) = v.sum ^ axes.length := by
  have e : ((PoolArgs.filter (.one v)).ops axes).map (fun o => if o.kernel = [] then 1 else o.kernel.sum) = List.replicate axes.length v.sum := by
    rw [PoolArgs.ops, List.map_map, List.eq_replicate_iff]
    refine ⟨by simp, ?_⟩
    intro b hb
    obtain ⟨i, _, rfl⟩ := List.mem_map.1 hb
    exact if_neg hv
  rw [totalWeight, e, List.prod_replicate]

theorem totalWeight_empty (axes : List Nat) : totalWeight ((PoolArgs.filter (.one ([] : List α))).ops axes) = 1 := by
  rw [totalWeight]
  apply List.prod_eq_one
  intro v hv
  obtain ⟨o, ho, rfl⟩ := List.mem_map.1 hv
  obtain ⟨i, _, rfl⟩ := mem_ops.1 ho
  exact if_pos rfl

/-- **C99**: the edge kernels of the named filters have sum zero and the moments 2 (`Sobel`, `Prewitt`, `Scharr`), 0 (`Laplace`) and
0.99179702875213 (`Farid`, antisymmetric); the smoothing kernels have the sums 4, 3, 16 and 1 + 2e-16 (symmetric, positive), or 1 if normalised. -/
theorem C99_kernels :
    (usedKernel ([-1, 0, 1] : List α) = [-1, 0, 1] ∧ ([-1, 0, 1] : List α).sum = 0 ∧ moment ([-1, 0, 1] : List α) = 2) ∧
    (usedKernel ([1, -2, 1] : List α) = [1, -2, 1] ∧ ([1, -2, 1] : List α).sum = 0 ∧ moment ([1, -2, 1] : List α) = 0) ∧
    (usedKernel (EdgeFilter.faridEdge : List α) = EdgeFilter.faridEdge ∧ (EdgeFilter.faridEdge : List α).sum = 0 ∧
      (EdgeFilter.faridEdge : List α).reverse = EdgeFilter.faridEdge.map (- ·) ∧ moment (EdgeFilter.faridEdge : List α) = 99179702875213 / 10 ^ 14) ∧
    ([1, 2, 1] : List α).sum = 4 ∧ ([1, 1, 1] : List α).sum = 3 ∧ ([3, 10, 3] : List α).sum = 16 ∧
    ((EdgeFilter.faridSmooth : List α).sum = 1 + 2 / 10 ^ 16 ∧ (EdgeFilter.faridSmooth : List α).reverse = EdgeFilter.faridSmooth ∧
      ∀ v ∈ (EdgeFilter.faridSmooth : List α), 0 < v) := by
  have hu1 : usedKernel ([-1, 0, 1] : List α) = [-1, 0, 1] := usedKernel_fast (Or.inl rfl)
  have hu2 : usedKernel ([1, -2, 1] : List α) = [1, -2, 1] := usedKernel_fast (Or.inr rfl)
  have hu3 : usedKernel (EdgeFilter.faridEdge : List α) = EdgeFilter.faridEdge := by
    rw [usedKernel, if_neg (by simp [EdgeFilter.faridEdge, TakenForFirst]), if_neg (by simp [EdgeFilter.faridEdge, TakenForSecond])]
  refine ⟨⟨hu1, by norm_num, ?_⟩, ⟨hu2, by norm_num, ?_⟩, ⟨hu3, by simp [EdgeFilter.faridEdge], by simp [EdgeFilter.faridEdge], ?_⟩, by norm_num, by norm_num, by norm_num,
    by norm_num [EdgeFilter.faridSmooth], by simp [EdgeFilter.faridSmooth], ?_⟩
  · norm_num [moment, List.range_succ]
  · norm_num [moment, List.range_succ]
  · norm_num [moment, EdgeFilter.faridEdge, List.range_succ]
  · intro v hv
    simp only [EdgeFilter.faridSmooth, List.mem_cons, List.not_mem_nil, or_false] at hv
    rcases hv with rfl | rfl | rfl | rfl | rfl <;> positivity

/-- **C99** for filters with one smoothing kernel for all axes: the gain is the moment of the edge kernel times the power of the sum of the smoothing
kernel.  For images with two filtered axes: 8 for `Sobel`, 6 for `Prewitt`, 32 for `Scharr`, 2 for these filters if normalised. -/
theorem C99_gain {v : List α} (hb : EdgeBuilt f w (.one v) m) (hv : v ≠ []) (hw : w ≠ []) (h0 : w.sum = 0) {ps : EdgePadders α} (hps : HoldsBoth ps gp)
    (hs : EdgeSetup (.one v) gp x ax axes) {c : α} {s : Nat → α} (hx : Affine c s x) (junk : List Nat → α) :
    ∃ ps' cs, f.allComponents ps junk x ax = (ps', .ok cs) ∧ cs.length = axes.length ∧
      ∀ i < axes.length, ∀ jx, EdgeInterior (usedKernel w) (.one v) axes (axes.getD i 0) x.shape jx →
        (cs.getD i ⟨[], [0], rfl⟩).get jx = s (axes.getD i 0) * (moment (usedKernel w) * v.sum ^ (axes.length - 1)) := by
  obtain ⟨ps', cs, e, hl, h⟩ := C99_components hb hw h0 hps hs (by intro h; cases h) hx junk
  refine ⟨ps', cs, e, hl, ?_⟩
  intro i hi jx hj
  rw [h i hi jx hj, totalWeight_same hv, filter_ne_length hs.nodup (getD_mem_lt hi), mul_assoc]

/-- **C99**: `Sobel`, `Prewitt` and `Scharr`, with and without normalisation, on two axes. -/
theorem C99_named (normalize : Bool) : ∃ f1 f2 f3 : EdgeFilter α,
    EdgeFilter.sobel normalize = .ok f1 ∧ EdgeFilter.prewitt normalize = .ok f2 ∧ EdgeFilter.scharr normalize = .ok f3 ∧
    ∀ f k, ((f = f1 ∧ k = if normalize then 2 else 8) ∨ (f = f2 ∧ k = if normalize then 2 else 6) ∨ (f = f3 ∧ k = if normalize then 2 else 32)) →
      ∀ {gp : PadArgs α} {ps : EdgePadders α} {x : Tensor α} {ax : Axes} {a b : Nat}, HoldsBoth ps gp → EdgeSetup (.one []) gp x ax [a, b] →
      ∀ {c : α} {s : Nat → α}, Affine c s x → ∀ junk : List Nat → α,
        ∃ ps' h v, f.allComponents ps junk x ax = (ps', .ok [h, v]) ∧
          ∀ jx, Interior (.one ([1, 1, 1] : List α)) [a, b] x.shape jx → h.get jx = k * s a ∧ v.get jx = k * s b := by
  obtain ⟨⟨f1, e1, b1⟩, ⟨f2, e2, b2⟩, ⟨f3, e3, b3⟩, _⟩ := C42_named (α := α) normalize
  refine ⟨f1, f2, f3, e1, e2, e3, ?_⟩
  have hk := C99_kernels (α := α)
  have key : ∀ {f : EdgeFilter α} {v : List α}, v.length = 3 → EdgeBuilt f [-1, 0, 1] (.one v) 1 →
      ∀ {gp : PadArgs α} {ps : EdgePadders α} {x : Tensor α} {ax : Axes} {a b : Nat}, HoldsBoth ps gp → EdgeSetup (.one []) gp x ax [a, b] →
      ∀ {c : α} {s : Nat → α}, Affine c s x → ∀ junk : List Nat → α,
        ∃ ps' h u, f.allComponents ps junk x ax = (ps', .ok [h, u]) ∧
          ∀ jx, Interior (.one ([1, 1, 1] : List α)) [a, b] x.shape jx → h.get jx = 2 * v.sum * s a ∧ u.get jx = 2 * v.sum * s b := by
    intro f v hvl hb gp ps x ax a b hps hs c s hx junk
    have hv : v ≠ [] := by rintro rfl; simp at hvl
    obtain ⟨ps', cs, e, hl, h⟩ := C99_gain hb hv (by simp) hk.1.2.1 hps (EdgeSetup_one hs rfl) hx junk
    match cs, hl with
    | [p, q], _ =>
      refine ⟨ps', p, q, e, ?_⟩
      intro jx hj
      have hab : a ≠ b := by
        have := hs.nodup
        simp at this
        exact this
      have i0 := hj.2 0 (by simp)
      have i1 := hj.2 1 (by simp)
      have hi : ∀ (u : List α) (d : Nat), u.length = 3 → d = a ∨ d = b → Interior (.one u) [d] x.shape jx := by
        intro u d hu hd
        refine ⟨hj.1, ?_⟩
        intro j hj'
        have : j = 0 := by simpa using hj'
        subst this
        change u.length / 2 ≤ jx.getD d 0 ∧ jx.getD d 0 - u.length / 2 + u.length ≤ x.shape.getD d 0
        rw [hu]
        rcases hd with rfl | rfl
        · exact i0
        · exact i1
      have f0 : [a, b].filter (fun k => k ≠ a) = [b] := by simp [hab.symm]
      have f1 : [a, b].filter (fun k => k ≠ b) = [a] := by simp [hab]
      have g0 := h 0 (by simp) jx ⟨hi _ a (by rw [hk.1.1]; rfl) (Or.inl rfl), by
        change Interior (.one v) ([a, b].filter (fun k => k ≠ a)) x.shape jx
        rw [f0]; exact hi v b hvl (Or.inr rfl)⟩
      have g1 := h 1 (by simp) jx ⟨hi _ b (by rw [hk.1.1]; rfl) (Or.inr rfl), by
        change Interior (.one v) ([a, b].filter (fun k => k ≠ b)) x.shape jx
        rw [f1]; exact hi v a hvl (Or.inl rfl)⟩
      rw [hk.1.1, hk.1.2.2] at g0 g1
      simp only [List.length_cons, List.length_nil, Nat.zero_add, Nat.reduceAdd, Nat.add_one_sub_one, pow_one] at g0 g1
      constructor
      · refine Eq.trans g0 ?_
        change s a * (2 * v.sum) = _
        ring
      · refine Eq.trans g1 ?_
        change s b * (2 * v.sum) = _
        ring
  have hn : ∀ v : List α, v.length = 3 → (if normalize then normalised v else v).length = 3 := by
    intro v hv
    cases normalize <;> simp [normalised, hv]
  have hsum : ∀ v : List α, v.sum ≠ 0 → (if normalize then normalised v else v).sum = if normalize then 1 else v.sum := by
    intro v hv
    cases normalize
    · rfl
    · exact normalised_sum hv
  rintro f k (⟨rfl, rfl⟩ | ⟨rfl, rfl⟩ | ⟨rfl, rfl⟩)
  · intro gp ps x ax a b hps hs c s hx junk
    have h := key (hn _ rfl) b1 hps hs hx junk
    rw [hsum _ (by norm_num)] at h
    cases normalize <;> norm_num at h ⊢ <;> exact h
  · intro gp ps x ax a b hps hs c s hx junk
    have h := key (hn _ rfl) b2 hps hs hx junk
    rw [hsum _ (by norm_num)] at h
    cases normalize <;> norm_num at h ⊢ <;> exact h
  · intro gp ps x ax a b hps hs c s hx junk
    have h := key (hn _ rfl) b3 hps hs hx junk
    rw [hsum _ (by norm_num)] at h
    cases normalize <;> norm_num at h ⊢ <;> exact h

/-- **C99**: `Laplace` of a straight-line image is zero away from the border. -/
theorem C99_laplace : ∃ f : EdgeFilter α, EdgeFilter.laplace = .ok f ∧ ∀ {ps : EdgePadders α} {gp : PadArgs α}, HoldsBoth ps gp →
    ∀ {x : Tensor α} {ax : Axes} {axes : List Nat}, EdgeSetup (.one []) gp x ax axes → ∀ {c : α} {s : Nat → α}, Affine c s x → ∀ junk : List Nat → α,
    ∃ ps' z, f.laplaceForward ps junk x ax = (ps', .ok z) ∧ z.shape = x.shape ∧
      ∀ jx, Interior (.one ([1, -2, 1] : List α)) axes x.shape jx → z.get jx = 0 := by
  obtain ⟨f, e, hb⟩ := laplace_built (α := α)
  refine ⟨f, e, ?_⟩
  intro ps gp hps x ax axes hs c s hx junk
  have hk := (C99_kernels (α := α)).2.1
  obtain ⟨ps', z, e1, h1, h2⟩ := C99_magnitude hb (by simp) hk.2.1 hps hs (by intro h; cases h) hx id 0 one_ne_zero junk
  refine ⟨ps', z, e1, h1, ?_⟩
  intro jx hj
  rw [h2 jx, hk.1, hk.2.2]
  · simp
  · intro a ha
    obtain ⟨i, hi, rfl⟩ := List.mem_iff_getElem.1 ha
    have ei : axes[i] = axes.getD i 0 := by simp [hi]
    refine ⟨⟨hj.1, ?_⟩, hj.1, ?_⟩
    · intro j hj'
      have : j = 0 := by simpa using hj'
      subst this
      rw [hk.1]
      have := hj.2 i hi
      rw [← ei] at this
      exact this
    · intro j hj'
      have := hj.1.lt (k := (axes.filter fun b => b ≠ axes[i]).getD j 0) (by
        exact (checkAxes_spec hs.axes_eq).2 _ (List.mem_of_mem_filter (getD_mem_lt hj')))
      change ([] : List α).length / 2 ≤ _ ∧ _ - ([] : List α).length / 2 + ([] : List α).length ≤ _
      simp only [List.length_nil]
      omega

end

/-! ### Gaussian derivatives -/

/-- **C99**: the first-order Gaussian kernel of an odd size of at least three has a positive moment: the responses of `GaussianGrad` have the sign of the
slope. -/
theorem C99_gaussian_moment {k : Nat} (hk : k % 2 = 1) (h3 : 3 ≤ k) {σ : ℝ} (hσ : σ ≠ 0) :
    (gaussWeights k σ 1).sum = 0 ∧ 0 < moment (gaussWeights k σ 1) ∧ 0 < moment (usedKernel (gaussWeights k σ 1)) := by
  have h0 := gaussWeights_odd_sum hσ hk (n := 1) rfl
  set B : ℝ := ((List.range (2 * (k / 2) + 1)).map fun i : Nat => bell σ (samplePoint k i)).sum with hB
  have hBp : 0 < B := by
    rw [hB, list_sum_range]
    exact Finset.sum_pos (fun i _ => bell_pos _ _) ⟨0, by simp⟩
  have hget : ∀ j < k, (gaussWeights k σ 1).getD j 0 = -(samplePoint k j / σ ^ 2) * bell σ (samplePoint k j) / B := by
    intro j hj
    have : (gaussWeights k σ 1).getD j 0 = iteratedDeriv 1 (bell σ) (samplePoint k j) / B := by
      simp [gaussWeights, hj, hB]
    rw [this, deriv_eq, bellPoly_one]
  have hlen : (gaussWeights k σ 1).length = k := by simp [gaussWeights]
  have hpos : 0 < moment (gaussWeights k σ 1) := by
    have e1 : moment (gaussWeights k σ 1) = ∑ j ∈ Finset.range k, (j : ℝ) * (gaussWeights k σ 1).getD j 0 := by
      rw [moment, hlen, list_sum_range]
    have e2 : (0 : ℝ) = ∑ j ∈ Finset.range k, (gaussWeights k σ 1).getD j 0 := by
      have := sum_getD (gaussWeights k σ 1)
      rw [hlen, h0] at this
      exact this
    have e3 : moment (gaussWeights k σ 1) = ∑ j ∈ Finset.range k, samplePoint k j ^ 2 / σ ^ 2 * bell σ (samplePoint k j) / B := by
      have : moment (gaussWeights k σ 1) = ∑ j ∈ Finset.range k, ((j : ℝ) - (k / 2 : Nat)) * (gaussWeights k σ 1).getD j 0 := by
        simp only [sub_mul, Finset.sum_sub_distrib, ← Finset.mul_sum, ← e2, ← e1, mul_zero, sub_zero]
      rw [this]
      apply Finset.sum_congr rfl
      intro j hj
      rw [hget j (Finset.mem_range.1 hj)]
      rw [samplePoint]
      ring
    rw [e3]
    refine Finset.sum_pos' ?_ ⟨0, Finset.mem_range.2 (by omega), ?_⟩
    · intro j _
      have := bell_pos σ (samplePoint k j)
      positivity
    · have h1 := bell_pos σ (samplePoint k 0)
      have h2 : samplePoint k 0 ≠ 0 := by
        rw [samplePoint]
        have : 1 ≤ k / 2 := by omega
        have : (1 : ℝ) ≤ ((k / 2 : Nat) : ℝ) := by exact_mod_cast this
        simp
        omega
      positivity
  refine ⟨h0, hpos, ?_⟩
  rw [usedKernel]
  split_ifs with q1 q2
  · norm_num [moment, List.range_succ]
  · exfalso
    obtain ⟨w, e1, e2, e3⟩ := C38_parity hσ hk 1
    have e4 := gaussianKernel_weights hσ k 1
    rw [e1] at e4
    cases e4
    match hw : gaussWeights k σ 1, q2, e3 with
    | [a, b, c], q2, e3 =>
      simp at e3
      obtain ⟨⟨q3, _⟩, _, q4, _⟩ := q2
      linarith [e3.1]
  · exact hpos

/-- **C99**: `GaussianGrad` of order one with one odd size of at least three and one sigma for all axes: away from the border every component is a fixed positive number times
the slope. -/
theorem C99_gaussian {k : Nat} (hk : k % 2 = 1) (h3 : 3 ≤ k) {σ : ℝ} (hσ : σ ≠ 0) (normalize : Bool) :
    ∃ f κ, EdgeFilter.gaussianGrad (.leaf (k : Int)) (.leaf σ) none none normalize 1 = .ok f ∧ 0 < κ ∧
      ∀ {gp : PadArgs ℝ} {ps : EdgePadders ℝ} {x : Tensor ℝ} {ax : Axes} {axes : List Nat}, HoldsBoth ps gp → EdgeSetup (.one []) gp x ax axes →
      ∀ {c : ℝ} {s : Nat → ℝ}, Affine c s x → ∀ junk : List Nat → ℝ,
        ∃ ps' cs, f.allComponents ps junk x ax = (ps', .ok cs) ∧ cs.length = axes.length ∧
          ∀ jx, Interior (.one (List.replicate k (0 : ℝ))) axes x.shape jx → ∀ i < axes.length, (cs.getD i ⟨[], [0], rfl⟩).get jx = κ * s (axes.getD i 0) := by
  obtain ⟨f, e, hb⟩ := gaussianGrad_built (size := .one k) (sigma := .one σ) (m := 1) Nat.one_pos trivial trivial
    (by intro s hs; simp only [Given.values, List.mem_singleton] at hs; rw [hs]; exact hσ) k hσ normalize 1 none none (Or.inr ⟨rfl, rfl⟩) (Or.inr ⟨rfl, rfl⟩)
  obtain ⟨q1, _, q3⟩ := C99_gaussian_moment hk h3 hσ
  have hone := gaussWeights_zero_sum hσ (k := k) (by omega)
  obtain ⟨v, hv, hvs, hvl⟩ : ∃ v : List ℝ, (if normalize then (smoothKernels 1 (.one k) (.one σ)).map normalised else smoothKernels 1 (.one k) (.one σ)) = .one v ∧
      v.sum = 1 ∧ v.length = k := by
    have e0 : smoothKernels 1 (.one k) (.one σ) = .one (gaussWeights k σ 0) := by
      simp [smoothKernels, Given.zip, Given.isMany, Given.entry]
    rw [e0]
    cases normalize
    · exact ⟨gaussWeights k σ 0, rfl, hone, by simp [gaussWeights]⟩
    · exact ⟨normalised (gaussWeights k σ 0), rfl, normalised_sum (by rw [hone]; exact one_ne_zero), by simp [normalised, gaussWeights]⟩
  rw [hv] at hb
  have hlen : (gaussWeights k σ 1).length = k := by simp [gaussWeights]
  refine ⟨f, moment (usedKernel (gaussWeights k σ 1)), e, q3, ?_⟩
  intro gp ps x ax axes hps hs c s hx junk
  obtain ⟨ps', cs, e1, hl, h⟩ := C99_gain hb (by rintro rfl; simp at hvl; omega) (by intro h; rw [h] at hlen; simp at hlen; omega) q1 hps (EdgeSetup_one hs rfl) hx junk
  refine ⟨ps', cs, e1, hl, ?_⟩
  intro jx hj i hi
  have hat : ∀ b ∈ axes, k / 2 ≤ jx.getD b 0 ∧ jx.getD b 0 - k / 2 + k ≤ x.shape.getD b 0 := by
    intro b hb'
    obtain ⟨j, hj', rfl⟩ := List.mem_iff_getElem.1 hb'
    have := hj.2 j hj'
    simpa [Given.entry, hj'] using this
  have hin : ∀ (u : List ℝ) (as : List Nat), u.length = k → (∀ b ∈ as, b ∈ axes) → Interior (.one u) as x.shape jx := by
    intro u as hu has
    refine ⟨hj.1, ?_⟩
    intro j hj'
    change u.length / 2 ≤ _ ∧ _ - u.length / 2 + u.length ≤ _
    rw [hu]
    exact hat _ (has _ (getD_mem_lt hj'))
  rw [h i hi jx ⟨hin _ _ (by rw [usedKernel_length, hlen]) (by
    intro b hb'
    rw [List.mem_singleton.1 hb']
    exact getD_mem_lt hi), hin _ _ hvl fun b hb' => List.mem_of_mem_filter hb'⟩, hvs, one_pow, mul_one, mul_comm]

/-! ## Examples -/

namespace Example

/-- the grey value is `1 + 2 i + 3 j` -/
def ramp : Tensor ℚ := ⟨[4, 4], [1, 4, 7, 10, 3, 6, 9, 12, 5, 8, 11, 14, 7, 10, 13, 16], rfl⟩

/-- slopes 2 and 3 -/
def slopes : Nat → ℚ := fun k => if k = 0 then 2 else if k = 1 then 3 else 0

theorem ramp_affine : Affine 1 slopes ramp := by
  intro ix hix
  match ix, hix with
  | [i, j], hix =>
    have h0 := hix.lt (k := 0) (by decide)
    have h1 := hix.lt (k := 1) (by decide)
    change i < 4 at h0
    change j < 4 at h1
    interval_cases i <;> interval_cases j <;> decide +kernel

theorem ramp_setup {mode : Mode ℚ} (hv : ∀ s : AxisPad ℚ, s.mode = mode → s.rule? ≠ none ∧ s.mode ≠ .zeros) (hp : mode.isPeriodize = false) :
    EdgeSetup (.one []) (modeArgs mode) ramp .none [0, 1] where
  axes_eq := by decide
  two := by decide
  nodup := by decide
  fits := by intro h; cases h
  pos := by decide
  uniform := ⟨rfl, rfl, rfl, rfl⟩
  valued := hv
  keep := Or.inl hp

theorem ramp_interior {i j : Nat} (hi : i = 1 ∨ i = 2) (hj : j = 1 ∨ j = 2) : Interior (.one ([1, 1, 1] : List ℚ)) [0, 1] ramp.shape [i, j] := by
  refine ⟨by rcases hi with rfl | rfl <;> rcases hj with rfl | rfl <;> decide, ?_⟩
  intro k hk
  have hk : k < 2 := hk
  rcases hi with rfl | rfl <;> rcases hj with rfl | rfl <;> interval_cases k <;> decide

end Example

/-- `Sobel` with a reflecting padder on `1 + 2 i + 3 j`: in the middle the components are 16 and 24 -/
example (junk : List Nat → ℚ) : ∃ f ps' h v, EdgeFilter.sobel false = .ok f ∧ f.allComponents Example.reflectTwo junk Example.ramp .none = (ps', .ok [h, v]) ∧
    h.get [1, 2] = 16 ∧ v.get [1, 2] = 24 := by
  obtain ⟨f1, f2, f3, e1, _, _, h⟩ := C99_named (α := ℚ) false
  obtain ⟨ps', u, v, e2, h2⟩ := h f1 8 (Or.inl ⟨rfl, rfl⟩) Example.reflectTwo_holds (Example.ramp_setup (by intro s hs; simp [AxisPad.rule?, hs]) rfl)
    Example.ramp_affine junk
  refine ⟨f1, ps', u, v, e1, e2, ?_⟩
  obtain ⟨h3, h4⟩ := h2 [1, 2] (Example.ramp_interior (Or.inl rfl) (Or.inr rfl))
  rw [h3, h4]
  norm_num [Example.slopes]

namespace Example

/-- the filter with kernel `(1, 2, 1) / 4` -/
def softArgs : Given (List ℚ) := .one [1 / 4, 1 / 2, 1 / 4]

theorem soft_built : ∃ pool, SepPool.init ((PoolArgs.filter softArgs).kernel.toPy PoolArgs.pyKernel) ((PoolArgs.filter softArgs).stride.toPy PoolArgs.pyStride) = .ok pool ∧
    Built pool (PoolArgs.filter softArgs) 1 :=
  ⟨_, rfl, .separable (by decide) ⟨trivial, trivial⟩ (by intro s hs; simp [PoolArgs.filter, Given.values] at hs; simp [hs]) rfl⟩

theorem soft_req (x : Tensor ℚ) (hx : x.shape = [4, 4]) (mode : Mode ℚ) : SameReq (PoolArgs.filter softArgs) (modeArgs mode) x .none [0, 1] where
  axes_eq := by rw [ndim, hx]; decide
  ne := by decide
  nodup := by decide
  fits := by intro h; cases h
  rest := ⟨trivial, trivial, trivial, trivial⟩
  stride := by intro i _; exact Nat.one_pos
  pos := by rw [hx]; decide

theorem soft_empty (x : Tensor ℚ) (hx : x.shape = [4, 4]) : KnownCall (PoolArgs.filter softArgs) (modeArgs .empty) x .none [0, 1] where
  toSameReq := soft_req x hx .empty
  known := by
    intro o ho _
    obtain ⟨i, _, rfl⟩ := sameOps_mem ho
    exact Or.inl rfl
  zerosLast := by
    apply List.pairwise_of_forall_mem_list
    intro o ho _ _ hz
    obtain ⟨i, _, rfl⟩ := sameOps_mem ho
    cases hz

theorem soft_smooth (x : Tensor ℚ) (hx : x.shape = [4, 4]) : SameCall (PoolArgs.filter softArgs) (modeArgs .smooth) x .none [0, 1] where
  toSameReq := soft_req x hx .smooth
  valued := by
    intro o ho _
    obtain ⟨i, _, rfl⟩ := sameOps_mem ho
    exact ⟨by simp [sameSetting, AxisPad.rule?, modeArgs, Given.entry], by simp [sameSetting, modeArgs, Given.entry]⟩

theorem soft_fits (x : Tensor ℚ) (hx : x.shape = [4, 4]) : ∀ i < [0, 1].length, (softArgs.entry [] i).length ≤ x.shape.getD ([0, 1].getD i 0) 0 := by
  intro i hi
  have hi : i < 2 := hi
  rw [hx]
  interval_cases i <;> decide

end Example

/-- C97: two images that agree on the upper left 3×3 block, one padded with fresh memory, the other with `smooth`: the same value at (1, 1) -/
example (x y : Tensor ℚ) (hx : x.shape = [4, 4]) (hy : y.shape = [4, 4]) (h : ∀ i < 3, ∀ j < 3, x.get [i, j] = y.get [i, j]) (junk junk' : List Nat → ℚ) :
    ∃ pool q q' z z', SepPool.init (Py.seq [.leaf (1 / 4), .leaf (1 / 2), .leaf (1 / 4)]) (.leaf (some 1)) = .ok pool ∧
      SepPool.forward pool (some ((Example.modeArgs .empty).padder 1)) junk x .none = (q, .ok z) ∧
      SepPool.forward pool (some ((Example.modeArgs .smooth).padder 1)) junk' y .none = (q', .ok z') ∧ z.get [1, 1] = z'.get [1, 1] := by
  obtain ⟨pool, e, hb⟩ := Example.soft_built
  obtain ⟨q, q', z, z', e1, e2, h1⟩ := C97_local hb (by intro h; cases h) (Example.soft_empty x hx) (Example.soft_smooth y hy).knownCall (by rw [hx, hy])
    (holds_padder _ 1) (holds_padder _ 1) (Example.soft_fits x hx) junk junk'
  refine ⟨pool, q, q', z, z', e, e1, e2, h1 [1, 1] ?_ ?_⟩
  · refine ⟨by rw [hx]; decide, ?_⟩
    intro i hi
    have hi : i < 2 := hi
    rw [hx]
    interval_cases i <;> decide
  · intro kx _ hk
    match kx, hk.length with
    | [i, j], _ =>
      have h0 := hk.filtered 0 (by decide) (by decide)
      have h1 := hk.filtered 1 (by decide) (by decide)
      simp [Example.softArgs, Given.entry] at h0 h1
      exact h i (by omega) j (by omega)

/-- C98: `(1, 2, 1) / 4` with `smooth` returns `1 + 2 i + 3 j` -/
example (junk : List Nat → ℚ) : ∃ pool q, SepPool.init (Py.seq [.leaf (1 / 4), .leaf (1 / 2), .leaf (1 / 4)]) (.leaf (some 1)) = .ok pool ∧
    SepPool.forward pool (some ((Example.modeArgs .smooth).padder 1)) junk Example.ramp .none = (q, .ok Example.ramp) := by
  obtain ⟨pool, e, hb⟩ := Example.soft_built
  obtain ⟨q, h⟩ := C98_symmetric_straight hb (by intro h; cases h) (Example.soft_smooth Example.ramp rfl) (holds_padder _ 1) (by intro i _; trivial)
    (by decide) (by intro i _; right; simp only [Example.softArgs, Given.entry]; exact ⟨rfl, rfl, by norm_num⟩) Example.ramp_affine junk
  exact ⟨pool, q, e, h⟩

/-- without symmetry the image moves: the kernel `(1, 0, 0)` returns the value of the neighbour, here less by the slope -/
example : drift (.one ([1, 0, 0] : List ℚ)) [0, 1] Example.slopes = -5 := by decide +kernel

end TI
