import Verif.Proofs.EdgeChange
import Verif.Proofs.FlipMetrics
import Verif.Props.EdgeLoss
import Verif.Props.EdgeSym
import Verif.Props.Transpose
import Verif.Props.CasesEdges

/-!
# Edges and edge losses of changed images (C114)
-/

set_option linter.unusedSectionVars false

namespace TI
open Tensor Spec

section
variable {α : Type} [Field α] [LinearOrder α] [IsStrictOrderedRing α] {x y : Tensor α} {ax : Axes} {axes : List Nat} {δ : α}

/-- **C114** for pooling with weights of any sign: differences of at most `δ` become at most `δ` times the product of the sums of the absolute
weights, for padders that fill with samples, statistics of samples, constants or ramps. -/
theorem C114_pool_close {pool : SepPool α} {q : PoolArgs α} {m : Nat} {gp : PadArgs α} {p : Padder α} (hb : Built pool q m)
    (hc : SameCall q gp x ax axes) (hm : q.isMany = true → axes.length = m) (hp : Holds p gp) (hr : gp.Rises axes.length gp) (hδ : 0 ≤ δ)
    (hxy : Close δ x y) (junk junk' : List Nat → α) :
    ∃ r r' z z', SepPool.forward pool (some p) junk x ax = (r, .ok z) ∧ SepPool.forward pool (some p) junk' y ax = (r', .ok z') ∧
      Close (δ * absWeight (q.ops axes)) z z' :=
  ⟨_, _, _, _, hb.poolIs.1.forward_same hc hm hp junk, hb.poolIs.1.forward_same (hc.congr hxy.1) hm hp junk', same_close hc hr hδ hxy⟩

variable [FloorRing α] {f : EdgeFilter α} {w : List α} {g : Given (List α)} {m : Nat} {ps : EdgePadders α} {gp : PadArgs α}

/-- **C114**: with padding modes that are linear, the components of an edge filter are linear in the image. -/
theorem C114_components_linear (hf : EdgeBuilt f w g m) (hps : HoldsBoth ps gp) (h : EdgeSetup g gp x ax axes)
    (hm : g.isMany = true → axes.length - 1 = m) (hl : (gp.entry 0).Linear) (hs : y.shape = x.shape) (a b : α) (junk : List Nat → α) :
    ∃ ps1 ps2 ps3 cs ds, f.allComponents ps junk x ax = (ps1, .ok cs) ∧ f.allComponents ps junk y ax = (ps2, .ok ds) ∧
      f.allComponents ps junk (lincomb a x b y) ax = (ps3, .ok (List.zipWith (fun c d => lincomb a c b d) cs ds)) := by
  obtain ⟨p1, e1, -⟩ := C75_components hf hps h hm junk
  obtain ⟨p2, e2, -⟩ := C75_components hf hps (h.congr hs) hm junk
  obtain ⟨p3, e3, -⟩ := C75_components hf hps (h.congr (x' := lincomb a x b y) rfl) hm junk
  refine ⟨p1, p2, p3, _, _, e1, e2, ?_⟩
  rw [e3, List.zipWith_map_left, List.zipWith_map_right, List.zipWith_self]
  congr 2
  exact List.map_congr_left fun k hk => edgeResponse_lincomb h hl hs hk

/-- **C114**: images that differ by at most `δ` have components that differ by at most `δ` times the absolute weights of the kernels. -/
theorem C114_components_close (hf : EdgeBuilt f w g m) (hps : HoldsBoth ps gp) (h : EdgeSetup g gp x ax axes)
    (hm : g.isMany = true → axes.length - 1 = m) (hr : (gp.entry 0).Rises (gp.entry 0)) (hδ : 0 ≤ δ) (hxy : Close δ x y) (junk junk' : List Nat → α) :
    ∃ ps1 ps2 cs ds, f.allComponents ps junk x ax = (ps1, .ok cs) ∧ f.allComponents ps junk' y ax = (ps2, .ok ds) ∧
      List.Forall₂ (Close (δ * edgeGain (usedKernel w) g axes.length)) cs ds := by
  obtain ⟨p1, e1, -⟩ := C75_components hf hps h hm junk
  obtain ⟨p2, e2, -⟩ := C75_components hf hps (h.congr hxy.1) hm junk'
  refine ⟨p1, p2, _, _, e1, e2, ?_⟩
  rw [List.forall₂_map_left_iff, List.forall₂_map_right_iff, List.forall₂_same]
  exact fun k hk => edgeResponse_close h hr hδ hxy hk

/-! ## the losses -/

variable {n c h v : Nat} {p t p' t' u : Tensor α}

theorem overBoth_eq {S : List Nat} {u u' : Nat → List Nat → α} (hu : ∀ a ∈ [2, 3], ∀ ix, InB S ix → u a ix = u' a ix) :
    overBoth S u = overBoth S u' := by
  have : ∀ a ∈ [2, 3], (indices S).map (u a) = (indices S).map (u' a) :=
    fun a ha => List.map_congr_left fun ix hix => hu a ha ix (mem_indices.1 hix)
  rw [overBoth, overBoth, this 2 (by simp), this 3 (by simp)]

theorem mean_mul {k : α} {l : List (List Nat)} {u : List Nat → α} : Spec.mean (l.map fun ix => k * u ix) = k * Spec.mean (l.map u) := by
  rw [Spec.mean, Spec.mean, List.sum_map_mul_left, List.length_map, List.length_map, mul_div_assoc]

theorem overBoth_mul {S : List Nat} {k : α} {u : Nat → List Nat → α} : overBoth S (fun a ix => k * u a ix) = k * overBoth S u := by
  simp only [overBoth, mean_mul]
  ring

theorem overBoth_le {S : List Nat} {u u' : Nat → List Nat → α} (hu : ∀ a ∈ [2, 3], ∀ ix, InB S ix → u a ix ≤ u' a ix) :
    overBoth S u ≤ overBoth S u' := by
  have : ∀ a ∈ [2, 3], Spec.mean ((indices S).map (u a)) ≤ Spec.mean ((indices S).map (u' a)) := by
    intro a ha
    simp only [Spec.mean, List.length_map]
    apply div_le_div_of_nonneg_right _ (Nat.cast_nonneg _)
    exact List.sum_le_sum fun ix hix => hu a ha ix (mem_indices.1 hix)
  have h2 := this 2 (by simp)
  have h3 := this 3 (by simp)
  simp only [overBoth]
  linarith

theorem reflect_linear : ((reflectArgs : PadArgs α).entry 0).Linear := trivial

theorem reflect_rises : ((reflectArgs : PadArgs α).entry 0).Rises ((reflectArgs : PadArgs α).entry 0) := ⟨rfl, rfl, trivial⟩

theorem edges_lincomb {w : List α} (hg : g.isMany = false) (hx : x.shape = [n, c, h, v]) (hh : 0 < h) (hv : 0 < v) (hs : y.shape = x.shape) (a b : α)
    {k : Nat} (hk : k ∈ [2, 3]) : edges w g (lincomb a x b y) k = lincomb a (edges w g x k) b (edges w g y k) :=
  edgeResponse_lincomb (reflect_setup hg hx hh hv) reflect_linear hs hk

theorem edges_shape {w : List α} (hg : g.isMany = false) (hx : x.shape = [n, c, h, v]) (hh : 0 < h) (hv : 0 < v) {k : Nat} (hk : k ∈ [2, 3]) :
    (edges w g x k).shape = [n, c, h, v] := by
  rw [edges, (reflect_setup hg hx hh hv).response_shape w hk, hx]

/-- **C114**: the plain loss depends on the difference of the images only, and on its scale linearly: an image added to both does not matter. -/
theorem C114_difference (hb : EdgeBuilt f w g m) (hps : HoldsBoth ps reflectArgs) (hi : EdgeImages g n c h v p t) {a b : α}
    (hu : Shifted a b u p t p' t') (junk junk' : List Nat → α) :
    ∃ l : α, (EdgeLoss.forward f ps junk p t).2 = .ok (.scalar l) ∧ (EdgeLoss.forward f ps junk' p' t').2 = .ok (.scalar (|a| * l)) := by
  obtain ⟨h1, h2, rfl, rfl⟩ := hu
  have hi' : EdgeImages g n c h v (lincomb a p b u) (lincomb a t b u) := ⟨hi.pred_shape, hi.true_shape, hi.height, hi.width, hi.single⟩
  obtain ⟨_, e1, _⟩ := C85_edge_loss hb hps hi junk
  obtain ⟨_, e2, _⟩ := C85_edge_loss hb hps hi' junk'
  refine ⟨_, by rw [e1], ?_⟩
  rw [e2, ← overBoth_mul]
  refine congrArg (fun r => Except.ok (Tensor.scalar r)) (overBoth_eq ?_)
  intro k hk ix hix
  rw [edges_lincomb hi.single hi.pred_shape hi.height hi.width h1 a b hk, edges_lincomb hi.single hi.true_shape hi.height hi.width h2 a b hk,
    lincomb_get (by rw [edges_shape hi.single hi.pred_shape hi.height hi.width hk]; exact hix),
    lincomb_get (by rw [edges_shape hi.single hi.true_shape hi.height hi.width hk]; exact hix), ← abs_mul]
  congr 1
  ring

/-- **C114**: the plain loss is at most the largest difference of the images, times the absolute weights of the kernels. -/
theorem C114_lipschitz (hb : EdgeBuilt f w g m) (hps : HoldsBoth ps reflectArgs) (hi : EdgeImages g n c h v p t) (hδ : 0 ≤ δ) (hpt : Close δ p t)
    (junk : List Nat → α) : ∃ l : α, (EdgeLoss.forward f ps junk p t).2 = .ok (.scalar l) ∧ l ≤ δ * edgeGain (usedKernel w) g 2 := by
  obtain ⟨_, e, _⟩ := C85_edge_loss hb hps hi junk
  refine ⟨_, by rw [e], ?_⟩
  have hgain : 0 ≤ δ * edgeGain (usedKernel w) g 2 := mul_nonneg hδ (mul_nonneg (absSum_nonneg _) (List.prod_nonneg (by
    simp only [List.mem_map]
    rintro _ ⟨i, _, rfl⟩
    exact absSum_nonneg _)))
  refine (overBoth_le (u' := fun _ _ => δ * edgeGain (usedKernel w) g 2) ?_).trans ?_
  · intro k hk ix hix
    have := edgeResponse_close (w := usedKernel w) (reflect_setup hi.single hi.pred_shape hi.height hi.width) reflect_rises hδ hpt hk
    exact this.2 ix (by
      have := edges_shape (w := usedKernel w) hi.single hi.pred_shape hi.height hi.width hk
      rw [edges] at this
      rw [this]; exact hix)
  · have : ∀ l : List (List Nat), Spec.mean (l.map fun _ => δ * edgeGain (usedKernel w) g 2) ≤ δ * edgeGain (usedKernel w) g 2 := by
      intro l
      rw [Spec.mean, List.map_const', List.sum_replicate, List.length_replicate, nsmul_eq_mul]
      rcases Nat.eq_zero_or_pos l.length with h | h
      · simpa [h] using hgain
      · rw [mul_div_assoc, mul_div_cancel₀]
        exact_mod_cast h.ne'
    have := this (indices [n, c, h, v])
    rw [overBoth]
    linarith

theorem abs_mean_le {l : List (List Nat)} {u : List Nat → α} : |Spec.mean (l.map u)| ≤ Spec.mean (l.map fun ix => |u ix|) := by
  rw [Spec.mean, Spec.mean, abs_div, List.length_map, List.length_map, Nat.abs_cast]
  apply div_le_div_of_nonneg_right _ (Nat.cast_nonneg _)
  induction l with
  | nil => simp
  | cons a l ih =>
    simp only [List.map_cons, List.sum_cons]
    exact (abs_add_le _ _).trans (by linarith)

theorem mean_sub {l : List (List Nat)} {u u' : List Nat → α} : Spec.mean (l.map u) - Spec.mean (l.map u') = Spec.mean (l.map fun ix => u ix - u' ix) := by
  simp only [Spec.mean, List.length_map, ← sub_div]
  congr 1
  induction l with
  | nil => simp
  | cons a l ih =>
    simp only [List.map_cons, List.sum_cons]
    linarith

theorem mean_le {l : List (List Nat)} {u u' : List Nat → α} (h : ∀ ix ∈ l, u ix ≤ u' ix) : Spec.mean (l.map u) ≤ Spec.mean (l.map u') := by
  simp only [Spec.mean, List.length_map]
  exact div_le_div_of_nonneg_right (List.sum_le_sum h) (Nat.cast_nonneg _)

theorem mean_planes (n c h v : Nat) (u : List Nat → α) :
    Spec.mean ((indices [n, c]).map (planeMean [n, c, h, v] u)) = Spec.mean ((indices [n, c, h, v]).map u) :=
  mean_of_means [n, c, h, v] [2, 3] u

/-- **C114**: `WeightedSum` is at most the plain loss. -/
theorem C114_sum_le (hb : EdgeBuilt f w g m) (hps : HoldsBoth ps reflectArgs) (hi : EdgeImages g n c h v p t) (junk junk' : List Nat → α) :
    ∃ l l' : α, (EdgeLoss.forward f ps junk p t).2 = .ok (.scalar l) ∧ (EdgeLoss.weightedSum f ps junk' p t).2 = .ok (.scalar l') ∧ l' ≤ l := by
  obtain ⟨_, e1, _⟩ := C85_edge_loss hb hps hi junk
  obtain ⟨_, e2, _⟩ := C85_weighted_sum hb hps hi junk'
  refine ⟨_, _, by rw [e1], by rw [e2], ?_⟩
  have key : ∀ k, Spec.mean ((indices [n, c]).map fun jx => |planeMean [n, c, h, v] (fun ix => |(edges (usedKernel w) g t k).get ix|) jx -
      planeMean [n, c, h, v] (fun ix => |(edges (usedKernel w) g p k).get ix|) jx|) ≤
      Spec.mean ((indices [n, c, h, v]).map fun ix => |(edges (usedKernel w) g p k).get ix - (edges (usedKernel w) g t k).get ix|) := by
    intro k
    rw [← mean_planes n c h v]
    apply mean_le
    intro jx _
    rw [planeMean, planeMean, planeMean, mean_sub]
    refine abs_mean_le.trans (mean_le fun ix _ => ?_)
    rw [abs_sub_comm ((edges (usedKernel w) g p k).get ix)]
    exact abs_abs_sub_abs_le _ _
  have h2 := key 2
  have h3 := key 3
  simp only [overBoth]
  linarith

/-! ## other grey values -/

theorem reflect_follows {F : α → α} (k : Nat) : (reflectArgs : PadArgs α).Follows F k reflectArgs := fun _ _ => ⟨rfl, rfl, trivial⟩

theorem edges_grey {w : List α} {a e : α} (hw : w ≠ [] ∧ w.sum = 0 ∨ e = 0) (hg : g.isMany = false) (hx : x.shape = [n, c, h, v]) (hh : 0 < h)
    (hv : 0 < v) {k : Nat} (hk : k ∈ [2, 3]) {ix : List Nat} (hix : InB [n, c, h, v] ix) :
    (edges w g (x.map fun r => a * r + e) k).get ix = a * (edges w g x k).get ix := by
  have hin : InB (edgeResponse w g reflectArgs x [2, 3] k).shape ix := by
    have := edges_shape (w := w) hg hx hh hv hk
    rw [edges] at this
    rw [this]; exact hix
  rcases hw with ⟨hw, h0⟩ | rfl
  rotate_left
  · have e1 : (x.map fun r => a * r + 0) = lincomb a x 0 x := by
      apply ext_get (show (x.map _).shape = (lincomb a x 0 x).shape from rfl)
      intro ix hix
      rw [get_map _ _ (show InB x.shape ix from hix), lincomb, get_ofFn (show InB x.shape ix from hix)]
      ring
    rw [edges, e1, edgeResponse_lincomb (reflect_setup hg hx hh hv) trivial rfl hk, lincomb, get_ofFn hin, edges]
    ring
  rw [edges, edgeResponse_map (reflect_setup hg hx hh hv) hk hw h0 (reflect_follows 1) (reflect_follows _)]
  exact get_map _ _ hin

/-- **C114**: multiplying both images by `a` and, for an edge kernel of sum zero, adding any two constants, multiplies the plain loss and
`WeightedSum` by `|a|`, and `WeightedMul` by `a |a|`. -/
theorem C114_grey (hb : EdgeBuilt f w g m) (hps : HoldsBoth ps reflectArgs) (hi : EdgeImages g n c h v p t) {a e e' : α}
    (hw : usedKernel w ≠ [] ∧ (usedKernel w).sum = 0 ∨ e = 0 ∧ e' = 0) (junk junk' : List Nat → α) :
    ∃ l1 l2 l3 : α, (EdgeLoss.forward f ps junk p t).2 = .ok (.scalar l1) ∧ (EdgeLoss.weightedSum f ps junk p t).2 = .ok (.scalar l2) ∧
      (EdgeLoss.weightedMul f ps junk p t).2 = .ok (.scalar l3) ∧
      (EdgeLoss.forward f ps junk' (p.map fun r => a * r + e) (t.map fun r => a * r + e')).2 = .ok (.scalar (|a| * l1)) ∧
      (EdgeLoss.weightedSum f ps junk' (p.map fun r => a * r + e) (t.map fun r => a * r + e')).2 = .ok (.scalar (|a| * l2)) ∧
      (EdgeLoss.weightedMul f ps junk' (p.map fun r => a * r + e) (t.map fun r => a * r + e')).2 = .ok (.scalar (a * |a| * l3)) := by
  have hi' : EdgeImages g n c h v (p.map fun r => a * r + e) (t.map fun r => a * r + e') :=
    ⟨hi.pred_shape, hi.true_shape, hi.height, hi.width, hi.single⟩
  have gp : ∀ k ∈ [2, 3], ∀ ix, InB [n, c, h, v] ix → (edges (usedKernel w) g (p.map fun r => a * r + e) k).get ix = a * (edges (usedKernel w) g p k).get ix :=
    fun k hk ix hix => edges_grey (hw.imp_right And.left) hi.single hi.pred_shape hi.height hi.width hk hix
  have gt : ∀ k ∈ [2, 3], ∀ ix, InB [n, c, h, v] ix → (edges (usedKernel w) g (t.map fun r => a * r + e') k).get ix = a * (edges (usedKernel w) g t k).get ix :=
    fun k hk ix hix => edges_grey (hw.imp_right And.right) hi.single hi.true_shape hi.height hi.width hk hix
  obtain ⟨_, e1, _⟩ := C85_edge_loss hb hps hi junk
  obtain ⟨_, e2, _⟩ := C85_weighted_sum hb hps hi junk
  obtain ⟨_, e3, _⟩ := C85_weighted_mul hb hps hi junk
  obtain ⟨_, e4, _⟩ := C85_edge_loss hb hps hi' junk'
  obtain ⟨_, e5, _⟩ := C85_weighted_sum hb hps hi' junk'
  obtain ⟨_, e6, _⟩ := C85_weighted_mul hb hps hi' junk'
  refine ⟨_, _, _, by rw [e1], by rw [e2], by rw [e3], ?_, ?_, ?_⟩
  · rw [e4, ← overBoth_mul]
    refine congrArg (fun r => Except.ok (Tensor.scalar r)) (overBoth_eq fun k hk ix hix => ?_)
    rw [gp k hk ix hix, gt k hk ix hix, ← mul_sub, abs_mul]
  · rw [e5, ← overBoth_mul]
    refine congrArg (fun r => Except.ok (Tensor.scalar r)) (overBoth_eq fun k hk jx _ => ?_)
    have hpm : ∀ {u u' : List Nat → α}, (∀ ix, InB [n, c, h, v] ix → u' ix = a * u ix) →
        planeMean [n, c, h, v] (fun ix => |u' ix|) jx = |a| * planeMean [n, c, h, v] (fun ix => |u ix|) jx := by
      intro u u' hu
      rw [planeMean, planeMean, ← mean_mul]
      congr 1
      apply List.map_congr_left
      intro ix hix
      rw [hu ix (mem_collected.1 hix).1, abs_mul]
    rw [hpm (gp k hk), hpm (gt k hk), ← mul_sub, abs_mul, abs_abs]
  · rw [e6, ← overBoth_mul]
    refine congrArg (fun r => Except.ok (Tensor.scalar r)) (overBoth_eq fun k hk ix hix => ?_)
    rw [gp k hk ix hix, gt k hk ix hix, ← mul_sub, abs_mul]
    ring

/-! ## reversed and transposed images -/

theorem overBoth_perm {S S' : List Nat} {u u' : Nat → List Nat → α} (h2 : ((indices S).map (u 2)).Perm ((indices S').map (u' 2)))
    (h3 : ((indices S).map (u 3)).Perm ((indices S').map (u' 3))) : overBoth S u = overBoth S' u' := by
  rw [overBoth, overBoth, Spec.mean, Spec.mean, Spec.mean, Spec.mean, h2.sum_eq, h3.sum_eq, h2.length_eq, h3.length_eq]

theorem reflect_even : EvenHanded (reflectArgs : PadArgs α) := ⟨rfl, rfl, rfl⟩

/-- edges of a reversed image -/
theorem edges_flip {w : List α} {s : α} {d : Nat} (hw : Parity s w) (hgs : SmoothsEvenly g 1) (hg : g.isMany = false) (hx : x.shape = [n, c, h, v])
    (hh : 0 < h) (hv : 0 < v) {k : Nat} (hk : k ∈ [2, 3]) {ix : List Nat} (hix : InB [n, c, h, v] ix) :
    (edges w g (flipped d x) k).get ix =
      (if k = d then s else 1) * (edges w g x k).get (ix.set d ([n, c, h, v].getD d 0 - 1 - ix.getD d 0)) := by
  have hsh := edges_shape (w := w) hg hx hh hv hk
  rw [edges] at hsh
  have e := edgeResponse_flip (d := d) (reflect_setup hg hx hh hv) hk reflect_even hw (by simpa using hgs) (reflect_follows _)
  have e' : (flipped d (edgeResponse w g reflectArgs x [2, 3] k)).get ix =
      (edgeResponse w g reflectArgs x [2, 3] k).get (ix.set d ([n, c, h, v].getD d 0 - 1 - ix.getD d 0)) := by
    rw [flipped_get (by rw [hsh]; exact hix), hsh]
  rw [edges, edges, e]
  split_ifs with hd
  · rw [get_map _ _ (by rw [flipped_shape, hsh]; exact hix), e']
  · rw [e', one_mul]

theorem indices_flip (S : List Nat) (d : Nat) : ((indices S).map fun ix => ix.set d (S.getD d 0 - 1 - ix.getD d 0)).Perm (indices S) := by
  by_cases hd : d < S.length
  · have := collected_flip (s := S) (ds := List.range S.length) (d := d) (List.mem_range.2 hd) []
    rwa [collected_all] at this
  · have : (indices S).map (fun ix => ix.set d (S.getD d 0 - 1 - ix.getD d 0)) = (indices S).map id := by
      apply List.map_congr_left
      intro ix hix
      exact List.set_eq_of_length_le (by rw [(mem_indices.1 hix).length_eq]; omega)
    rw [this, List.map_id]

/-- **C114**: reversing an axis of both images does not change the plain loss and, for the rows and columns, `WeightedSum`, if the edge kernel is odd
or even; for an even kernel `WeightedMul` stays too.  The smoothing kernel has to be symmetric. -/
theorem C114_mirrored (hb : EdgeBuilt f w g m) (hps : HoldsBoth ps reflectArgs) (hi : EdgeImages g n c h v p t) {s : α} (hs : |s| = 1)
    (hw : Parity s (usedKernel w)) (hgs : SmoothsEvenly g 1) (d : Nat) (junk junk' : List Nat → α) :
    (EdgeLoss.forward f ps junk' (flipped d p) (flipped d t)).2 = (EdgeLoss.forward f ps junk p t).2 ∧
    (d ∈ [2, 3] → (EdgeLoss.weightedSum f ps junk' (flipped d p) (flipped d t)).2 = (EdgeLoss.weightedSum f ps junk p t).2) ∧
    (s = 1 → (EdgeLoss.weightedMul f ps junk' (flipped d p) (flipped d t)).2 = (EdgeLoss.weightedMul f ps junk p t).2) := by
  have hi' : EdgeImages g n c h v (flipped d p) (flipped d t) :=
    ⟨by rw [flipped_shape, hi.pred_shape], by rw [flipped_shape, hi.true_shape], hi.height, hi.width, hi.single⟩
  have ep : ∀ k ∈ [2, 3], ∀ ix, InB [n, c, h, v] ix → _ := fun k hk ix hix =>
    edges_flip (d := d) hw hgs hi.single hi.pred_shape hi.height hi.width (k := k) hk (ix := ix) hix
  have et : ∀ k ∈ [2, 3], ∀ ix, InB [n, c, h, v] ix → _ := fun k hk ix hix =>
    edges_flip (d := d) hw hgs hi.single hi.true_shape hi.height hi.width (k := k) hk (ix := ix) hix
  have hsk : ∀ k, |if k = d then s else 1| = 1 := by
    intro k
    split_ifs
    · exact hs
    · exact abs_one
  have hmap : ∀ (F : α → α → α) (_ : ∀ k q r, F ((if k = d then s else 1) * q) ((if k = d then s else 1) * r) = F q r), ∀ k ∈ [2, 3],
      ((indices [n, c, h, v]).map fun ix => F ((edges (usedKernel w) g (flipped d p) k).get ix) ((edges (usedKernel w) g (flipped d t) k).get ix)).Perm
      ((indices [n, c, h, v]).map fun ix => F ((edges (usedKernel w) g p k).get ix) ((edges (usedKernel w) g t k).get ix)) := by
    intro F hF k hk
    have := (indices_flip [n, c, h, v] d).map fun ix => F ((edges (usedKernel w) g p k).get ix) ((edges (usedKernel w) g t k).get ix)
    refine List.Perm.trans (List.Perm.of_eq ?_) this
    rw [List.map_map]
    apply List.map_congr_left
    intro ix hix
    rw [ep k hk ix (mem_indices.1 hix), et k hk ix (mem_indices.1 hix), hF]
    rfl
  refine ⟨?_, ?_, ?_⟩
  · obtain ⟨_, e1, _⟩ := C85_edge_loss hb hps hi junk
    obtain ⟨_, e2, _⟩ := C85_edge_loss hb hps hi' junk'
    rw [e1, e2]
    have := hmap (fun a b => |a - b|) fun k q r => by rw [← mul_sub, abs_mul, hsk, one_mul]
    exact congrArg (fun r => Except.ok (Tensor.scalar r)) (overBoth_perm (this 2 (by simp)) (this 3 (by simp)))
  · intro hd
    obtain ⟨_, e1, _⟩ := C85_weighted_sum hb hps hi junk
    obtain ⟨_, e2, _⟩ := C85_weighted_sum hb hps hi' junk'
    rw [e1, e2]
    refine congrArg (fun r => Except.ok (Tensor.scalar r)) (overBoth_eq fun k hk jx _ => ?_)
    have hpm : ∀ {u u' : List Nat → α}, (∀ ix, InB [n, c, h, v] ix → u' ix = (if k = d then s else 1) * u (ix.set d ([n, c, h, v].getD d 0 - 1 - ix.getD d 0))) →
        planeMean [n, c, h, v] (fun ix => |u' ix|) jx = planeMean [n, c, h, v] (fun ix => |u ix|) jx := by
      intro u u' hu
      have := (collected_flip (s := [n, c, h, v]) (ds := [2, 3]) hd jx).map fun ix => |u ix|
      rw [planeMean, planeMean, Spec.mean, Spec.mean, ← this.sum_eq, List.map_map, List.length_map, List.length_map]
      congr 2
      apply List.map_congr_left
      intro ix hix
      rw [hu ix (mem_collected.1 hix).1, abs_mul, hsk, one_mul]
      rfl
    rw [hpm (ep k hk), hpm (et k hk)]
  · rintro rfl
    obtain ⟨_, e1, _⟩ := C85_weighted_mul hb hps hi junk
    obtain ⟨_, e2, _⟩ := C85_weighted_mul hb hps hi' junk'
    rw [e1, e2]
    have := hmap (fun a b => |b - a| * b) fun k q r => by rw [ite_self, one_mul, one_mul]
    exact congrArg (fun r => Except.ok (Tensor.scalar r)) (overBoth_perm (this 2 (by simp)) (this 3 (by simp)))

/-- edges of a transposed image -/
theorem edges_transposed {w : List α} (hg : g.isMany = false) (hx : x.shape = [n, c, h, v]) (hh : 0 < h) (hv : 0 < v) {k : Nat} (hk : k ∈ [2, 3]) :
    edges w g (transposed 2 3 x) (5 - k) = transposed 2 3 (edges w g x k) := by
  have hn : x.ndim = 4 := by rw [ndim, hx]; rfl
  have e := edgeResponse_transposed (w := w) (reflect_setup hg hx hh hv) (a := 2) (b := 3) (by omega) (by omega) hk
  rw [edges, edges, ← e]
  simp only [List.mem_cons, List.not_mem_nil, or_false] at hk
  rcases hk with rfl | rfl <;> rfl

/-- **C114**: exchanging rows and columns of both images changes neither the plain loss nor `WeightedSum` nor `WeightedMul`, for every kernel. -/
theorem C114_transposed (hb : EdgeBuilt f w g m) (hps : HoldsBoth ps reflectArgs) (hi : EdgeImages g n c h v p t) (junk junk' : List Nat → α) :
    (EdgeLoss.forward f ps junk' (transposed 2 3 p) (transposed 2 3 t)).2 = (EdgeLoss.forward f ps junk p t).2 ∧
    (EdgeLoss.weightedSum f ps junk' (transposed 2 3 p) (transposed 2 3 t)).2 = (EdgeLoss.weightedSum f ps junk p t).2 ∧
    (EdgeLoss.weightedMul f ps junk' (transposed 2 3 p) (transposed 2 3 t)).2 = (EdgeLoss.weightedMul f ps junk p t).2 := by
  have hi' : EdgeImages g n c v h (transposed 2 3 p) (transposed 2 3 t) :=
    ⟨by rw [transposed_shape, hi.pred_shape]; rfl, by rw [transposed_shape, hi.true_shape]; rfl, hi.width, hi.height, hi.single⟩
  have hS : swapAt 2 3 [n, c, h, v] = [n, c, v, h] := rfl
  have hget : ∀ {x : Tensor α}, x.shape = [n, c, h, v] → ∀ k ∈ [2, 3], ∀ ix, InB [n, c, v, h] ix →
      (edges (usedKernel w) g (transposed 2 3 x) (5 - k)).get ix = (edges (usedKernel w) g x k).get (swapAt 2 3 ix) := by
    intro x hx k hk ix hix
    rw [edges_transposed hi.single hx hi.height hi.width hk]
    exact transposed_get (by rw [edges_shape hi.single hx hi.height hi.width hk]; exact hix)
  have hcol : ∀ (ds jx : List Nat), 2 ∈ ds → 3 ∈ ds → ((collected [n, c, v, h] ds jx).map (swapAt 2 3)).Perm (collected [n, c, h, v] ds jx) :=
    fun ds jx h2 h3 => collected_transposed (s := [n, c, h, v]) (by simp) (by simp) h2 h3
  have hind : ((indices [n, c, v, h]).map (swapAt 2 3)).Perm (indices [n, c, h, v]) := by
    have := hcol (List.range 4) [] (by simp) (by simp)
    rwa [show List.range 4 = List.range ([n, c, v, h] : List Nat).length from rfl, collected_all,
      show List.range ([n, c, v, h] : List Nat).length = List.range ([n, c, h, v] : List Nat).length from rfl, collected_all] at this
  have hmap : ∀ (F : α → α → α), ∀ k ∈ [2, 3],
      ((indices [n, c, v, h]).map fun ix => F ((edges (usedKernel w) g (transposed 2 3 p) (5 - k)).get ix) ((edges (usedKernel w) g (transposed 2 3 t) (5 - k)).get ix)).Perm
      ((indices [n, c, h, v]).map fun ix => F ((edges (usedKernel w) g p k).get ix) ((edges (usedKernel w) g t k).get ix)) := by
    intro F k hk
    refine List.Perm.trans (List.Perm.of_eq ?_) (hind.map fun ix => F ((edges (usedKernel w) g p k).get ix) ((edges (usedKernel w) g t k).get ix))
    rw [List.map_map]
    apply List.map_congr_left
    intro ix hix
    rw [hget hi.pred_shape k hk ix (mem_indices.1 hix), hget hi.true_shape k hk ix (mem_indices.1 hix)]
    rfl
  have hcross : ∀ (F : α → α → α), overBoth [n, c, v, h] (fun k ix => F ((edges (usedKernel w) g (transposed 2 3 p) k).get ix) ((edges (usedKernel w) g (transposed 2 3 t) k).get ix)) =
      overBoth [n, c, h, v] fun k ix => F ((edges (usedKernel w) g p k).get ix) ((edges (usedKernel w) g t k).get ix) := by
    intro F
    have h2 := hmap F 2 (by simp)
    have h3 := hmap F 3 (by simp)
    rw [overBoth, overBoth, Spec.mean, Spec.mean, Spec.mean, Spec.mean, ← h2.sum_eq, ← h3.sum_eq, ← h2.length_eq, ← h3.length_eq]
    rw [add_comm]
  refine ⟨?_, ?_, ?_⟩
  · obtain ⟨_, e1, _⟩ := C85_edge_loss hb hps hi junk
    obtain ⟨_, e2, _⟩ := C85_edge_loss hb hps hi' junk'
    rw [e1, e2]
    exact congrArg (fun r => Except.ok (Tensor.scalar r)) (hcross fun a b => |a - b|)
  · obtain ⟨_, e1, _⟩ := C85_weighted_sum hb hps hi junk
    obtain ⟨_, e2, _⟩ := C85_weighted_sum hb hps hi' junk'
    rw [e1, e2]
    refine congrArg (fun r => Except.ok (Tensor.scalar r)) ?_
    have hpm : ∀ {x : Tensor α}, x.shape = [n, c, h, v] → ∀ k ∈ [2, 3], ∀ jx,
        planeMean [n, c, v, h] (fun ix => |(edges (usedKernel w) g (transposed 2 3 x) (5 - k)).get ix|) jx =
          planeMean [n, c, h, v] (fun ix => |(edges (usedKernel w) g x k).get ix|) jx := by
      intro x hx k hk jx
      have := (hcol [2, 3] jx (by simp) (by simp)).map fun ix => |(edges (usedKernel w) g x k).get ix|
      rw [planeMean, planeMean, Spec.mean, Spec.mean, ← this.sum_eq, ← this.length_eq, List.map_map, List.length_map, List.length_map]
      congr 2
      apply List.map_congr_left
      intro ix hix
      rw [hget hx k hk ix (mem_collected.1 hix).1]
      rfl
    rw [overBoth, overBoth, add_comm]
    congr 2
    · congr 1
      apply List.map_congr_left
      intro jx _
      have h1 := hpm hi.true_shape 2 (by simp) jx
      have h2 := hpm hi.pred_shape 2 (by simp) jx
      rw [← h1, ← h2]
    · congr 1
      apply List.map_congr_left
      intro jx _
      have h1 := hpm hi.true_shape 3 (by simp) jx
      have h2 := hpm hi.pred_shape 3 (by simp) jx
      rw [← h1, ← h2]
  · obtain ⟨_, e1, _⟩ := C85_weighted_mul hb hps hi junk
    obtain ⟨_, e2, _⟩ := C85_weighted_mul hb hps hi' junk'
    rw [e1, e2]
    exact congrArg (fun r => Except.ok (Tensor.scalar r)) (hcross fun a b => |b - a| * b)

/-- mean over all positions of the true edges along axis `k`, weighted with the absolute differences -/
def Spec.weightedMean (S : List Nat) (w : List α) (g : Given (List α)) (p t : Tensor α) (k : Nat) : α :=
  mean ((indices S).map fun ix => |(edges w g t k).get ix - (edges w g p k).get ix| * (edges w g t k).get ix)

/-- **C114**: `WeightedMul` is the mean of one number for each direction; reversing axis `d` of both images multiplies the one of direction `d` by the
parity of the edge kernel.  So for odd kernels the loss of reversed images is another one. -/
theorem C114_mirrored_mul (hb : EdgeBuilt f w g m) (hps : HoldsBoth ps reflectArgs) (hi : EdgeImages g n c h v p t) {s : α} (hs : |s| = 1)
    (hw : Parity s (usedKernel w)) (hgs : SmoothsEvenly g 1) (d : Nat) (junk junk' : List Nat → α) :
    (EdgeLoss.weightedMul f ps junk p t).2 =
      .ok (.scalar ((weightedMean [n, c, h, v] (usedKernel w) g p t 2 + weightedMean [n, c, h, v] (usedKernel w) g p t 3) / 2)) ∧
    (EdgeLoss.weightedMul f ps junk' (flipped d p) (flipped d t)).2 =
      .ok (.scalar (((if 2 = d then s else 1) * weightedMean [n, c, h, v] (usedKernel w) g p t 2 +
        (if 3 = d then s else 1) * weightedMean [n, c, h, v] (usedKernel w) g p t 3) / 2)) := by
  have hi' : EdgeImages g n c h v (flipped d p) (flipped d t) :=
    ⟨by rw [flipped_shape, hi.pred_shape], by rw [flipped_shape, hi.true_shape], hi.height, hi.width, hi.single⟩
  obtain ⟨_, e1, _⟩ := C85_weighted_mul hb hps hi junk
  obtain ⟨_, e2, _⟩ := C85_weighted_mul hb hps hi' junk'
  rw [e1, e2]
  refine ⟨rfl, congrArg (fun r => Except.ok (Tensor.scalar r)) ?_⟩
  have hsk : ∀ k, |if k = d then s else 1| = 1 := by
    intro k
    split_ifs
    · exact hs
    · exact abs_one
  have key : ∀ k ∈ [2, 3], Spec.mean ((indices [n, c, h, v]).map fun ix => |(edges (usedKernel w) g (flipped d t) k).get ix -
      (edges (usedKernel w) g (flipped d p) k).get ix| * (edges (usedKernel w) g (flipped d t) k).get ix) =
      (if k = d then s else 1) * weightedMean [n, c, h, v] (usedKernel w) g p t k := by
    intro k hk
    have hper := (indices_flip [n, c, h, v] d).map fun ix => (if k = d then s else 1) *
      (|(edges (usedKernel w) g t k).get ix - (edges (usedKernel w) g p k).get ix| * (edges (usedKernel w) g t k).get ix)
    rw [weightedMean, ← mean_mul, Spec.mean, Spec.mean, ← hper.sum_eq, List.length_map, List.length_map, List.map_map]
    congr 2
    apply List.map_congr_left
    intro ix hix
    rw [edges_flip (d := d) hw hgs hi.single hi.pred_shape hi.height hi.width hk (mem_indices.1 hix),
      edges_flip (d := d) hw hgs hi.single hi.true_shape hi.height hi.width hk (mem_indices.1 hix), ← mul_sub, abs_mul, hsk, one_mul]
    simp only [Function.comp]
    ring
  rw [overBoth, key 2 (by simp), key 3 (by simp)]

end

/-! ## `WeightedDiv` and the constructor -/

section
variable {f : EdgeFilter ℝ} {w : List ℝ} {g : Given (List ℝ)} {m n c h v : Nat} {ps : EdgePadders ℝ} {p t : Tensor ℝ}

/-- **C114**: for an edge kernel of sum zero, `WeightedDiv` is kept by `a * _ + e` with positive `a`, and changes its sign if `a` is negative. -/
theorem C114_grey_div (hb : EdgeBuilt f w g m) (hps : HoldsBoth ps reflectArgs) (hi : EdgeImages g n c h v p t) {a e e' : ℝ}
    (hw : usedKernel w ≠ [] ∧ (usedKernel w).sum = 0 ∨ e = 0 ∧ e' = 0)
    (hne : ∀ a ∈ [2, 3], ∀ ix, InB [n, c, h, v] ix → (edges (usedKernel w) g t a).get ix ≠ 0) (ha : a ≠ 0) (junk junk' : List Nat → ℝ) :
    ∃ l : ℝ, (EdgeLoss.weightedDiv f ps junk p t).2 = .ok (.real l) ∧
      (EdgeLoss.weightedDiv f ps junk' (p.map fun r => a * r + e) (t.map fun r => a * r + e')).2 = .ok (.real (if 0 < a then l else -l)) := by
  have hi' : EdgeImages g n c h v (p.map fun r => a * r + e) (t.map fun r => a * r + e') :=
    ⟨hi.pred_shape, hi.true_shape, hi.height, hi.width, hi.single⟩
  have gp : ∀ k ∈ [2, 3], ∀ ix, InB [n, c, h, v] ix → (edges (usedKernel w) g (p.map fun r => a * r + e) k).get ix = a * (edges (usedKernel w) g p k).get ix :=
    fun k hk ix hix => edges_grey (hw.imp_right And.left) hi.single hi.pred_shape hi.height hi.width hk hix
  have gt : ∀ k ∈ [2, 3], ∀ ix, InB [n, c, h, v] ix → (edges (usedKernel w) g (t.map fun r => a * r + e') k).get ix = a * (edges (usedKernel w) g t k).get ix :=
    fun k hk ix hix => edges_grey (hw.imp_right And.right) hi.single hi.true_shape hi.height hi.width hk hix
  obtain ⟨_, e1, _⟩ := C85_weighted_div hb hps hi hne junk
  obtain ⟨_, e2, _⟩ := C85_weighted_div hb hps hi' (by
    intro k hk ix hix
    rw [gt k hk ix hix]
    exact mul_ne_zero ha (hne k hk ix hix)) junk'
  refine ⟨_, by rw [e1], ?_⟩
  rw [e2]
  have hs : |a| / a = if 0 < a then 1 else -1 := by
    split_ifs with hp
    · rw [abs_of_pos hp, div_self ha]
    · rw [abs_of_neg (lt_of_le_of_ne (not_lt.1 hp) ha), neg_div, div_self ha]
  have : (overBoth [n, c, h, v] fun k ix => |(edges (usedKernel w) g (t.map fun r => a * r + e') k).get ix -
      (edges (usedKernel w) g (p.map fun r => a * r + e) k).get ix| / (edges (usedKernel w) g (t.map fun r => a * r + e') k).get ix) =
      (if 0 < a then 1 else -1) * overBoth [n, c, h, v] fun k ix => |(edges (usedKernel w) g t k).get ix - (edges (usedKernel w) g p k).get ix| /
        (edges (usedKernel w) g t k).get ix := by
    rw [← overBoth_mul]
    refine overBoth_eq fun k hk ix hix => ?_
    rw [gp k hk ix hix, gt k hk ix hix, ← mul_sub, abs_mul, mul_div_mul_comm, hs]
  rw [this]
  split_ifs
  · rw [one_mul]
  · rw [neg_one_mul]

theorem parity_sum {s : ℝ} {w : List ℝ} (h : Parity s w) (hs : s ≠ 1) : w.sum = 0 := by
  have := congrArg List.sum h.2
  rw [List.sum_reverse, List.sum_map_mul_left, List.map_id'] at this
  have : (1 - s) * w.sum = 0 := by linarith
  rcases mul_eq_zero.1 this with h | h
  · exact absurd (by linarith) hs
  · exact h

/-- **C114** for `GaussianEdgeLoss(kernel_size, sigma, order)` with an odd kernel size: reversing an axis of both images leaves the loss and
`WeightedSum` as they are; for an odd order other grey values `a * _ + e` and `a * _ + e'` multiply both by `|a|`; and no two images that differ by at
most `δ` have a larger loss than `δ` times the sum of the absolute weights of the edge kernel. -/
theorem C114_gaussian {ks : Nat} (hk : ks % 2 = 1) {sigma : ℝ} (hs : sigma ≠ 0) (order : Nat) :
    ∃ f ps, EdgeLoss.init (.leaf ks) (.leaf sigma) order = .ok (f, ps) ∧ ∀ {n c h v : Nat} {p t : Tensor ℝ}, p.shape = [n, c, h, v] →
      t.shape = [n, c, h, v] → 0 < h → 0 < v → ∀ junk junk' : List Nat → ℝ,
      (∀ d ∈ [2, 3], (EdgeLoss.forward f ps junk' (flipped d p) (flipped d t)).2 = (EdgeLoss.forward f ps junk p t).2 ∧
        (EdgeLoss.weightedSum f ps junk' (flipped d p) (flipped d t)).2 = (EdgeLoss.weightedSum f ps junk p t).2) ∧
      (order % 2 = 1 → ∀ a e e', ∃ l1 l2 : ℝ, (EdgeLoss.forward f ps junk p t).2 = .ok (.scalar l1) ∧
        (EdgeLoss.weightedSum f ps junk p t).2 = .ok (.scalar l2) ∧
        (EdgeLoss.forward f ps junk' (p.map fun r => a * r + e) (t.map fun r => a * r + e')).2 = .ok (.scalar (|a| * l1)) ∧
        (EdgeLoss.weightedSum f ps junk' (p.map fun r => a * r + e) (t.map fun r => a * r + e')).2 = .ok (.scalar (|a| * l2))) ∧
      (∀ δ, 0 ≤ δ → Close δ p t → ∃ l : ℝ, (EdgeLoss.forward f ps junk p t).2 = .ok (.scalar l) ∧
        l ≤ δ * absSum (usedKernel (gaussWeights ks sigma order))) := by
  obtain ⟨f, ps, e, hb, hps, hg⟩ := C85_init ks hs order
  refine ⟨f, ps, e, ?_⟩
  intro n c h v p t hp ht hh hv junk junk'
  have hi : EdgeImages (lossSmooth ks sigma) n c h v p t := ⟨hp, ht, hh, hv, hg⟩
  have hpar : Parity ((-1) ^ order) (usedKernel (gaussWeights ks sigma order)) := parity_used (gaussWeights_parity hs hk order)
  have hsm : SmoothsEvenly (lossSmooth ks sigma) 1 := by
    intro i _
    have h1 := gaussWeights_parity hs hk 0
    have h2 : (gaussWeights ks sigma 0).reverse = gaussWeights ks sigma 0 := by simpa using h1.2
    refine ⟨?_, Or.inl ?_⟩
    · show (normalised _).reverse = normalised _
      rw [normalised, ← List.map_reverse, h2]
    · show (normalised _).length % 2 = 1
      rw [normalised, List.length_map]; exact h1.1
  have hne : usedKernel (gaussWeights ks sigma order) ≠ [] := by
    intro h0
    have := hpar.1
    rw [h0] at this
    simp at this
  refine ⟨?_, ?_, ?_⟩
  · intro d hd
    have := C114_mirrored hb hps hi (s := (-1) ^ order) (by simp) hpar hsm d junk junk'
    exact ⟨this.1, this.2.1 hd⟩
  · intro ho a e e'
    have h0 : (usedKernel (gaussWeights ks sigma order)).sum = 0 := parity_sum hpar (by
      rw [Odd.neg_one_pow (Nat.odd_iff.2 ho)]; norm_num)
    obtain ⟨l1, l2, l3, h1, h2, h3, h4, h5, h6⟩ := C114_grey hb hps hi (a := a) (e := e) (e' := e') (.inl ⟨hne, h0⟩) junk junk'
    exact ⟨l1, l2, h1, h2, h4, h5⟩
  · intro δ hδ hc
    obtain ⟨l, h1, h2⟩ := C114_lipschitz hb hps hi hδ hc junk
    refine ⟨l, h1, h2.trans (le_of_eq ?_)⟩
    congr 1
    have hone : absSum ((lossSmooth ks sigma).entry [] 0) = 1 := by
      obtain ⟨w, q1, q2, q3, q4, -⟩ := C37_probability_vector hs (k := ks) (by omega)
      have q := gaussianKernel_weights hs ks 0
      rw [show ((0 : Nat) : Int) = 0 from rfl, q1] at q
      cases q
      have en : normalised (gaussWeights ks sigma 0) = gaussWeights ks sigma 0 := by simp [normalised, q4]
      show absSum (normalised (gaussWeights ks sigma 0)) = 1
      rw [en, absSum]
      split_ifs with h0
      · rfl
      rw [← q4]
      congr 1
      conv_rhs => rw [← List.map_id (gaussWeights ks sigma 0)]
      exact List.map_congr_left fun r hr => abs_of_pos (q3 r hr)
    rw [edgeGain, show List.range (2 - 1) = [0] from rfl, List.map_cons, List.map_nil, List.prod_cons, List.prod_nil, hone, mul_one, mul_one]

end

/-! ## examples -/

open SsimExample in
example {pool : SepPool ℚ} {p : Padder ℚ} (hb : Built pool (PoolArgs.filter (.one (avgKernel 3))) 1) (hp : Holds p (args .replicate)) (y : Tensor ℚ)
    (hy : Close (1 / 10) (sig [1, 2, 4, 9]) y) (j j' : List Nat → ℚ) :=
  C114_pool_close hb sameCall_sig (by intro h; cases h) hp (fun i hi => by rw [Nat.lt_one_iff.1 hi]; exact ⟨rfl, rfl, trivial⟩) (by norm_num) hy j j'

namespace EdgeCase
open Spec Tensor

section
variable {f : EdgeFilter ℚ} (hb : EdgeBuilt f [-1, 0, 1] (.one [1, 2, 1]) 1) {x y : Tensor ℚ} (hx : x.shape = [2, 6, 9]) (hy : y.shape = [2, 6, 9])
  (j j' : List Nat → ℚ)

example := C114_components_linear hb (holds mirror) (setupMirror hx rfl) (by intro h; cases h) trivial (y := y) (hy.trans hx.symm) 2 (-3) j
example (hxy : Close (1 / 10) x y) := C114_components_close hb (holds mirror) (setupMirror hx rfl) (by intro h; cases h) ⟨rfl, rfl, trivial⟩
  (by norm_num) hxy j j'

/-- Sobel enlarges differences at most eightfold -/
example : edgeGain (usedKernel [-1, 0, 1]) (.one [1, 2, 1] : Given (List ℚ)) 2 = 8 := by
  rw [usedKernel_fast (Or.inl rfl)]
  decide +kernel

end

section
variable {f : EdgeFilter ℝ} (hb : EdgeBuilt f [-1, 0, 1] (.one [1, 2, 1]) 1) {p t u : Tensor ℝ} (hp : p.shape = [1, 3, 4, 6]) (ht : t.shape = [1, 3, 4, 6])
  (hu : u.shape = [1, 3, 4, 6]) {ps : EdgePadders ℝ} (hps : HoldsBoth ps reflectArgs) (j j' : List Nat → ℝ)

example := C114_difference hb hps (images hp ht rfl) (a := 2) (b := 1) ⟨hu.trans hp.symm, hu.trans ht.symm, rfl, rfl⟩ j j'
example (hpt : Close (1 / 10) p t) := C114_lipschitz hb hps (images hp ht rfl) (by norm_num) hpt j
example := C114_sum_le hb hps (images hp ht rfl) j j'
example := C114_grey hb hps (images hp ht rfl) (a := 2) (e := 5) (e' := 7) (.inl (by rw [usedKernel_fast (Or.inl rfl)]; simp)) j j'
example := C114_grey hb hps (images hp ht rfl) (a := -2) (.inr ⟨rfl, rfl⟩) j j'
example := C114_mirrored hb hps (images hp ht rfl) (s := -1) (by simp) C111_kernels.1 (C111_kernels.2.2.2.1 false 1 [1, 2, 1] (by simp)) 3 j j'
example := C114_mirrored_mul hb hps (images hp ht rfl) (s := -1) (by simp) C111_kernels.1 (C111_kernels.2.2.2.1 false 1 [1, 2, 1] (by simp)) 3 j j'
example := C114_transposed hb hps (images hp ht rfl) j j'
example := C114_gaussian (ks := 5) rfl (sigma := 2) two_ne_zero 1

/-- a kernel with a non-zero sum has edges on a constant truth -/
example {f : EdgeFilter ℝ} (hb : EdgeBuilt f [0, 5, 0] (.one [1 / 4, 1 / 2, 1 / 4]) 1) (h5 : Constant 5 t) :=
  C114_grey_div hb hps (images hp ht rfl) (a := -2) (.inr ⟨rfl, rfl⟩) (by
    intro a ha ix hix
    rw [edges_constant hb (by simp) (by simp [Given.values]; norm_num) rfl ht (by decide) (by decide) h5 ha hix, usedKernel, if_neg, if_neg]
    · norm_num
    · simp only [TakenForSecond]; norm_num
    · simp only [TakenForFirst]; norm_num) (by norm_num) j j'

end

end EdgeCase

end TI
