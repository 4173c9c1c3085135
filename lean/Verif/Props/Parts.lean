import Verif.Proofs.Parts
import Verif.Props.Batch
import Verif.Props.EdgeChange
import Verif.Props.Border
import Verif.Props.CasesMetrics

/-!
# Metrics of parts and of batches: C116
-/

set_option linter.unusedSectionVars false

namespace TI
open Tensor Spec

/-! ## squared errors -/

section
variable {α : Type} [Field α] [LinearOrder α] [IsStrictOrderedRing α] {x y y1 y2 : Tensor α} {ax rax : Axes} {axes raxes : List Nat}

/-- **C116.** The mean squared error of everything is the mean of the errors over any axes, and the same for sums: scoring the parts first and averaging
gives the same number. -/
theorem C116_mse (h : x.shape = y.shape) (hax : axesOf x.ndim ax = some axes) (hnd : axes.Nodup) :
    ∃ e s : Tensor α, mse .mean x y ax = .ok e ∧ mse .sum x y ax = .ok s ∧
      mse .mean x y .none = .ok (.scalar (Spec.mean e.data)) ∧ mse .sum x y .none = .ok (.scalar s.data.sum) := by
  refine ⟨_, _, C55_mean h hax hnd, C55_sum h hax hnd, ?_, ?_⟩
  · rw [(C55_total h).2]
    refine congrArg (fun r => Except.ok (Tensor.scalar r)) (Eq.trans ?_ (mean_of_means x.shape (reducedAxes x.ndim axes) _).symm)
    rw [Spec.mean, List.length_map, indices_length]
  · rw [(C55_total h).1]
    exact congrArg (fun r => Except.ok (Tensor.scalar r)) (sum_all x.shape (reducedAxes x.ndim axes) _).symm

/-! ## SSIM -/

section
variable {s : SSIM α} {pool : SepPool α} {a : PoolArgs α} {m : Nat} {gp : Option (PadArgs α)} {p : Option (Padder α)} {k1 k2 : α} {sc cr : Bool}

/-- **C116.** The SSIM score over all axes is the mean of the scores over any axes, with the same map. -/
theorem C116_ssim (hi : SSIM.init pool false k1 k2 sc cr = .ok s) (hb : Built pool a m) (hm : a.kernel.isMany = true → axes.length = m)
    (h : BlurCall a.kernel gp y1 ax axes p) (hN : sc = true → windowSize a.kernel axes.length ≠ 1) (h12 : y2.shape = y1.shape)
    (hr : axesOf y1.ndim rax = some raxes) (hrn : raxes.Nodup) (hc : cr = false ∨ gp = none) (junk : List Nat → α) :
    ∃ q score full, s.forward junk y1 y2 ax rax p = (q, .ok (score, full)) ∧
      s.forward junk y1 y2 ax .none p = (q, .ok (.scalar (Spec.mean score.data), full)) := by
  refine ⟨_, _, _, C79_formula hi hb hm h hN h12 hr hrn hc junk, ?_⟩
  have hn : (ssimMap k1 k2 (covFactor sc (windowSize a.kernel axes.length)) (blurred a.kernel gp axes) y1 y2).ndim = y1.ndim := blurred_ndim h
  rw [C79_formula hi hb hm h hN h12 (show axesOf y1.ndim .none = some (List.range y1.ndim) from rfl) List.nodup_range hc junk, ← hn, meanOver_all _ raxes]

/-- **C116** with cropped borders. -/
theorem C116_ssim_cropped {gp : PadArgs α} (hi : SSIM.init pool false k1 k2 sc true = .ok s) (hb : Built pool a m)
    (hm : a.kernel.isMany = true → axes.length = m) (hc : KnownCall (PoolArgs.filter a.kernel) gp y1 ax axes) {p : Padder α} (hp : Holds p gp)
    (hper : ∀ i < axes.length, (gp.mode.entry .unknown i).isPeriodize = false ∨ y1.shape.getD (axes.getD i 0) 0 % 2 = 0)
    (hk : ∀ i < axes.length, (a.kernel.entry [] i).length ≤ y1.shape.getD (axes.getD i 0) 0)
    (hN : sc = true → windowSize a.kernel axes.length ≠ 1) (h12 : y2.shape = y1.shape)
    (hr : axesOf y1.ndim rax = some raxes) (hrn : raxes.Nodup) (junk : List Nat → α) :
    ∃ q q' score full full', s.forward junk y1 y2 ax rax (some p) = (q, .ok (score, full)) ∧
      s.forward junk y1 y2 ax .none (some p) = (q', .ok (.scalar (Spec.mean score.data), full')) := by
  obtain ⟨q, full, e, _⟩ := C60_cropped_score_partial hi hb hm hc hp hper hk hN h12 hr hrn junk
  obtain ⟨q', full', e', _⟩ := C60_cropped_score_partial hi hb hm hc hp hper hk hN h12 (show axesOf y1.ndim .none = some (List.range y1.ndim) from rfl)
    List.nodup_range junk
  refine ⟨q, q', _, full, full', e, ?_⟩
  have hn : (ssimMap k1 k2 (covFactor sc (windowSize a.kernel axes.length)) (valid a.kernel axes) y1 y2).ndim = y1.ndim := poolSeq_ndim _ _
  rw [e', ← hn, meanOver_all _ raxes]

end

/-! ## losses on edges -/

section
variable [FloorRing α] {f : EdgeFilter α} {w : List α} {g : Given (List α)} {m n c h v : Nat} {ps : EdgePadders α} {p t : Tensor α}

theorem Spec.EdgeImages.member (hi : EdgeImages g n c h v p t) (i : Nat) : EdgeImages g 1 c h v (selected 0 [i] p) (selected 0 [i] t) :=
  ⟨by rw [selected_shape, hi.pred_shape]; rfl, by rw [selected_shape, hi.true_shape]; rfl, hi.height, hi.width, hi.single⟩

theorem edges_member {x : Tensor α} (hg : g.isMany = false) (hx : x.shape = [n, c, h, v]) (hh : 0 < h) (hv : 0 < v) {i : Nat} (hi : i < n) {a : Nat}
    (ha : a ∈ [2, 3]) : edges w g (selected 0 [i] x) a = selected 0 [i] (edges w g x a) ∧ (edges w g x a).shape = [n, c, h, v] := by
  have hs := reflect_setup hg hx hh hv
  exact ⟨edgeResponse_selected hs ⟨by rw [hx]; simp, by rw [hx]; simpa using hi⟩ (by simp) ha, edges_shape hg hx hh hv ha⟩

theorem edges_member_get {x : Tensor α} (hg : g.isMany = false) (hx : x.shape = [n, c, h, v]) (hh : 0 < h) (hv : 0 < v) {i : Nat} (hi : i < n) {a : Nat}
    (ha : a ∈ [2, 3]) {ix : List Nat} (hix : InB [c, h, v] ix) : (edges w g (selected 0 [i] x) a).get (0 :: ix) = (edges w g x a).get (i :: ix) := by
  obtain ⟨e, hs⟩ := edges_member (w := w) hg hx hh hv hi ha
  rw [e, selected_get (by rw [hs]; exact ⟨Nat.zero_lt_one, hix⟩)]
  rfl

/-- **C116.** The edge losses of a batch are the means of the losses of its members, so no image influences the loss of another one. -/
theorem C116_edge_loss (hb : EdgeBuilt f w g m) (hps : HoldsBoth ps reflectArgs) (hi : EdgeImages g n c h v p t) (junk : List Nat → α)
    (junk' : Nat → List Nat → α) :
    ∃ l : Nat → α, (∀ i < n, (EdgeLoss.forward f ps (junk' i) (selected 0 [i] p) (selected 0 [i] t)).2 = .ok (.scalar (l i))) ∧
      (EdgeLoss.forward f ps junk p t).2 = .ok (.scalar (Spec.mean ((List.range n).map l))) := by
  obtain ⟨_, e, _⟩ := C85_edge_loss hb hps hi junk
  have e' := fun i => C85_edge_loss hb hps (hi.member i) (junk' i)
  refine ⟨fun i => overBoth [1, c, h, v] fun a ix => |(edges (usedKernel w) g (selected 0 [i] p) a).get ix - (edges (usedKernel w) g (selected 0 [i] t) a).get ix|,
    fun i _ => ?_, ?_⟩
  · obtain ⟨_, e', _⟩ := e' i
    rw [e']
  · rw [e]
    refine congrArg (fun r => Except.ok (Tensor.scalar r)) (overBoth_batch n [c, h, v] _ _ ?_)
    intro i hin a ha ix hix
    rw [edges_member_get hi.single hi.pred_shape hi.height hi.width hin ha hix, edges_member_get hi.single hi.true_shape hi.height hi.width hin ha hix]

/-- **C116** for `WeightedMul`. -/
theorem C116_weighted_mul (hb : EdgeBuilt f w g m) (hps : HoldsBoth ps reflectArgs) (hi : EdgeImages g n c h v p t) (junk : List Nat → α)
    (junk' : Nat → List Nat → α) :
    ∃ l : Nat → α, (∀ i < n, (EdgeLoss.weightedMul f ps (junk' i) (selected 0 [i] p) (selected 0 [i] t)).2 = .ok (.scalar (l i))) ∧
      (EdgeLoss.weightedMul f ps junk p t).2 = .ok (.scalar (Spec.mean ((List.range n).map l))) := by
  obtain ⟨_, e, _⟩ := C85_weighted_mul hb hps hi junk
  have e' := fun i => C85_weighted_mul hb hps (hi.member i) (junk' i)
  refine ⟨fun i => overBoth [1, c, h, v] fun a ix => |(edges (usedKernel w) g (selected 0 [i] t) a).get ix - (edges (usedKernel w) g (selected 0 [i] p) a).get ix| *
    (edges (usedKernel w) g (selected 0 [i] t) a).get ix, fun i _ => ?_, ?_⟩
  · obtain ⟨_, e', _⟩ := e' i
    rw [e']
  · rw [e]
    refine congrArg (fun r => Except.ok (Tensor.scalar r)) (overBoth_batch n [c, h, v] _ _ ?_)
    intro i hin a ha ix hix
    rw [edges_member_get hi.single hi.pred_shape hi.height hi.width hin ha hix, edges_member_get hi.single hi.true_shape hi.height hi.width hin ha hix]

theorem planeMean_member {E : Tensor α} (hE : E.shape = [n, c, h, v]) (u : α → α) {i : Nat} (hi : i < n) {jx : List Nat} (hj : InB [c] jx) :
    planeMean [1, c, h, v] (fun ix => u ((selected 0 [i] E).get ix)) (0 :: jx) = planeMean [n, c, h, v] (fun ix => u (E.get ix)) (i :: jx) := by
  have hs : Selects 0 [i] (E.map u).shape := ⟨by rw [show (E.map u).shape = _ from hE]; simp, by rw [show (E.map u).shape = _ from hE]; simpa using hi⟩
  have e := reduced_selected (x := E.map u) (ds := [2, 3]) Spec.mean (fun _ _ h => mean_perm h) hs (by simp)
  have hS : (E.map u).shape = [n, c, h, v] := hE
  have hS' : (selected 0 [i] (E.map u)).shape = [1, c, h, v] := by rw [selected_shape, hS]; rfl
  have hn : (E.map u).ndim = 4 := by rw [ndim, hS]; rfl
  have hk : keptPos 4 [2, 3] 0 = 0 := by decide
  rw [hS', hS, hn, hk] at e
  have e2 := congrArg (fun T => T.get (0 :: jx)) e
  have h1 : InB (onKept [2, 3] [1, c, h, v]) (0 :: jx) := ⟨Nat.zero_lt_one, hj⟩
  have h2 : InB (onKept [2, 3] [n, c, h, v]) (i :: jx) := ⟨hi, hj⟩
  rw [get_ofFn h1, selected_get (show InB ((onKept [2, 3] [n, c, h, v]).set 0 [i].length) (0 :: jx) from h1)] at e2
  change _ = (ofFn (onKept [2, 3] [n, c, h, v]) _).get (i :: jx) at e2
  rw [get_ofFn h2] at e2
  have hg : ∀ ix, InB [n, c, h, v] ix → (E.map u).get ix = u (E.get ix) := fun ix hix => get_map _ _ (by rw [hE]; exact hix)
  have hgs : ∀ ix, InB [1, c, h, v] ix → (selected 0 [i] (E.map u)).get ix = u ((selected 0 [i] E).get ix) := by
    intro ix hix
    have h3 : InB ([n, c, h, v].set 0 [i].length) ix := hix
    rw [selected_get (by rw [hS]; exact h3), selected_get (by rw [hE]; exact h3), get_map _ _]
    rw [hE]
    have := hs.inB (ix := ix) (by rw [hS]; exact h3)
    rw [hS] at this
    exact this
  rw [planeMean, planeMean]
  refine Eq.trans ?_ (e2.trans ?_)
  · congr 1
    apply List.map_congr_left
    intro ix hix
    exact (hgs ix (mem_collected.1 hix).1).symm
  · congr 1
    apply List.map_congr_left
    intro ix hix
    exact hg ix (mem_collected.1 hix).1

/-- **C116** for `WeightedSum`. -/
theorem C116_weighted_sum (hb : EdgeBuilt f w g m) (hps : HoldsBoth ps reflectArgs) (hi : EdgeImages g n c h v p t) (junk : List Nat → α)
    (junk' : Nat → List Nat → α) :
    ∃ l : Nat → α, (∀ i < n, (EdgeLoss.weightedSum f ps (junk' i) (selected 0 [i] p) (selected 0 [i] t)).2 = .ok (.scalar (l i))) ∧
      (EdgeLoss.weightedSum f ps junk p t).2 = .ok (.scalar (Spec.mean ((List.range n).map l))) := by
  obtain ⟨_, e, _⟩ := C85_weighted_sum hb hps hi junk
  have e' := fun i => C85_weighted_sum hb hps (hi.member i) (junk' i)
  refine ⟨fun i => overBoth [1, c] fun a jx => |planeMean [1, c, h, v] (fun ix => |(edges (usedKernel w) g (selected 0 [i] t) a).get ix|) jx -
    planeMean [1, c, h, v] (fun ix => |(edges (usedKernel w) g (selected 0 [i] p) a).get ix|) jx|, fun i _ => ?_, ?_⟩
  · obtain ⟨_, e', _⟩ := e' i
    rw [e']
  · rw [e]
    refine congrArg (fun r => Except.ok (Tensor.scalar r)) (overBoth_batch n [c] _ _ ?_)
    intro i hin a ha jx hjx
    obtain ⟨e1, s1⟩ := edges_member (w := usedKernel w) hi.single hi.pred_shape hi.height hi.width hin ha
    obtain ⟨e2, s2⟩ := edges_member (w := usedKernel w) hi.single hi.true_shape hi.height hi.width hin ha
    rw [e1, e2, planeMean_member s1 (fun z => |z|) hin hjx, planeMean_member s2 (fun z => |z|) hin hjx]

end
end

section
variable {f : EdgeFilter ℝ} {w : List ℝ} {g : Given (List ℝ)} {m n c h v : Nat} {ps : EdgePadders ℝ} {p t : Tensor ℝ}

/-- **C116** for `WeightedDiv`: if no true edge is zero all losses are numbers; otherwise the loss of the batch is not a number, and neither is
the loss of the member with the zero edge. -/
theorem C116_weighted_div (hb : EdgeBuilt f w g m) (hps : HoldsBoth ps reflectArgs) (hi : EdgeImages g n c h v p t) (junk : List Nat → ℝ)
    (junk' : Nat → List Nat → ℝ) :
    (∃ l : Nat → ℝ, (∀ i < n, (EdgeLoss.weightedDiv f ps (junk' i) (selected 0 [i] p) (selected 0 [i] t)).2 = .ok (.real (l i))) ∧
      (EdgeLoss.weightedDiv f ps junk p t).2 = .ok (.real (Spec.mean ((List.range n).map l)))) ∨
    ∃ i < n, (EdgeLoss.weightedDiv f ps (junk' i) (selected 0 [i] p) (selected 0 [i] t)).2 = .ok .bad ∧
      (EdgeLoss.weightedDiv f ps junk p t).2 = .ok .bad := by
  by_cases hne : ∀ a ∈ [2, 3], ∀ ix, InB [n, c, h, v] ix → (edges (usedKernel w) g t a).get ix ≠ 0
  · left
    obtain ⟨_, e, _⟩ := C85_weighted_div hb hps hi hne junk
    refine ⟨fun i => overBoth [1, c, h, v] fun a ix => |(edges (usedKernel w) g (selected 0 [i] t) a).get ix - (edges (usedKernel w) g (selected 0 [i] p) a).get ix| /
      (edges (usedKernel w) g (selected 0 [i] t) a).get ix, fun i hin => ?_, ?_⟩
    · obtain ⟨_, e', _⟩ := C85_weighted_div hb hps (hi.member i) (by
        intro a ha ix hix
        match ix, hix with
        | 0 :: ix, hix =>
          rw [edges_member_get hi.single hi.true_shape hi.height hi.width hin ha hix.2]
          exact hne a ha _ ⟨hin, hix.2⟩
        | (k + 1) :: ix, hix => exact absurd hix.1 (by omega)) (junk' i)
      rw [e']
    · rw [e]
      refine congrArg (fun r => Except.ok (Val.real r)) (overBoth_batch n [c, h, v] _ _ ?_)
      intro i hin a ha ix hix
      rw [edges_member_get hi.single hi.pred_shape hi.height hi.width hin ha hix, edges_member_get hi.single hi.true_shape hi.height hi.width hin ha hix]
  · right
    push Not at hne
    obtain ⟨a, ha, ix, hix, h0⟩ := hne
    match ix, hix, h0 with
    | i :: ix, hix, h0 =>
      refine ⟨i, hix.1, C85_weighted_div_zero hb hps (hi.member i) ha (ix := 0 :: ix) ⟨Nat.zero_lt_one, hix.2⟩ ?_ _,
        C85_weighted_div_zero hb hps hi ha hix h0 junk⟩
      rw [edges_member_get hi.single hi.true_shape hi.height hi.width hix.1 ha hix.2, h0]

end

/-! ## MS-SSIM -/

section
variable {y1 y2 : Tensor ℝ} {ax rax : Axes} {axes raxes : List Nat} {s : SSIM ℝ} {pool : SepPool ℝ} {a : PoolArgs ℝ} {m : Nat}
  {gp : Option (PadArgs ℝ)} {p : Option (Padder ℝ)} {k1 k2 : ℝ} {sc cr : Bool} {ws : List ℝ}

/-- **C116.** The MS-SSIM score over all axes is the mean of the scores over any axes. -/
theorem C116_msssim (hi : SSIM.init pool false k1 k2 sc cr = .ok s) (hb : Built pool a m) (hm : a.kernel.isMany = true → axes.length = m)
    (hw : 2 ≤ ws.length) (h : MsCall a.kernel gp cr ws.length y1 ax axes p) (hN : sc = true → windowSize a.kernel axes.length ≠ 1)
    (h12 : y2.shape = y1.shape) (hr : axesOf y1.ndim rax = some raxes) (hrn : raxes.Nodup) (up : Bool) (eps : ℝ) (junk : List Nat → ℝ) :
    ∃ q t, (⟨s, ws, up, eps⟩ : MsSsim).forward junk y1 y2 ax rax p = (q, .ok t) ∧
      (⟨s, ws, up, eps⟩ : MsSsim).forward junk y1 y2 ax .none p = (q, .ok (.scalar (Spec.mean t.data))) := by
  refine ⟨_, _, C80_formula hi hb hm hw h hN h12 hr hrn up eps junk, ?_⟩
  have hn : (msMap up eps k1 k2 (covFactor sc (windowSize a.kernel axes.length)) (scoreBlur a.kernel gp cr axes) axes ws y1 y2).ndim = y1.ndim :=
    onesAt_length _ _
  rw [C80_formula hi hb hm hw h hN h12 (show axesOf y1.ndim .none = some (List.range y1.ndim) from rfl) List.nodup_range up eps junk, ← hn,
    meanOver_all _ raxes]

end

/-! ## peak signal-to-noise ratio -/

section
variable {x y : Tensor ℝ} {ax : Axes} {axes : List Nat}

/-- **C116.** The peak signal-to-noise ratio of everything is at most the mean of the ratios over any axes, with equality only if these are all
the same; and at least the smallest of them. -/
theorem C116_psnr {maxValue eps : ℝ} (hmax : 0 < maxValue) (h : x.shape = y.shape) (hax : axesOf x.ndim ax = some axes) (hnd : axes.Nodup)
    (hsz : ∀ k < x.ndim, 0 < x.shape.getD k 0) (hpos : ∀ e, mse .mean x y ax = .ok e → ∀ jx, InB e.shape jx → 0 < e.get jx + max eps 0) :
    ∃ z whole, psnr maxValue eps .mean x y ax = .ok z ∧ psnr maxValue eps .mean x y .none = .ok (.scalar whole) ∧
      whole ≤ Spec.mean z.data ∧ (whole = Spec.mean z.data ↔ ∀ jx, InB z.shape jx → z.get jx = whole) ∧
      ∃ jx, InB z.shape jx ∧ z.get jx ≤ whole := by
  obtain ⟨e, _, he, _, ht, _⟩ := C116_mse h hax hnd
  obtain ⟨z, hz, hzs, hzg⟩ := C56_formula he hmax eps (hpos e he)
  have hes : e.shape = onKept (reducedAxes x.ndim axes) x.shape := by
    rw [C55_mean h hax hnd] at he
    cases he
    rfl
  have hpos' : ∀ jx ∈ indices e.shape, 0 < e.get jx + max eps 0 := fun jx hj => hpos e he jx (mem_indices.1 hj)
  have hne : indices e.shape ≠ [] := by
    rw [hes]
    intro h0
    have h1 : InB x.shape (x.shape.map fun _ => 0) := by
      clear h0 hpos' hpos hes hzg hzs hz ht he hax
      have : ∀ S : List Nat, (∀ k < S.length, 0 < S.getD k 0) → InB S (S.map fun _ => 0) := by
        intro S
        induction S with
        | nil => intro _; trivial
        | cons a S ih => exact fun hS => ⟨hS 0 (by simp), ih fun k hk => hS (k + 1) (by simpa using hk)⟩
      exact this _ hsz
    have h2 := mem_indices.2 (onKept_inB (ds := reducedAxes x.ndim axes) h1)
    rw [h0] at h2
    simp at h2
  have hd : ∀ T : Tensor ℝ, T.data = (indices T.shape).map T.get := data_eq_map_get
  have hmean : Spec.mean e.data + max eps 0 = Spec.mean ((indices e.shape).map fun jx => e.get jx + max eps 0) := by
    rw [hd e]
    have := mean_affine hne (max eps 0) 1 e.get
    simp only [one_mul] at this
    rw [add_comm, ← this]
    simp only [add_comm]
  have hzd : z.data = (indices e.shape).map fun jx => 10 * Real.logb 10 (maxValue ^ 2 / (e.get jx + max eps 0)) := by
    rw [hd z, hzs]
    exact List.map_congr_left fun jx hj => hzg jx (mem_indices.1 hj)
  have hmpos : 0 < Spec.mean e.data + max eps 0 := by
    rw [hmean]
    exact mean_pos hne hpos'
  obtain ⟨w, hw, hws, hwg⟩ := C56_formula ht hmax eps (by
    intro jx hj
    match jx, hj with
    | [], _ => exact hmpos)
  set μ := Spec.mean ((indices e.shape).map fun jx => e.get jx + max eps 0) with hμ
  rw [hmean] at hmpos
  have hlog : ∀ v : ℝ, 0 < v → 10 * Real.logb 10 (maxValue ^ 2 / v) = 10 / Real.log 10 * Real.log (maxValue ^ 2) + -(10 / Real.log 10) * Real.log v := by
    intro v hv
    rw [Real.logb, Real.log_div (by positivity) hv.ne']
    ring
  have hk : 0 < 10 / Real.log 10 := div_pos (by norm_num) (Real.log_pos (by norm_num))
  have hw0 : w.get [] = 10 / Real.log 10 * Real.log (maxValue ^ 2) + -(10 / Real.log 10) * Real.log μ := by
    rw [hwg [] trivial, ← hlog μ hmpos, ← hmean]
    rfl
  have hzm : Spec.mean z.data = 10 / Real.log 10 * Real.log (maxValue ^ 2) +
      -(10 / Real.log 10) * Spec.mean ((indices e.shape).map fun jx => Real.log (e.get jx + max eps 0)) := by
    rw [hzd, ← mean_affine hne]
    congr 1
    exact List.map_congr_left fun jx hj => hlog _ (hpos' jx hj)
  have hzj : ∀ jx ∈ indices e.shape, z.get jx = 10 / Real.log 10 * Real.log (maxValue ^ 2) + -(10 / Real.log 10) * Real.log (e.get jx + max eps 0) :=
    fun jx hj => by rw [hzg jx (mem_indices.1 hj), hlog _ (hpos' jx hj)]
  obtain ⟨hj1, hj2⟩ := log_mean hne hpos'
  refine ⟨z, w.get [], hz, ?_, ?_, ?_, ?_⟩
  · rw [hw]
    congr 1
    exact ext_get hws fun jx hj => by
      rw [hws] at hj
      match jx, hj with
      | [], _ => rfl
  · rw [hw0, hzm]
    nlinarith
  · rw [hw0, hzm]
    constructor
    · intro heq jx hj
      rw [hzs] at hj
      have := hj2.1 (by
        have h3 := add_left_cancel heq
        exact (mul_left_cancel₀ (neg_ne_zero.2 hk.ne') h3).symm) jx (mem_indices.2 hj)
      rw [hzj jx (mem_indices.2 hj), this]
    · intro hall
      rw [hj2.2]
      intro jx hj
      have := hall jx (by rw [hzs]; exact mem_indices.1 hj)
      rw [hzj jx hj] at this
      have h3 := mul_left_cancel₀ (neg_ne_zero.2 hk.ne') (add_left_cancel this)
      exact Real.log_injOn_pos (hpos' jx hj) hmpos h3
  · obtain ⟨jx, hj, hle⟩ := exists_ge_mean hne fun jx => e.get jx + max eps 0
    refine ⟨jx, by rw [hzs]; exact mem_indices.1 hj, ?_⟩
    rw [hzj jx hj, hw0]
    have := Real.log_le_log hmpos hle
    nlinarith

end

/-! ## examples -/

/-- errors 4/3 and 16/3 of two rows, with the mean 10/3 -/
example : mse .mean MseExample.x MseExample.y (.int 1) = .ok ⟨[2], [4 / 3, 16 / 3], rfl⟩ ∧
    mse .mean MseExample.x MseExample.y .none = .ok (.scalar (10 / 3)) ∧ Spec.mean [4 / 3, 16 / 3] = (10 / 3 : ℚ) := by decide +kernel

namespace MetricCase

section
variable {x y : Tensor ℝ} (hx : x.shape = [2, 24, 16]) (hy : y.shape = x.shape) (j : List Nat → ℝ) (up : Bool)
variable {pool : SepPool ℝ} (hb : Built pool window 2) {s s' : SSIM ℝ} (hi : SSIM.init pool false (1 / 100) (3 / 100) true false = .ok s)
  (hi' : SSIM.init pool false (1 / 100) (3 / 100) true true = .ok s')

example := C116_mse hy.symm (axes hx) (by decide)
example := C116_ssim hi hb (fun _ => rfl) (blurRing hx) (fun _ => size) hy (axes hx) (by decide) (Or.inl rfl) j
example := C116_ssim_cropped hi' hb (fun _ => rfl) (sameRing hx).knownCall (holds_padder ring 1) (fun _ _ => Or.inl rfl) (fits hx) (fun _ => size) hy (axes hx)
  (by decide) j
example := C116_msssim hi hb (fun _ => rfl) weights (msRing hx) (fun _ => size) hy (axes hx) (by decide) up (1 / 1000) j

/-- with a positive `eps` there is nothing to check -/
example := C116_psnr (maxValue := 255) (eps := 1 / 100) (by norm_num) hy.symm (axes hx) (by decide) (by rw [ndim, hx]; decide) (by
  intro e he jx hj
  have := C55_nonneg .mean (axes hx) he jx hj
  have : (0 : ℝ) < max (1 / 100) 0 := by norm_num
  linarith)

end
end MetricCase

namespace EdgeCase
open Spec Tensor

section
variable {f : EdgeFilter ℝ} (hb : EdgeBuilt f [-1, 0, 1] (.one [1, 2, 1]) 1) {p t : Tensor ℝ} (hp : p.shape = [5, 3, 4, 6]) (ht : t.shape = [5, 3, 4, 6])
  {ps : EdgePadders ℝ} (hps : HoldsBoth ps reflectArgs) (j : List Nat → ℝ) (j' : Nat → List Nat → ℝ)

example := C116_edge_loss hb hps ⟨hp, ht, by decide, by decide, rfl⟩ j j'
example := C116_weighted_mul hb hps ⟨hp, ht, by decide, by decide, rfl⟩ j j'
example := C116_weighted_sum hb hps ⟨hp, ht, by decide, by decide, rfl⟩ j j'
example := C116_weighted_div hb hps ⟨hp, ht, by decide, by decide, rfl⟩ j j'

end
end EdgeCase
end TI
