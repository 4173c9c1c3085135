import Mathlib.Algebra.BigOperators.Option
import Mathlib.Analysis.MeanInequalities
import Verif.Props.SmoothEdges

/-!
# Convexity of magnitudes and of losses on edges (C158)
-/

set_option linter.unusedSectionVars false

namespace TI
open Tensor Spec

section
variable {α : Type} [Field α] [LinearOrder α] [IsStrictOrderedRing α] [FloorRing α] {f : EdgeFilter α} {w : List α} {g : Given (List α)} {m n c h v : Nat} {ps : EdgePadders α}
  {p q t u : Tensor α} {a b : α}

theorem overBoth_add {S : List Nat} {U V : Nat → List Nat → α} : overBoth S (fun k ix => U k ix + V k ix) = overBoth S U + overBoth S V := by
  simp only [overBoth, Spec.mean, List.length_map, List.sum_map_add]
  ring

theorem edges_mix {W : List α} (hg : g.isMany = false) (hp : p.shape = [n, c, h, v]) (hh : 0 < h) (hv : 0 < v) (hq : q.shape = [n, c, h, v]) {k : Nat} (hk : k ∈ [2, 3]) {ix : List Nat}
    (hix : InB [n, c, h, v] ix) : (edges W g (lincomb a p b q) k).get ix = a * (edges W g p k).get ix + b * (edges W g q k).get ix := by
  rw [edges_lincomb hg hp hh hv (hq.trans hp.symm) a b hk, lincomb_get (by rw [edges_shape hg hp hh hv hk]; exact hix)]

/-- **C158.** The plain loss on edges is convex in both images together: the loss of blended images is at most the blend of the losses. -/
theorem C158_loss (hb : EdgeBuilt f w g m) (hps : HoldsBoth ps reflectArgs) (h1 : EdgeImages g n c h v p t) (h2 : EdgeImages g n c h v q u) (ha : 0 ≤ a) (hb0 : 0 ≤ b) (junk : List Nat → α) :
    ∃ l l1 l2 : α, (EdgeLoss.forward f ps junk (lincomb a p b q) (lincomb a t b u)).2 = .ok (.scalar l) ∧ (EdgeLoss.forward f ps junk p t).2 = .ok (.scalar l1) ∧
      (EdgeLoss.forward f ps junk q u).2 = .ok (.scalar l2) ∧ l ≤ a * l1 + b * l2 := by
  obtain ⟨_, e1, _⟩ := C85_edge_loss hb hps h1 junk
  obtain ⟨_, e2, _⟩ := C85_edge_loss hb hps h2 junk
  obtain ⟨_, e3, _⟩ := C85_edge_loss hb hps (p := lincomb a p b q) (t := lincomb a t b u) ⟨h1.pred_shape, h1.true_shape, h1.height, h1.width, h1.single⟩ junk
  refine ⟨_, _, _, by rw [e3], by rw [e1], by rw [e2], ?_⟩
  rw [← overBoth_mul, ← overBoth_mul, ← overBoth_add]
  refine overBoth_le fun k hk ix hix => ?_
  rw [edges_mix h1.single h1.pred_shape h1.height h1.width h2.pred_shape hk hix, edges_mix h1.single h1.true_shape h1.height h1.width h2.true_shape hk hix,
    ← abs_of_nonneg ha, ← abs_of_nonneg hb0, ← abs_mul, ← abs_mul, abs_of_nonneg ha, abs_of_nonneg hb0]
  refine le_of_eq_of_le (congrArg _ ?_) (abs_add_le _ _)
  ring

theorem mix_le {a b e x y : α} (hab : a + b = 1) (ha : 0 ≤ a) (hb : 0 ≤ b) : |e - (a * x + b * y)| ≤ a * |e - x| + b * |e - y| := by
  have e1 : e - (a * x + b * y) = a * (e - x) + b * (e - y) := by linear_combination (-e) * hab
  rw [e1]
  refine (abs_add_le _ _).trans (le_of_eq ?_)
  rw [abs_mul, abs_mul, abs_of_nonneg ha, abs_of_nonneg hb]

/-- **C158** for `WeightedMul`: convex in the prediction if no true edge is negative, concave if none is positive -/
theorem C158_weighted_mul (hb : EdgeBuilt f w g m) (hps : HoldsBoth ps reflectArgs) (h1 : EdgeImages g n c h v p t) (hq : q.shape = [n, c, h, v]) (hab : a + b = 1) (ha : 0 ≤ a)
    (hb0 : 0 ≤ b) (junk : List Nat → α) :
    ∃ l l1 l2 : α, (EdgeLoss.weightedMul f ps junk (lincomb a p b q) t).2 = .ok (.scalar l) ∧ (EdgeLoss.weightedMul f ps junk p t).2 = .ok (.scalar l1) ∧
      (EdgeLoss.weightedMul f ps junk q t).2 = .ok (.scalar l2) ∧
      ((∀ k ∈ [2, 3], ∀ ix, InB [n, c, h, v] ix → 0 ≤ (edges (usedKernel w) g t k).get ix) → l ≤ a * l1 + b * l2) ∧
      ((∀ k ∈ [2, 3], ∀ ix, InB [n, c, h, v] ix → (edges (usedKernel w) g t k).get ix ≤ 0) → a * l1 + b * l2 ≤ l) := by
  obtain ⟨_, e1, _⟩ := C85_weighted_mul hb hps h1 junk
  obtain ⟨_, e2, _⟩ := C85_weighted_mul hb hps (p := q) (t := t) ⟨hq, h1.true_shape, h1.height, h1.width, h1.single⟩ junk
  obtain ⟨_, e3, _⟩ := C85_weighted_mul hb hps (p := lincomb a p b q) (t := t) ⟨h1.pred_shape, h1.true_shape, h1.height, h1.width, h1.single⟩ junk
  refine ⟨_, _, _, by rw [e3], by rw [e1], by rw [e2], fun h0 => ?_, fun h0 => ?_⟩
  all_goals
    rw [← overBoth_mul, ← overBoth_mul, ← overBoth_add]
    refine overBoth_le fun k hk ix hix => ?_
    rw [edges_mix h1.single h1.pred_shape h1.height h1.width hq hk hix]
    have hm := mix_le (e := (edges (usedKernel w) g t k).get ix) (x := (edges (usedKernel w) g p k).get ix) (y := (edges (usedKernel w) g q k).get ix) hab ha hb0
  · have := mul_le_mul_of_nonneg_right hm (h0 k hk ix hix)
    linarith
  · have := mul_le_mul_of_nonpos_right hm (h0 k hk ix hix)
    linarith

/-- **C158**: `WeightedSum` is not convex: of an image `d` with edges and its negative neither has a loss against `d`, but their mixture does. -/
theorem C158_weighted_sum_differ {d : Tensor α} (hb : EdgeBuilt f w g m) (hps : HoldsBoth ps reflectArgs) (hi : EdgeImages g n c h v d d)
    (hne : ∃ k ∈ [2, 3], ∃ ix, InB [n, c, h, v] ix ∧ (edges (usedKernel w) g d k).get ix ≠ 0) (junk : List Nat → α) :
    (EdgeLoss.weightedSum f ps junk d d).2 = .ok (.scalar 0) ∧ (EdgeLoss.weightedSum f ps junk (lincomb (-1) d 0 d) d).2 = .ok (.scalar 0) ∧
      ∃ l, 0 < l ∧ (EdgeLoss.weightedSum f ps junk (lincomb (1 / 2) d (1 / 2) (lincomb (-1) d 0 d)) d).2 = .ok (.scalar l) := by
  have hs := hi.pred_shape
  have hz : ∀ S : List Nat, overBoth S (fun _ _ => (0 : α)) = 0 := by intro S; simp [overBoth, Spec.mean]
  have hneg : ∀ k ∈ [2, 3], ∀ ix, InB [n, c, h, v] ix → (edges (usedKernel w) g (lincomb (-1) d 0 d) k).get ix = -(edges (usedKernel w) g d k).get ix := by
    intro k hk ix hix
    rw [edges_mix hi.single hs hi.height hi.width hs hk hix]
    ring
  have hmid : ∀ k ∈ [2, 3], ∀ ix, InB [n, c, h, v] ix → (edges (usedKernel w) g (lincomb (1 / 2) d (1 / 2) (lincomb (-1) d 0 d)) k).get ix = 0 := by
    intro k hk ix hix
    rw [edges_mix hi.single hs hi.height hi.width (show (lincomb (-1) d 0 d).shape = _ from hs) hk hix, hneg k hk ix hix]
    ring
  have hplane : ∀ {U V : List Nat → α} (jx : List Nat), (∀ ix, InB [n, c, h, v] ix → U ix = V ix) → planeMean [n, c, h, v] U jx = planeMean [n, c, h, v] V jx := by
    intro U V jx hUV
    rw [planeMean, planeMean, List.map_congr_left fun ix hix => hUV ix (mem_collected.1 hix).1]
  have him : ∀ x : Tensor α, x.shape = d.shape → EdgeImages g n c h v x d := fun x hx => ⟨hx.trans hs, hs, hi.height, hi.width, hi.single⟩
  obtain ⟨_, e1, _⟩ := C85_weighted_sum hb hps hi junk
  obtain ⟨_, e2, _⟩ := C85_weighted_sum hb hps (him (lincomb (-1) d 0 d) rfl) junk
  obtain ⟨_, e3, _⟩ := C85_weighted_sum hb hps (him (lincomb (1 / 2) d (1 / 2) (lincomb (-1) d 0 d)) rfl) junk
  obtain ⟨_, e4, _⟩ := C85_edge_loss hb hps (him (lincomb (1 / 2) d (1 / 2) (lincomb (-1) d 0 d)) rfl) junk
  refine ⟨?_, ?_, ?_⟩
  · rw [e1]
    refine congrArg (fun r => Except.ok (Tensor.scalar r)) ((overBoth_congr fun k jx => ?_).trans (hz _))
    rw [sub_self, abs_zero]
  · rw [e2]
    refine congrArg (fun r => Except.ok (Tensor.scalar r)) ((overBoth_eq fun k hk jx _ => ?_).trans (hz _))
    rw [hplane (U := fun ix => |(edges (usedKernel w) g (lincomb (-1) d 0 d) k).get ix|) (V := fun ix => |(edges (usedKernel w) g d k).get ix|) jx fun ix hix => by rw [hneg k hk ix hix, abs_neg],
      sub_self, abs_zero]
  · refine ⟨_, ?_, by rw [e3]⟩
    have hnn : ∀ k jx, 0 ≤ planeMean [n, c, h, v] (fun ix => |(edges (usedKernel w) g d k).get ix|) jx := by
      intro k jx
      apply mean_nonneg
      intro r hr
      obtain ⟨ix, _, rfl⟩ := List.mem_map.1 hr
      exact abs_nonneg _
    have hzero : ∀ jx, planeMean [n, c, h, v] (fun _ => (0 : α)) jx = 0 := by intro jx; simp [planeMean, Spec.mean]
    have e5 : overBoth [n, c] (fun k jx => |planeMean [n, c, h, v] (fun ix => |(edges (usedKernel w) g d k).get ix|) jx -
        planeMean [n, c, h, v] (fun ix => |(edges (usedKernel w) g (lincomb (1 / 2) d (1 / 2) (lincomb (-1) d 0 d)) k).get ix|) jx|) =
        overBoth [n, c, h, v] fun k ix => |(edges (usedKernel w) g (lincomb (1 / 2) d (1 / 2) (lincomb (-1) d 0 d)) k).get ix - (edges (usedKernel w) g d k).get ix| := by
      have e6 : overBoth [n, c, h, v] (fun k ix => |(edges (usedKernel w) g (lincomb (1 / 2) d (1 / 2) (lincomb (-1) d 0 d)) k).get ix - (edges (usedKernel w) g d k).get ix|) =
          overBoth [n, c, h, v] fun k ix => |(edges (usedKernel w) g d k).get ix| := overBoth_eq fun k hk ix hix => by rw [hmid k hk ix hix, zero_sub, abs_neg]
      have e7 : overBoth [n, c] (fun k => planeMean [n, c, h, v] fun ix => |(edges (usedKernel w) g d k).get ix|) =
          overBoth [n, c, h, v] fun k ix => |(edges (usedKernel w) g d k).get ix| := by rw [overBoth, overBoth, mean_planes, mean_planes]
      rw [e6, ← e7]
      refine overBoth_eq fun k hk jx _ => ?_
      rw [hplane (U := fun ix => |(edges (usedKernel w) g (lincomb (1 / 2) d (1 / 2) (lincomb (-1) d 0 d)) k).get ix|) (V := fun _ => 0) jx fun ix hix => by rw [hmid k hk ix hix, abs_zero], hzero,
        sub_zero, abs_of_nonneg (hnn k jx)]
    rw [e5]
    refine lt_of_le_of_ne (overBoth_nonneg fun _ _ => abs_nonneg _) fun h0 => ?_
    rw [← h0] at e4
    have := (C85_zero_iff hb hps (him (lincomb (1 / 2) d (1 / 2) (lincomb (-1) d 0 d)) rfl) junk).1 (by rw [e4])
    obtain ⟨k, hk, ix, hix, hd⟩ := hne
    exact hd ((this k hk ix hix).symm.trans (hmid k hk ix hix))

end

section
variable {f : EdgeFilter ℝ} {w : List ℝ} {g : Given (List ℝ)} {m n c h v : Nat} {ps : EdgePadders ℝ} {x y p q t : Tensor ℝ} {a b : ℝ} {gp : PadArgs ℝ} {ax : Axes} {axes : List Nat}

/-- **C158** for `WeightedDiv`: convex in the prediction if all true edges are positive, concave if all are negative -/
theorem C158_weighted_div (hb : EdgeBuilt f w g m) (hps : HoldsBoth ps reflectArgs) (h1 : EdgeImages g n c h v p t) (hq : q.shape = [n, c, h, v]) (hab : a + b = 1) (ha : 0 ≤ a)
    (hb0 : 0 ≤ b) (hne : ∀ k ∈ [2, 3], ∀ ix, InB [n, c, h, v] ix → (edges (usedKernel w) g t k).get ix ≠ 0) (junk : List Nat → ℝ) :
    ∃ l l1 l2 : ℝ, (EdgeLoss.weightedDiv f ps junk (lincomb a p b q) t).2 = .ok (.real l) ∧ (EdgeLoss.weightedDiv f ps junk p t).2 = .ok (.real l1) ∧
      (EdgeLoss.weightedDiv f ps junk q t).2 = .ok (.real l2) ∧
      ((∀ k ∈ [2, 3], ∀ ix, InB [n, c, h, v] ix → 0 ≤ (edges (usedKernel w) g t k).get ix) → l ≤ a * l1 + b * l2) ∧
      ((∀ k ∈ [2, 3], ∀ ix, InB [n, c, h, v] ix → (edges (usedKernel w) g t k).get ix ≤ 0) → a * l1 + b * l2 ≤ l) := by
  obtain ⟨_, e1, _⟩ := C85_weighted_div hb hps h1 hne junk
  obtain ⟨_, e2, _⟩ := C85_weighted_div hb hps (p := q) (t := t) ⟨hq, h1.true_shape, h1.height, h1.width, h1.single⟩ hne junk
  obtain ⟨_, e3, _⟩ := C85_weighted_div hb hps (p := lincomb a p b q) (t := t) ⟨h1.pred_shape, h1.true_shape, h1.height, h1.width, h1.single⟩ hne junk
  refine ⟨_, _, _, by rw [e3], by rw [e1], by rw [e2], fun h0 => ?_, fun h0 => ?_⟩
  all_goals
    rw [← overBoth_mul, ← overBoth_mul, ← overBoth_add]
    refine overBoth_le fun k hk ix hix => ?_
    rw [edges_mix h1.single h1.pred_shape h1.height h1.width hq hk hix]
    have hm := mix_le (e := (edges (usedKernel w) g t k).get ix) (x := (edges (usedKernel w) g p k).get ix) (y := (edges (usedKernel w) g q k).get ix) hab ha hb0
    rw [← mul_div_assoc, ← mul_div_assoc, ← add_div]
  · exact div_le_div_of_nonneg_right hm (h0 k hk ix hix)
  · exact div_le_div_of_nonpos_of_le (h0 k hk ix hix) hm

/-- Minkowski's inequality for the expression under `magnitude` -/
theorem root_mix_le {l : List Nat} (hl : l.Nodup) {p : Nat} (hp : p ≠ 0) (hev : p % 2 = 0) {eps a b : ℝ} (heps : 0 ≤ eps) (hab : eps = 0 ∨ a + b = 1) (ha : 0 ≤ a) (hb : 0 ≤ b)
    (C D : Nat → ℝ) : nthRoot p ((l.map fun k => (a * C k + b * D k) ^ p).sum + eps) ≤ a * nthRoot p ((l.map fun k => C k ^ p).sum + eps) + b * nthRoot p ((l.map fun k => D k ^ p).sum + eps) := by
  have hp1 : (1 : ℝ) ≤ p := by exact_mod_cast Nat.one_le_iff_ne_zero.2 hp
  have hpe : Even p := Nat.even_iff.2 hev
  set r := nthRoot p eps with hr
  have hr0 : 0 ≤ r := Real.rpow_nonneg heps _
  have hrp : r ^ p = eps := by rw [hr, nthRoot, one_div, Real.rpow_inv_natCast_pow heps hp]
  have conv : ∀ F : Nat → ℝ, ∀ s : ℝ, s ^ p = eps → (l.map fun k => F k ^ p).sum + eps = ∑ i ∈ Finset.insertNone l.toFinset, |Option.elim i s F| ^ (p : ℝ) := by
    intro F s hs
    rw [Finset.sum_insertNone]
    simp only [Option.elim, Real.rpow_natCast, hpe.pow_abs, hs]
    rw [List.sum_toFinset _ hl, add_comm]
  have scale : ∀ (F : Option Nat → ℝ) (k : ℝ), 0 ≤ k → (∑ i ∈ Finset.insertNone l.toFinset, |k * F i| ^ (p : ℝ)) ^ (1 / (p : ℝ)) =
      k * (∑ i ∈ Finset.insertNone l.toFinset, |F i| ^ (p : ℝ)) ^ (1 / (p : ℝ)) := by
    intro F k hk
    simp only [Real.rpow_natCast, abs_mul, abs_of_nonneg hk, mul_pow]
    rw [← Finset.mul_sum, Real.mul_rpow (by positivity) (Finset.sum_nonneg fun _ _ => by positivity), one_div, Real.pow_rpow_inv_natCast hk hp]
  have key := Real.Lp_add_le (Finset.insertNone l.toFinset) (fun i => a * Option.elim i r C) (fun i => b * Option.elim i r D) hp1
  rw [scale _ a ha, scale _ b hb, ← conv C r hrp, ← conv D r hrp] at key
  refine le_of_eq_of_le ?_ key
  rw [nthRoot, conv (fun k => a * C k + b * D k) (a * r + b * r) (by
    rcases hab with h0 | h1
    · have : r = 0 := by rw [hr, h0, nthRoot, Real.zero_rpow (by positivity)]
      rw [this, mul_zero, mul_zero, add_zero, zero_pow hp, h0]
    · rw [← add_mul, h1, one_mul, hrp])]
  congr 1
  refine Finset.sum_congr rfl fun i _ => ?_
  cases i <;> rfl

/-- the entries of magnitudes with even `p` -/
theorem magnitude_even (hf : EdgeBuilt f w g m) (hps : HoldsBoth ps gp) (h : EdgeSetup g gp x ax axes) (hm : g.isMany = true → axes.length - 1 = m) {eps : ℝ} {P : Nat} (hp : P ≠ 0)
    (hev : P % 2 = 0) (hact : Acts w g axes.length P) (junk : List Nat → ℝ) :
    ∃ z, (f.magnitude (nthRoot P) ps junk x ax eps P).2 = .ok z ∧ z.shape = x.shape ∧ ∀ ix, InB x.shape ix →
      z.get ix = nthRoot P ((axes.map fun k => (edgeResponse (usedKernel w) g gp x axes k).get ix ^ P).sum + eps) := by
  obtain ⟨ps', z, cs', e1, e2, e3, e4⟩ := C75_magnitude hf hps h hm (nthRoot P) eps hp hact junk
  obtain ⟨ps2, e5, -⟩ := C75_components hf hps h hm junk
  rw [e5] at e2
  have e2 := Except.ok.inj e2
  subst e2
  refine ⟨z, by rw [e1], e3, fun ix hix => ?_⟩
  have := e4 ix hix
  rw [if_neg (by omega), List.map_map] at this
  exact this

/-- **C158** for `magnitude` with an even `p`, as with the default arguments, and `epsilon ≥ 0`: every entry is a convex function of the image, for all paddings that are affine functions
of the samples. -/
theorem C158_magnitude (hf : EdgeBuilt f w g m) (hps : HoldsBoth ps gp) (h : EdgeSetup g gp x ax axes) (hl : (gp.entry 0).Affine) (hm : g.isMany = true → axes.length - 1 = m) {eps : ℝ}
    (heps : 0 ≤ eps) {P : Nat} (hp : P ≠ 0) (hev : P % 2 = 0) (hact : Acts w g axes.length P) (hs : y.shape = x.shape) (hab : a + b = 1) (ha : 0 ≤ a) (hb : 0 ≤ b) (junk : List Nat → ℝ) :
    ∃ z zx zy, (f.magnitude (nthRoot P) ps junk (lincomb a x b y) ax eps P).2 = .ok z ∧ (f.magnitude (nthRoot P) ps junk x ax eps P).2 = .ok zx ∧
      (f.magnitude (nthRoot P) ps junk y ax eps P).2 = .ok zy ∧ z.shape = x.shape ∧ ∀ ix, InB x.shape ix → z.get ix ≤ a * zx.get ix + b * zy.get ix := by
  obtain ⟨z, e1, s1, g1⟩ := magnitude_even hf hps (h.congr (x' := lincomb a x b y) rfl) hm (eps := eps) hp hev hact junk
  obtain ⟨zx, e2, s2, g2⟩ := magnitude_even hf hps h hm (eps := eps) hp hev hact junk
  obtain ⟨zy, e3, s3, g3⟩ := magnitude_even hf hps (h.congr hs) hm (eps := eps) hp hev hact junk
  refine ⟨z, zx, zy, e1, e2, e3, s1, fun ix hix => ?_⟩
  rw [g1 ix hix, g2 ix hix, g3 ix (by rw [hs]; exact hix)]
  refine le_of_eq_of_le ?_ (root_mix_le h.nodup hp hev heps (Or.inr hab) ha hb _ _)
  congr 3
  refine List.map_congr_left fun k hk => ?_
  rw [edgeResponse_blend hab h hl hs hk, lincomb_get (by rw [h.response_shape _ hk]; exact hix)]

/-- **C158**: with `epsilon = 0` and linear paddings the magnitude of a sum is at most the sum of the magnitudes. -/
theorem C158_magnitude_triangle (hf : EdgeBuilt f w g m) (hps : HoldsBoth ps gp) (h : EdgeSetup g gp x ax axes) (hl : (gp.entry 0).Linear) (hm : g.isMany = true → axes.length - 1 = m)
    {P : Nat} (hp : P ≠ 0) (hev : P % 2 = 0) (hact : Acts w g axes.length P) (hs : y.shape = x.shape) (junk : List Nat → ℝ) :
    ∃ z zx zy, (f.magnitude (nthRoot P) ps junk (lincomb 1 x 1 y) ax 0 P).2 = .ok z ∧ (f.magnitude (nthRoot P) ps junk x ax 0 P).2 = .ok zx ∧
      (f.magnitude (nthRoot P) ps junk y ax 0 P).2 = .ok zy ∧ z.shape = x.shape ∧ ∀ ix, InB x.shape ix → z.get ix ≤ zx.get ix + zy.get ix := by
  obtain ⟨z, e1, s1, g1⟩ := magnitude_even hf hps (h.congr (x' := lincomb 1 x 1 y) rfl) hm (eps := 0) hp hev hact junk
  obtain ⟨zx, e2, s2, g2⟩ := magnitude_even hf hps h hm (eps := 0) hp hev hact junk
  obtain ⟨zy, e3, s3, g3⟩ := magnitude_even hf hps (h.congr hs) hm (eps := 0) hp hev hact junk
  refine ⟨z, zx, zy, e1, e2, e3, s1, fun ix hix => ?_⟩
  rw [g1 ix hix, g2 ix hix, g3 ix (by rw [hs]; exact hix)]
  have := root_mix_le (l := axes) h.nodup hp hev le_rfl (Or.inl rfl) (zero_le_one (α := ℝ)) zero_le_one (fun k => (edgeResponse (usedKernel w) g gp x axes k).get ix)
    (fun k => (edgeResponse (usedKernel w) g gp y axes k).get ix)
  rw [one_mul, one_mul] at this
  refine le_of_eq_of_le ?_ this
  congr 3
  refine List.map_congr_left fun k hk => ?_
  rw [edgeResponse_lincomb h hl hs hk, lincomb_get (by rw [h.response_shape _ hk]; exact hix)]

end

/-! ### examples -/

section
variable {f : EdgeFilter ℝ} {ps : EdgePadders ℝ} (hps : HoldsBoth ps reflectArgs) {p q t u : Tensor ℝ} (hp : p.shape = [1, 3, 4, 6]) (hq : q.shape = [1, 3, 4, 6]) (ht : t.shape = [1, 3, 4, 6])
  (hu : u.shape = [1, 3, 4, 6]) (j : List Nat → ℝ)

/-- Sobel's filter -/
example (hb : EdgeBuilt f [-1, 0, 1] (.one [1, 2, 1]) 1) := C158_loss (a := 1 / 3) (b := 2 / 3) hb hps ⟨hp, ht, by decide, by decide, rfl⟩ ⟨hq, hu, by decide, by decide, rfl⟩
  (by norm_num) (by norm_num) j
example (hb : EdgeBuilt f [-1, 0, 1] (.one [1, 2, 1]) 1) := C158_magnitude (a := 1 / 3) (b := 2 / 3) (P := 2) (eps := 1 / 100) hb hps
  (reflect_setup rfl hp (by decide) (by decide)) reflect_linear.affine (by intro h; cases h) (by norm_num) (by decide) rfl (.inl (by decide)) (hq.trans hp.symm) (by norm_num) (by norm_num)
  (by norm_num) j
example (hb : EdgeBuilt f [-1, 0, 1] (.one [1, 2, 1]) 1) := C158_magnitude_triangle (P := 4) hb hps
  (reflect_setup rfl hp (by decide) (by decide)) reflect_linear (by intro h; cases h) (by decide) rfl (.inl (by decide)) (hq.trans hp.symm) j

/-- a kernel that sees constants, bright and dark true images -/
example (hb : EdgeBuilt f [0, 5, 0] (.one [1 / 4, 1 / 2, 1 / 4]) 1) (h1 : Constant 1 t) (h2 : Constant (-1) u) :
    (∃ l l1 l2 : ℝ, (EdgeLoss.weightedMul f ps j (lincomb (1 / 3) p (2 / 3) q) t).2 = .ok (.scalar l) ∧ (EdgeLoss.weightedMul f ps j p t).2 = .ok (.scalar l1) ∧
      (EdgeLoss.weightedMul f ps j q t).2 = .ok (.scalar l2) ∧ l ≤ 1 / 3 * l1 + 2 / 3 * l2) ∧
    (∃ l l1 l2 : ℝ, (EdgeLoss.weightedDiv f ps j (lincomb (1 / 3) p (2 / 3) q) u).2 = .ok (.real l) ∧ (EdgeLoss.weightedDiv f ps j p u).2 = .ok (.real l1) ∧
      (EdgeLoss.weightedDiv f ps j q u).2 = .ok (.real l2) ∧ 1 / 3 * l1 + 2 / 3 * l2 ≤ l) ∧
    ∃ l, 0 < l ∧ (EdgeLoss.weightedSum f ps j (lincomb (1 / 2) t (1 / 2) (lincomb (-1) t 0 t)) t).2 = .ok (.scalar l) := by
  refine ⟨?_, ?_, ?_⟩
  · obtain ⟨l, l1, l2, e1, e2, e3, e4, -⟩ := C158_weighted_mul (a := 1 / 3) (b := 2 / 3) hb hps ⟨hp, ht, by decide, by decide, rfl⟩ hq (by norm_num) (by norm_num) (by norm_num) j
    exact ⟨l, l1, l2, e1, e2, e3, e4 fun k hk ix hix => by rw [five_edges hb ht h1 k hk ix hix]; norm_num⟩
  · obtain ⟨l, l1, l2, e1, e2, e3, -, e4⟩ := C158_weighted_div (a := 1 / 3) (b := 2 / 3) hb hps ⟨hp, hu, by decide, by decide, rfl⟩ hq (by norm_num) (by norm_num) (by norm_num)
      (fun k hk ix hix => by rw [five_edges hb hu h2 k hk ix hix]; norm_num) j
    exact ⟨l, l1, l2, e1, e2, e3, e4 fun k hk ix hix => by rw [five_edges hb hu h2 k hk ix hix]; norm_num⟩
  · exact (C158_weighted_sum_differ hb hps ⟨ht, ht, by decide, by decide, rfl⟩
      ⟨2, by decide, [0, 0, 0, 0], by decide, by rw [five_edges hb ht h1 2 (by decide) _ (by decide)]; norm_num⟩ j).2.2

end

end TI
