import Mathlib.Analysis.Calculus.LocalExtr.Basic
import Verif.Proofs.Smooth

/-!
# The losses are differentiable (C152)
-/

set_option linter.unusedSectionVars false

namespace TI
open Tensor Spec

variable {E : Type} [NormedAddCommGroup E] [NormedSpace ℝ E] {n : WithTop ℕ∞} {e0 : E} {S : List Nat} {y1 y2 : E → Tensor ℝ}
  {s : SSIM ℝ} {pool : SepPool ℝ} {a : PoolArgs ℝ} {m : Nat} {gp : Option (PadArgs ℝ)} {ax rax : Axes}
  {axes raxes : List Nat} {p : Option (Padder ℝ)} {k1 k2 eps : ℝ} {sc cr up : Bool} {ws : List ℝ}

/-- mean squared errors of families of images -/
theorem mse_family {E : Type} {R : (E → ℝ) → Prop} {y1 y2 : E → Tensor ℝ} (hR : Arithmetic R) (h1 : Family R S y1) (h2 : Family R S y2) {r : Reduction} (hr : r ≠ .unknown)
    (hax : axesOf S.length ax = some axes) (hnd : axes.Nodup) : ∃ T l, (∀ e, mse r (y1 e) (y2 e) ax = .ok (l e)) ∧ Family R T l := by
  have h12 : ∀ e, (y1 e).shape = (y2 e).shape := fun e => (h1.shape e).trans (h2.shape e).symm
  have hax' : ∀ e, axesOf (y1 e).ndim ax = some axes := fun e => by rw [Tensor.ndim, h1.shape]; exact hax
  have hsq : ∀ ix, InB S ix → R fun e => ((y1 e).get ix - (y2 e).get ix) ^ 2 := fun ix hix => hR.sq (hR.sub (h1.entry ix hix) (h2.entry ix hix))
  cases r with
  | mean =>
    refine ⟨onKept (reducedAxes S.length axes) S, _, fun e => C55_mean (h12 e) (hax' e) hnd, fun e => by rw [← h1.shape e]; rfl, fun jx hjx => ?_⟩
    refine (congrArg R (funext fun e => ?_)).mp (hR.mean (l := collected S (reducedAxes S.length axes) jx)
      (u := fun ix e => ((y1 e).get ix - (y2 e).get ix) ^ 2) fun ix hix => hsq ix (mem_collected.1 hix).1)
    rw [get_ofFn (by rw [Tensor.ndim, h1.shape]; exact hjx), Tensor.ndim, h1.shape]
  | sum =>
    refine ⟨onKept (reducedAxes S.length axes) S, _, fun e => C55_sum (h12 e) (hax' e) hnd, fun e => by rw [← h1.shape e]; rfl, fun jx hjx => ?_⟩
    refine (congrArg R (funext fun e => ?_)).mp (hR.sum (l := collected S (reducedAxes S.length axes) jx)
      (u := fun ix e => ((y1 e).get ix - (y2 e).get ix) ^ 2) fun ix hix => hsq ix (mem_collected.1 hix).1)
    rw [get_ofFn (by rw [Tensor.ndim, h1.shape]; exact hjx), Tensor.ndim, h1.shape]
  | none =>
    refine ⟨S, _, fun e => C55_none (h12 e) (hax' e), fun e => h1.shape e, fun jx hjx => ?_⟩
    refine (congrArg R (funext fun e => ?_)).mp (hsq jx hjx)
    rw [get_ofFn (by rw [h1.shape]; exact hjx)]
  | unknown => exact absurd rfl hr

/-- **C152.** The mean squared error of images that depend smoothly on a parameter does so too. -/
theorem C152_mse (h1 : SmoothAt n e0 S y1) (h2 : SmoothAt n e0 S y2) {r : Reduction} (hr : r ≠ .unknown)
    (hax : axesOf S.length ax = some axes) (hnd : axes.Nodup) : ∃ T l, (∀ e, mse r (y1 e) (y2 e) ax = .ok (l e)) ∧ SmoothAt n e0 T l :=
  mse_family arithmetic_contDiffAt h1 h2 hr hax hnd

/-- **C152**: the derivative of the mean squared error, for an image that is varied in the direction `d`. -/
theorem C152_mse_gradient {y : Tensor ℝ} {x : ℝ → Tensor ℝ} {d : Tensor ℝ} {t0 : ℝ} (hx : ∀ t, (x t).shape = S) (hy : y.shape = S)
    (hd : ∀ ix, InB S ix → HasDerivAt (fun t => (x t).get ix) (d.get ix) t0) (hax : axesOf S.length ax = some axes) (hnd : axes.Nodup) :
    ∃ l : ℝ → Tensor ℝ, (∀ t, mse .mean (x t) y ax = .ok (l t)) ∧ ∀ jx, InB (onKept (reducedAxes S.length axes) S) jx →
      HasDerivAt (fun t => (l t).get jx) (mean ((collected S (reducedAxes S.length axes) jx).map fun ix => 2 * ((x t0).get ix - y.get ix) * d.get ix)) t0 := by
  refine ⟨_, fun t => C55_mean ((hx t).trans hy.symm) (by rw [Tensor.ndim, hx]; exact hax) hnd, fun jx hjx => ?_⟩
  have hsum : ∀ l : List (List Nat), (∀ ix ∈ l, InB S ix) → HasDerivAt (fun t => (l.map fun ix => ((x t).get ix - y.get ix) ^ 2).sum)
      (l.map fun ix => 2 * ((x t0).get ix - y.get ix) * d.get ix).sum t0 := by
    intro l
    induction l with
    | nil => intro _; exact hasDerivAt_const t0 (0 : ℝ)
    | cons ix l ih =>
      intro h
      have h1 : HasDerivAt (fun t => ((x t).get ix - y.get ix) ^ 2) (2 * ((x t0).get ix - y.get ix) * d.get ix) t0 := by
        have := ((hd ix (h ix (by simp))).sub_const (y.get ix)).pow 2
        exact this.congr_deriv (by norm_num)
      have h2 := ih fun jx hjx => h jx (by simp [hjx])
      simp only [List.map_cons, List.sum_cons]
      exact h1.add h2
  have := (hsum (collected S (reducedAxes S.length axes) jx) fun ix hix => (mem_collected.1 hix).1).div_const
    ((collected S (reducedAxes S.length axes) jx).length : ℝ)
  refine HasDerivAt.congr_deriv (HasDerivAt.congr_of_eventuallyEq this (Filter.Eventually.of_forall fun t => ?_)) ?_
  · show (ofFn _ _).get jx = _
    rw [get_ofFn (by rw [Tensor.ndim, hx]; exact hjx), Tensor.ndim, hx, mean, List.length_map]
  · rw [mean, List.length_map]

/-- **C152**: the peak signal-to-noise ratio depends smoothly on the parameter too, at parameters where no error vanishes, and everywhere
if `eps` is positive. -/
theorem C152_psnr (h1 : SmoothAt n e0 S y1) (h2 : SmoothAt n e0 S y2) {r : Reduction} (hr : r ≠ .unknown)
    (hax : axesOf S.length ax = some axes) (hnd : axes.Nodup) (maxValue : ℝ)
    (hpos : 0 < eps ∨ ∀ l, mse r (y1 e0) (y2 e0) ax = .ok l → ∀ jx, InB l.shape jx → l.get jx ≠ 0) :
    ∃ T l, (∀ e, psnr maxValue eps r (y1 e) (y2 e) ax = .ok (l e)) ∧ SmoothAt n e0 T l := by
  obtain ⟨T, l, hl, hs⟩ := C152_mse h1 h2 hr hax hnd
  have hnn : ∀ jx, InB T jx → 0 ≤ (l e0).get jx := by
    intro jx hjx
    have h12 : (y1 e0).shape = (y2 e0).shape := (h1.shape e0).trans (h2.shape e0).symm
    have hax' : axesOf (y1 e0).ndim ax = some axes := by rw [Tensor.ndim, h1.shape]; exact hax
    have hjx' : InB (l e0).shape jx := by rw [hs.shape]; exact hjx
    have hz := hl e0
    cases r with
    | mean =>
      rw [C55_mean h12 hax' hnd, Except.ok.injEq] at hz
      rw [← hz] at hjx' ⊢
      rw [get_ofFn (show InB (onKept (reducedAxes (y1 e0).ndim axes) (y1 e0).shape) jx from hjx'), mean]
      exact div_nonneg (List.sum_nonneg fun v hv => by obtain ⟨ix, -, rfl⟩ := List.mem_map.1 hv; positivity) (Nat.cast_nonneg _)
    | sum =>
      rw [C55_sum h12 hax' hnd, Except.ok.injEq] at hz
      rw [← hz] at hjx' ⊢
      rw [get_ofFn (show InB (onKept (reducedAxes (y1 e0).ndim axes) (y1 e0).shape) jx from hjx')]
      exact List.sum_nonneg fun v hv => by obtain ⟨ix, -, rfl⟩ := List.mem_map.1 hv; positivity
    | none =>
      rw [C55_none h12 hax', Except.ok.injEq] at hz
      rw [← hz] at hjx' ⊢
      rw [get_ofFn (show InB (y1 e0).shape jx from hjx')]
      positivity
    | unknown => exact absurd rfl hr
  have hlog : ∀ f : E → ℝ, ContDiffAt ℝ n f e0 → f e0 ≠ 0 → ContDiffAt ℝ n (fun e => 20 * Real.logb 10 maxValue - 10 * Real.logb 10 (f e)) e0 := by
    intro f hf h0
    simp only [Real.logb]
    exact contDiffAt_const.sub (contDiffAt_const.mul ((hf.log h0).div_const _))
  by_cases heps : eps > 0
  · refine ⟨T, fun e => ((l e).map (· + eps)).map _, fun e => by rw [psnr, hl, ok_bind, if_pos heps], fun e => hs.shape e, fun jx hjx => ?_⟩
    have hg : ∀ e, (((l e).map (· + eps)).map fun v => 20 * Real.logb 10 maxValue - 10 * Real.logb 10 v).get jx =
        20 * Real.logb 10 maxValue - 10 * Real.logb 10 ((l e).get jx + eps) := fun e => by
      have h' : InB (l e).shape jx := by rw [hs.shape]; exact hjx
      rw [get_map _ _ (show InB ((l e).map (· + eps)).shape jx from h'), get_map _ _ h']
    simp only [hg]
    exact hlog _ ((hs.entry jx hjx).add contDiffAt_const) (add_pos_of_nonneg_of_pos (hnn jx hjx) heps).ne'
  · refine ⟨T, fun e => (l e).map _, fun e => by rw [psnr, hl, ok_bind, if_neg heps], fun e => hs.shape e, fun jx hjx => ?_⟩
    have hg : ∀ e, ((l e).map fun v => 20 * Real.logb 10 maxValue - 10 * Real.logb 10 v).get jx =
        20 * Real.logb 10 maxValue - 10 * Real.logb 10 ((l e).get jx) := fun e => by
      rw [get_map _ _ (by rw [hs.shape]; exact hjx)]
    simp only [hg]
    exact hlog _ (hs.entry jx hjx) (hpos.resolve_left heps _ (hl e0) jx (by rw [hs.shape]; exact hjx))

/-- **C152**: SSIM, the score and the map, of images that depend smoothly on a parameter does so too: for averaging kernels, constants that
are not zero, and paddings with samples, means of samples or constants from 0 to 1, there is no pair of images at which it is not differentiable.  If the two
images agree at a parameter then all derivatives of the scores vanish there: equal images are stationary points. -/
theorem C152_ssim (hi : SSIM.init pool false k1 k2 sc cr = .ok s) (hb : Built pool a m) (hm : a.kernel.isMany = true → axes.length = m)
    (h1 : SmoothAt n e0 S y1) (h2 : SmoothAt n e0 S y2) (h : BlurCall a.kernel gp (y1 e0) ax axes p)
    (hN : sc = true → windowSize a.kernel axes.length ≠ 1) (hr : axesOf S.length rax = some raxes) (hrn : raxes.Nodup) (hc : cr = false ∨ gp = none)
    (hav : Averages a.kernel axes) (hk : KeepsMoments gp axes) (hk1 : k1 ≠ 0) (hk2 : k2 ≠ 0) (junk : List Nat → ℝ) :
    ∃ q T U score full, (∀ e, s.forward junk (y1 e) (y2 e) ax rax p = (q, .ok (score e, full e))) ∧ SmoothAt n e0 T score ∧ SmoothAt n e0 U full ∧
      ((∀ k ∈ reducedAxes S.length raxes, 0 < S.getD k 0) → n ≠ 0 → y1 e0 = y2 e0 →
        ∀ jx, InB T jx → HasFDerivAt (fun e => (score e).get jx) (0 : E →L[ℝ] ℝ) e0) := by
  have h12 : ∀ e, (y2 e).shape = (y1 e).shape := fun e => (h2.shape e).trans (h1.shape e).symm
  have hcall : ∀ e, BlurCall a.kernel gp (y1 e) ax axes p := fun e => blurCall_congr h ((h1.shape e).trans (h1.shape e0).symm)
  have hnd : ∀ e, (y1 e).ndim = S.length := fun e => by rw [Tensor.ndim, h1.shape]
  have hrun : ∀ e, _ := fun e => C79_formula hi hb hm (hcall e) hN (h12 e) (by rw [hnd]; exact hr) hrn hc junk
  simp only [h1.shape] at hrun
  have hfull := (h1.maps (k1 := k1) (k2 := k2) (sc := sc) (n := windowSize a.kernel axes.length) arithmetic_contDiffAt h2 h (h1.shape e0) hav hk hk1 hk2).1
  have hscore := hfull.meanOver arithmetic_contDiffAt raxes
  refine ⟨_, _, _, _, _, hrun, hscore, hfull, ?_⟩
  intro hpos hn heq jx hjx
  have hpos' : ∀ e, ∀ k ∈ reducedAxes (y1 e).ndim raxes, 0 < (y1 e).shape.getD k 0 := fun e => by rw [hnd, h1.shape]; exact hpos
  have hle : ∀ e, _ := fun e => meanOver_between (raxes := raxes)
    (ssimMap_between (sc := sc) (hcall e) hav hk (h12 e) hk1 hk2 (windowSize a.kernel axes.length)) (ssimMap_pos (hcall e) (hpos' e)) jx
    (by rw [hscore.shape e]; exact hjx)
  have hone : (meanOver (ssimMap k1 k2 (covFactor sc (windowSize a.kernel axes.length)) (blurred a.kernel gp axes) (y1 e0) (y2 e0)) raxes).get jx = 1 := by
    have := meanOver_constant (raxes := raxes) (ssimMap_self (sc := sc) h hav hk hk1 hk2 (windowSize a.kernel axes.length)) (ssimMap_pos h (hpos' e0)) jx
    rw [← heq]
    refine this ?_
    have hh := hscore.shape e0
    rw [← heq] at hh
    rw [hh]
    exact hjx
  have hmax : IsLocalMax (fun e => (meanOver (ssimMap k1 k2 (covFactor sc (windowSize a.kernel axes.length)) (blurred a.kernel gp axes) (y1 e) (y2 e)) raxes).get jx) e0 :=
    Filter.Eventually.of_forall fun e => (hle e).2.trans hone.ge
  have hdiff := (hscore.entry jx hjx).differentiableAt hn
  have := hdiff.hasFDerivAt
  rwa [hmax.fderiv_eq_zero] at this

/-- **C152** with cropping: the score depends smoothly on the parameter for paddings in all known modes (except `periodize` on an axis of odd size), if the kernels are not longer
than the axes; equal images are stationary points. -/
theorem C152_ssim_cropped {gp : PadArgs ℝ} {p : Padder ℝ} (hi : SSIM.init pool false k1 k2 sc true = .ok s) (hb : Built pool a m) (hm : a.kernel.isMany = true → axes.length = m)
    (h1 : SmoothAt n e0 S y1) (h2 : SmoothAt n e0 S y2) (hc : KnownCall (PoolArgs.filter a.kernel) gp (y1 e0) ax axes) (hp : Holds p gp)
    (hper : ∀ i < axes.length, (gp.mode.entry .unknown i).isPeriodize = false ∨ S.getD (axes.getD i 0) 0 % 2 = 0)
    (hk : ∀ i < axes.length, (a.kernel.entry [] i).length ≤ S.getD (axes.getD i 0) 0)
    (hN : sc = true → windowSize a.kernel axes.length ≠ 1) (hr : axesOf S.length rax = some raxes) (hrn : raxes.Nodup)
    (hav : Averages a.kernel axes) (hk1 : k1 ≠ 0) (hk2 : k2 ≠ 0) (junk : List Nat → ℝ) :
    ∃ T score, (∀ e, ∃ q full, s.forward junk (y1 e) (y2 e) ax rax (some p) = (q, .ok (score e, full))) ∧ SmoothAt n e0 T score ∧
      ((∀ k ∈ reducedAxes S.length raxes, 0 < S.getD k 0) → n ≠ 0 → y1 e0 = y2 e0 →
        ∀ jx, InB T jx → HasFDerivAt (fun e => (score e).get jx) (0 : E →L[ℝ] ℝ) e0) := by
  have h : BlurCall a.kernel none (y1 e0) ax axes none := ⟨rfl, hc.axes_eq, fitting_of_sizes hc.toSameReq (by rw [h1.shape]; exact hk)⟩
  have hkm : KeepsMoments (α := ℝ) none axes := by intro g hg; cases hg
  obtain ⟨q, T, U, score, full, e1, e2, -, e3⟩ := C152_ssim hi hb hm h1 h2 h hN hr hrn (Or.inr rfl) hav hkm hk1 hk2 junk
  refine ⟨T, score, fun e => ?_, e2, e3⟩
  obtain ⟨sc', f1, f2, q', h3, h4⟩ := C60_padding_irrelevant_partial hi hb hm (hc.congr ((h1.shape e).trans (h1.shape e0).symm)) hp (by rw [h1.shape]; exact hper)
    (by rw [h1.shape]; exact hk) hN ((h2.shape e).trans (h1.shape e).symm) (by rw [Tensor.ndim, h1.shape]; exact hr) hrn junk
  have hE := (e1 e).symm.trans h4
  simp only [Prod.mk.injEq, Except.ok.injEq] at hE
  exact ⟨q', f1, by rw [hE.2.1]; exact h3⟩

/-- **C152** with all paddings that are affine functions of the samples and all kernels: SSIM depends smoothly on the parameter at images for which no denominator vanishes. -/
theorem C152_ssim_defined (hi : SSIM.init pool false k1 k2 sc cr = .ok s) (hb : Built pool a m) (hm : a.kernel.isMany = true → axes.length = m)
    (h1 : SmoothAt n e0 S y1) (h2 : SmoothAt n e0 S y2) (h : BlurCall a.kernel gp (y1 e0) ax axes p)
    (hN : sc = true → windowSize a.kernel axes.length ≠ 1) (hr : axesOf S.length rax = some raxes) (hrn : raxes.Nodup) (hc : cr = false ∨ gp = none)
    (ha : ∀ g ∈ gp, ∀ i < axes.length, (g.entry i).Affine)
    (hd : ∀ ix, InB (blurred a.kernel gp axes (y1 e0)).shape ix → ∀ m1 m2 q1 q2, (blurred a.kernel gp axes (y1 e0)).get ix = m1 → (blurred a.kernel gp axes (y2 e0)).get ix = m2 →
      (blurred a.kernel gp axes (times (y1 e0) (y1 e0))).get ix = q1 → (blurred a.kernel gp axes (times (y2 e0) (y2 e0))).get ix = q2 →
      m1 ^ 2 + m2 ^ 2 + k1 ^ 2 ≠ 0 ∧ covFactor sc (windowSize a.kernel axes.length) * (q1 - m1 ^ 2) + covFactor sc (windowSize a.kernel axes.length) * (q2 - m2 ^ 2) + k2 ^ 2 ≠ 0)
    (junk : List Nat → ℝ) :
    ∃ q T U score full, (∀ e, s.forward junk (y1 e) (y2 e) ax rax p = (q, .ok (score e, full e))) ∧ SmoothAt n e0 T score ∧ SmoothAt n e0 U full := by
  have h12 : ∀ e, (y2 e).shape = (y1 e).shape := fun e => (h2.shape e).trans (h1.shape e).symm
  have hcall : ∀ e, BlurCall a.kernel gp (y1 e) ax axes p := fun e => blurCall_congr h ((h1.shape e).trans (h1.shape e0).symm)
  have hnd : ∀ e, (y1 e).ndim = S.length := fun e => by rw [Tensor.ndim, h1.shape]
  have hrun : ∀ e, _ := fun e => C79_formula hi hb hm (hcall e) hN (h12 e) (by rw [hnd]; exact hr) hrn hc junk
  simp only [h1.shape] at hrun
  have hR : Arithmetic fun f : E → ℝ => ContDiffAt ℝ n f e0 := arithmetic_contDiffAt
  have b1 := Family.blurred hR h1 h ha (h1.shape e0)
  have b2 := Family.blurred hR h2 h ha (h1.shape e0)
  have b11 := Family.blurred hR (h1.times hR h1) h ha (h1.shape e0)
  have b22 := Family.blurred hR (h2.times hR h2) h ha (h1.shape e0)
  have b12 := Family.blurred hR (h1.times hR h2) h ha (h1.shape e0)
  have hfull : SmoothAt n e0 (blurred a.kernel gp axes (y1 e0)).shape
      fun e => ssimMap k1 k2 (covFactor sc (windowSize a.kernel axes.length)) (blurred a.kernel gp axes) (y1 e) (y2 e) := by
    refine ⟨fun e => b1.shape e, fun ix hix => ?_⟩
    obtain ⟨hd1, hd2⟩ := hd ix hix _ _ _ _ rfl rfl rfl rfl
    have hl := hR.add (hR.mul (hR.const 2) (hR.mul (b1.entry ix hix) (b2.entry ix hix))) (hR.const (k1 ^ 2))
    have hm := hR.add (hR.add (hR.sq (b1.entry ix hix)) (hR.sq (b2.entry ix hix))) (hR.const (k1 ^ 2))
    have hnum := hR.add (hR.mul (hR.const 2) (hR.mul (hR.const (covFactor sc (windowSize a.kernel axes.length)))
      (hR.sub (b12.entry ix hix) (hR.mul (b1.entry ix hix) (b2.entry ix hix))))) (hR.const (k2 ^ 2))
    have hvar := hR.add (hR.add (hR.mul (hR.const (covFactor sc (windowSize a.kernel axes.length))) (hR.sub (b11.entry ix hix) (hR.sq (b1.entry ix hix))))
      (hR.mul (hR.const (covFactor sc (windowSize a.kernel axes.length))) (hR.sub (b22.entry ix hix) (hR.sq (b2.entry ix hix))))) (hR.const (k2 ^ 2))
    have := ContDiffAt.div (hR.mul hl hnum) (hR.mul hm hvar) (mul_ne_zero hd1 hd2)
    refine (congrArg (fun f : E → ℝ => ContDiffAt ℝ n f e0) (funext fun e => ?_)).mp this
    rw [Pi.div_apply, ssimMap, get_ofFn (by rw [b1.shape e]; exact hix), ssimIndex]
  exact ⟨_, _, _, _, _, hrun, hfull.meanOver hR raxes, hfull⟩

/-- **C152**: MS-SSIM.  The sum form depends smoothly on the parameter; the product form does, for `eps > 0`, at parameters where no score
of a level is equal to `eps`, -/
theorem C152_msssim (hi : SSIM.init pool false k1 k2 sc cr = .ok s) (hb : Built pool a m) (hm : a.kernel.isMany = true → axes.length = m)
    (hw : 2 ≤ ws.length) (h1 : SmoothAt n e0 S y1) (h2 : SmoothAt n e0 S y2) (h : MsCall a.kernel gp cr ws.length (y1 e0) ax axes p)
    (hN : sc = true → windowSize a.kernel axes.length ≠ 1) (hr : axesOf S.length rax = some raxes) (hrn : raxes.Nodup)
    (hp : MsPossible a.kernel gp cr axes k1 k2)
    (hup : up = true → 0 < eps ∧ ∀ i < ws.length, ∀ jx, InB (onesAt axes S) jx →
      (levelScore k1 k2 (covFactor sc (windowSize a.kernel axes.length)) (scoreBlur a.kernel gp cr axes) axes (decide (i + 1 = ws.length))
        (atLevel axes i (y1 e0)) (atLevel axes i (y2 e0))).get jx ≠ eps) (junk : List Nat → ℝ) :
    ∃ q T score, (∀ e, (⟨s, ws, up, eps⟩ : MsSsim).forward junk (y1 e) (y2 e) ax rax p = (q, .ok (score e))) ∧ SmoothAt n e0 T score := by
  have hcall : ∀ e, MsCall a.kernel gp cr ws.length (y1 e) ax axes p := fun e =>
    ⟨by rw [Tensor.ndim, h1.shape, ← h1.shape e0]; exact h.axes_eq, h.ne, h.nodup, h.fits, h.kernel, by rw [h1.shape, ← h1.shape e0]; exact h.large, h.padder⟩
  have hrun : ∀ e, _ := fun e => C80_formula hi hb hm hw (hcall e) hN ((h2.shape e).trans (h1.shape e).symm) (by rw [Tensor.ndim, h1.shape]; exact hr) hrn up eps junk
  have hq : ∀ e, (atLevel axes (ws.length - 1) (y1 e)).shape = (atLevel axes (ws.length - 1) (y1 e0)).shape := fun e =>
    atLevel_shape_congr _ ((h1.shape e).trans (h1.shape e0).symm)
  simp only [hq] at hrun
  refine ⟨_, _, fun e => _, hrun, Family.meanOver arithmetic_contDiffAt (h1.msMap arithmetic_contDiffAt h2 h (h1.shape e0) hp ?_) raxes⟩
  intro i hi' jx hjx hv
  cases up with
  | false => exact hv.mul contDiffAt_const
  | true => exact contDiffAt_term (hup rfl).1 hv ((hup rfl).2 i hi' jx hjx)

/-- **C152**: and both forms are continuous everywhere, the product form for `eps > 0`. -/
theorem C152_msssim_continuous {E : Type} [TopologicalSpace E] {y1 y2 : E → Tensor ℝ} (e0 : E)
    (hi : SSIM.init pool false k1 k2 sc cr = .ok s) (hb : Built pool a m) (hm : a.kernel.isMany = true → axes.length = m)
    (hw : 2 ≤ ws.length) (h1 : Family Continuous S y1) (h2 : Family Continuous S y2) (h : MsCall a.kernel gp cr ws.length (y1 e0) ax axes p)
    (hN : sc = true → windowSize a.kernel axes.length ≠ 1) (hr : axesOf S.length rax = some raxes) (hrn : raxes.Nodup)
    (hp : MsPossible a.kernel gp cr axes k1 k2) (hup : up = true → 0 < eps) (junk : List Nat → ℝ) :
    ∃ q T score, (∀ e, (⟨s, ws, up, eps⟩ : MsSsim).forward junk (y1 e) (y2 e) ax rax p = (q, .ok (score e))) ∧ Family Continuous T score := by
  have hcall : ∀ e, MsCall a.kernel gp cr ws.length (y1 e) ax axes p := fun e =>
    ⟨by rw [Tensor.ndim, h1.shape, ← h1.shape e0]; exact h.axes_eq, h.ne, h.nodup, h.fits, h.kernel, by rw [h1.shape, ← h1.shape e0]; exact h.large, h.padder⟩
  have hrun : ∀ e, _ := fun e => C80_formula hi hb hm hw (hcall e) hN ((h2.shape e).trans (h1.shape e).symm) (by rw [Tensor.ndim, h1.shape]; exact hr) hrn up eps junk
  have hq : ∀ e, (atLevel axes (ws.length - 1) (y1 e)).shape = (atLevel axes (ws.length - 1) (y1 e0)).shape := fun e =>
    atLevel_shape_congr _ ((h1.shape e).trans (h1.shape e0).symm)
  simp only [hq] at hrun
  refine ⟨_, _, fun e => _, hrun, Family.meanOver arithmetic_continuous (h1.msMap arithmetic_continuous h2 h (h1.shape e0) hp ?_) raxes⟩
  intro i hi' jx hjx hv
  cases up with
  | false => exact hv.mul continuous_const
  | true =>
    refine (hv.max continuous_const).rpow_const fun e => Or.inl ?_
    exact ((hup rfl).trans_le (le_max_right _ _)).ne'

/-! ### examples -/

/-- the image `x + t * d` -/
theorem direction_smooth (x d : Tensor ℝ) (hx : x.shape = S) : SmoothAt n (0 : ℝ) S fun t => ofFn S fun ix => x.get ix + t * d.get ix where
  shape _ := rfl
  entry ix hix := by
    simp only [get_ofFn hix]
    exact contDiffAt_const.add (contDiffAt_id.mul contDiffAt_const)

/-- `SSIM()` and `MS_SSIM()` of an image and a disturbed one, in any direction: infinitely differentiable functions, and the derivative of the
SSIM vanishes where there is no disturbance -/
example (x d : Tensor ℝ) (hx : x.shape = [1, 3, 256, 256]) (junk : List Nat → ℝ) :
    ∃ s, SSIM.initGaussian (1 / 100) (3 / 100) true true = .ok s ∧
      (∃ q T U score full, (∀ t : ℝ, s.forward junk (ofFn [1, 3, 256, 256] fun ix => x.get ix + t * d.get ix) x (.slice (.from 2)) (.slice (.from 1)) none =
          (q, .ok (score t, full t))) ∧ SmoothAt (↑(⊤ : ℕ∞)) 0 T score ∧ SmoothAt (↑(⊤ : ℕ∞)) 0 U full ∧ ∀ jx, InB T jx → HasDerivAt (fun t => (score t).get jx) 0 0) ∧
      ∃ q T score, (∀ t : ℝ, (⟨s, MsSsim.defaultWeights, true, 1 / 100000000⟩ : MsSsim).forward junk
        (ofFn [1, 3, 256, 256] fun ix => x.get ix + t * d.get ix) x (.slice (.from 2)) (.slice (.from 1)) none = (q, .ok (score t))) ∧ SmoothAt (↑(⊤ : ℕ∞)) 0 T score := by
  obtain ⟨s, pool, w, h1, h2, h3, h4, h5, h6⟩ := ssim_gaussian (1 / 100) (3 / 100) true true
  have hl : MsSsim.defaultWeights.length = 5 := by simp [MsSsim.defaultWeights]
  have hz : (ofFn [1, 3, 256, 256] fun ix => x.get ix + 0 * d.get ix) = x := by
    simp only [zero_mul, add_zero]
    rw [← hx]
    exact (eq_ofFn_get x).symm
  have hsize : ∀ k ∈ [2, 3], x.shape.getD k 0 = 256 := by rw [hx]; decide
  have hcall : MsCall (.one w) none true MsSsim.defaultWeights.length x (.slice (.from 2)) [2, 3] none := by
    apply msCall_one (by rintro rfl; simp at h5) (by rw [ndim, hx]; rfl) (by decide) (by decide)
    intro k hk
    rw [hl, h5, hsize k hk]
    omega
  have hblur : BlurCall (.one w) none x (.slice (.from 2)) [2, 3] none := by
    apply blurCall_one (by rw [ndim, hx]; rfl) (by decide)
    intro k hk
    rw [h5, hsize k hk]
    omega
  have hN : true = true → windowSize (.one w) [2, 3].length ≠ 1 := fun _ => windowSize_ne_one (by omega) (by simp)
  have hk : KeepsMoments (none : Option (PadArgs ℝ)) [2, 3] := fun g hg => by cases hg
  have hav : Averages (.one w) [2, 3] := fun _ _ _ => h4
  have hp : MsPossible (.one w) none true [2, 3] (1 / 100) (3 / 100) := ⟨hav, fun _ => hk, by norm_num, by norm_num⟩
  have s1 := direction_smooth (n := ↑(⊤ : ℕ∞)) x d hx
  have s2 : SmoothAt (↑(⊤ : ℕ∞)) (0 : ℝ) [1, 3, 256, 256] fun _ => x := ⟨fun _ => hx, fun ix _ => contDiffAt_const⟩
  refine ⟨s, h1, ?_, ?_⟩
  · obtain ⟨q, T, U, score, full, e1, e2, e3, e4⟩ := C152_ssim h2 h3 (by intro h; cases h) s1 s2 (by simp only [hz]; exact hblur) hN
      (rax := .slice (.from 1)) (raxes := [1, 2, 3]) rfl (by decide) (Or.inr rfl) hav hk (by norm_num) (by norm_num) junk
    refine ⟨q, T, U, score, full, e1, e2, e3, fun jx hjx => ?_⟩
    have := (e4 (by decide) (by simp) hz jx hjx).hasDerivAt
    simpa using this
  · refine C152_msssim h2 h3 (by intro h; cases h) (by rw [hl]; omega) s1 s2 (by simp only [hz]; exact hcall) hN
      (rax := .slice (.from 1)) (raxes := [1, 2, 3]) rfl (by decide) hp (fun _ => ⟨by norm_num, fun i hi jx hjx => ?_⟩) junk
    simp only [hz]
    rw [show (_ : ℝ) = 1 from msLevel_self (sc := true) hcall hp hi (by rw [hx]; exact hjx) (windowSize (.one w) [2, 3].length)]
    norm_num

namespace SmoothExample

/-- a frame of constants -/
noncomputable def frame (c : ℝ) : PadArgs ℝ := ⟨.one (0, 0), .one .constant, .one (c, c), .one (0, 0), .one (none, none)⟩

theorem frame_call {w : List ℝ} {c : ℝ} {k : Nat} (hk : 0 < k) {x : Tensor ℝ} (hx : x.shape = [k]) : SameCall (PoolArgs.filter (.one w)) (frame c) x .none [0] where
  axes_eq := by rw [ndim, hx]; rfl
  ne := by decide
  nodup := by decide
  fits := by intro h; cases h
  rest := ⟨trivial, trivial, trivial, trivial⟩
  stride := by intro i _; exact Nat.one_pos
  pos := by intro i hi; rw [hx, List.mem_singleton.1 hi]; exact hk
  valued := by
    intro o ho _
    obtain ⟨i, _, rfl⟩ := sameOps_mem ho
    exact ⟨by simp [sameSetting, AxisPad.rule?, frame, Given.entry], by simp [sameSetting, frame, Given.entry]⟩

end SmoothExample

open SmoothExample in
/-- C152 in a frame of zeros, and for the cropped score in a frame of any constants: `SSIM(blur="mean")` for the images `x + t*d` and `x` of 16 samples -/
example (x d : Tensor ℝ) (hx : x.shape = [16]) (c : ℝ) (junk : List Nat → ℝ) :
    (∃ s, SSIM.initMean (1 / 100 : ℝ) (3 / 100) true false = .ok s ∧ ∃ q T U score full,
      (∀ t : ℝ, s.forward junk (ofFn [16] fun ix => x.get ix + t * d.get ix) x .none .none (some ((frame 0).padder 1)) = (q, .ok (score t, full t))) ∧
      SmoothAt (↑(⊤ : ℕ∞)) (0 : ℝ) T score ∧ SmoothAt (↑(⊤ : ℕ∞)) (0 : ℝ) U full) ∧
    ∃ s, SSIM.initMean (1 / 100 : ℝ) (3 / 100) true true = .ok s ∧ ∃ T score,
      (∀ t : ℝ, ∃ q full, s.forward junk (ofFn [16] fun ix => x.get ix + t * d.get ix) x .none .none (some ((frame c).padder 1)) = (q, .ok (score t, full))) ∧ SmoothAt (↑(⊤ : ℕ∞)) (0 : ℝ) T score := by
  have s1 := direction_smooth (n := ↑(⊤ : ℕ∞)) x d hx
  have s2 : SmoothAt (↑(⊤ : ℕ∞)) (0 : ℝ) [16] fun _ => x := ⟨fun _ => hx, fun ix _ => contDiffAt_const⟩
  constructor
  · obtain ⟨s, pool, w, h1, h2, h3, h4, h5, -⟩ := ssim_mean (1 / 100 : ℝ) (3 / 100) true false
    obtain ⟨q, T, U, score, full, e1, e2, e3, -⟩ := C152_ssim (gp := some (frame 0)) (axes := [0]) (rax := .none) (raxes := [0]) h2 h3 (by intro h; cases h) s1 s2
      ⟨⟨_, rfl, holds_padder _ 1⟩, frame_call (k := 16) (by decide) (s1.shape 0)⟩ (fun _ => windowSize_ne_one (by omega) (by simp)) rfl (by decide) (Or.inl rfl) (fun _ _ _ => h4)
      (by
        intro g hg i _
        cases hg
        show ((0 : ℝ) ≤ 0 ∧ (0 : ℝ) ≤ 1) ∧ ((0 : ℝ) ≤ 0 ∧ (0 : ℝ) ≤ 1)
        norm_num) (by norm_num) (by norm_num) junk
    exact ⟨s, h1, q, T, U, score, full, e1, e2, e3⟩
  · obtain ⟨s, pool, w, h1, h2, h3, h4, h5, -⟩ := ssim_mean (1 / 100 : ℝ) (3 / 100) true true
    obtain ⟨T, score, e1, e2, -⟩ := C152_ssim_cropped (gp := frame c) (axes := [0]) (rax := .none) (raxes := [0]) h2 h3 (by intro h; cases h) s1 s2
      (frame_call (k := 16) (by decide) (s1.shape 0)).knownCall (holds_padder _ 1) (fun _ _ => Or.inl rfl)
      (by intro i hi; have : i = 0 := by simpa using hi
          subst this; show w.length ≤ 16; omega)
      (fun _ => windowSize_ne_one (by omega) (by simp)) rfl (by decide) (fun _ _ _ => h4) (by norm_num) (by norm_num) junk
    exact ⟨s, h1, T, score, e1, e2⟩

open SmoothExample in
/-- C152 in a frame of fives, where variances may be negative, with any weights: for `K2` large enough SSIM of a sample is smooth at any sample -/
example {pool : SepPool ℝ} {w : List ℝ} (hb : Built pool ⟨.one w, .one none⟩ 1) (x d : Tensor ℝ) (hx : x.shape = [1]) (junk : List Nat → ℝ) :
    ∃ k2 s, SSIM.init pool false 1 k2 false false = .ok s ∧ ∃ q T U score full,
      (∀ t : ℝ, s.forward junk (ofFn [1] fun ix => x.get ix + t * d.get ix) x .none .none (some ((frame 5).padder 1)) = (q, .ok (score t, full t))) ∧
      SmoothAt (↑(⊤ : ℕ∞)) (0 : ℝ) T score ∧ SmoothAt (↑(⊤ : ℕ∞)) (0 : ℝ) U full := by
  have s1 := direction_smooth (n := ↑(⊤ : ℕ∞)) x d hx
  have s2 : SmoothAt (↑(⊤ : ℕ∞)) (0 : ℝ) [1] fun _ => x := ⟨fun _ => hx, fun ix _ => contDiffAt_const⟩
  set y : Tensor ℝ := ofFn [1] fun ix => x.get ix + 0 * d.get ix with hy
  obtain ⟨B, hB⟩ : ∃ B : Tensor ℝ → ℝ, ∀ u, B u = (blurred (.one w) (some (frame 5)) [0] u).get [0] := ⟨_, fun _ => rfl⟩
  set f : ℝ := covFactor false (windowSize (.one w) [0].length) with hf
  set r := f * (B (times y y) - B y ^ 2) + f * (B (times x x) - B x ^ 2) with hr
  obtain ⟨g, hg, -⟩ := hb.poolIs.1.toFilter
  have hcall := frame_call (w := w) (c := 5) (k := 1) (by decide) (x := y) rfl
  have hsh : (blurred (.one w) (some (frame 5)) [0] y).shape = [1] := blur_shape_kept hcall fun _ _ => Or.inl rfl
  refine ⟨|r| + 1, ⟨g, false, 1, |r| + 1, false, false⟩, by simp only [SSIM.init, hg, ok_bind], ?_⟩
  refine C152_ssim_defined (gp := some (frame 5)) (axes := [0]) (rax := .none) (raxes := [0]) (k1 := 1) (k2 := |r| + 1) (sc := false) (cr := false)
    (by simp only [SSIM.init, hg, ok_bind]) hb (by intro h; cases h) s1 s2 ⟨⟨_, rfl, holds_padder _ 1⟩, hcall⟩ (by intro h; cases h) rfl (by decide) (Or.inl rfl)
    (fun g hg i _ => by cases hg; trivial) ?_ junk
  intro ix hix m1 m2 q1 q2 e1 e2 e3 e4
  have hix : InB [1] ix := hsh ▸ hix
  obtain rfl : ix = [0] := by
    have := mem_indices.2 hix
    simpa [indices] using this
  rw [← hB] at e1 e2 e3 e4
  have hne : r + (|r| + 1) ^ 2 ≠ 0 := by nlinarith [neg_abs_le r, abs_nonneg r]
  exact ⟨by positivity, by rw [← e1, ← e2, ← e3, ← e4]; exact hne⟩

end TI
