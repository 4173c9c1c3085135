import Verif.Props.Smooth
import Verif.Props.SmoothWeights

/-!
# SSIM and MS-SSIM as functions of their window and of their constants (C161)
-/

set_option linter.unusedSectionVars false

namespace TI
open Tensor Spec

section
variable {E : Type} {R : (E → ℝ) → Prop} {S : List Nat} {x y : E → Tensor ℝ} {g : E → Given (List ℝ)} {K : Nat → Nat} {axes : List Nat} {gp : Option (PadArgs ℝ)} {ax : Axes}
  {p : Option (Padder ℝ)} {k1 k2 : E → ℝ} {sc : Bool} {N : Nat}

/-- blurred images, as functions of the images and of the window -/
theorem Spec.Weights.blurred (hR : Arithmetic R) (hq : Weights R axes.length (.one (some 1)) K fun e => PoolArgs.filter (g e)) (hx : Family R S x) (e0 : E)
    (hc : ∀ e, BlurCall (g e) gp (x e) ax axes p) (ha : ∀ g ∈ gp, ∀ i < axes.length, (g.entry i).Affine) {u : Tensor ℝ} (hu : u.shape = S) :
    Family R (TI.Spec.blurred (g e0) gp axes u).shape fun e => TI.Spec.blurred (g e) gp axes (x e) := by
  have h : ∃ T, Family R T fun e => TI.Spec.blurred (g e) gp axes (x e) := by
    cases gp with
    | none => exact hq.pooled hR e0 (List.range axes.length) hx (fun i hi => List.mem_range.1 hi) (hc e0).2.2
    | some gp => exact hq.same hR hx e0 (fun e => (hc e).2) (ha gp rfl)
  obtain ⟨T, hT⟩ := h
  rw [blurred_congr (hc e0) (hu.trans (hx.shape e0).symm), hT.shape e0]
  exact hT

theorem Spec.Weights.windowSize_eq (hq : Weights R N (.one (some 1)) K fun e => PoolArgs.filter (g e)) (e e' : E) : windowSize (g e) N = windowSize (g e') N := by
  rw [windowSize, windowSize]
  congr 1
  refine List.map_congr_left fun i hi => ?_
  have hi' := List.mem_range.1 hi
  exact (hq.size e i hi').trans (hq.size e' i hi').symm

/-- the maps of indices, as functions of the images, of the window and of the constants -/
theorem Spec.Weights.maps (hR : Arithmetic R) (hq : Weights R axes.length (.one (some 1)) K fun e => PoolArgs.filter (g e)) (hx : Family R S x) (hy : Family R S y) (e0 : E)
    (hc : ∀ e, BlurCall (g e) gp (x e) ax axes p) (hav : ∀ e, Averages (g e) axes) (hk : KeepsMoments gp axes) (h1 : R k1) (h2 : R k2) (hk1 : ∀ e, k1 e ≠ 0) (hk2 : ∀ e, k2 e ≠ 0) :
    Family R (TI.Spec.blurred (g e0) gp axes (x e0)).shape (fun e => ssimMap (k1 e) (k2 e) (covFactor sc N) (TI.Spec.blurred (g e) gp axes) (x e) (y e)) ∧
    Family R (TI.Spec.blurred (g e0) gp axes (x e0)).shape fun e => csMap (k2 e) (covFactor sc N) (TI.Spec.blurred (g e) gp axes) (x e) (y e) := by
  have ha : ∀ g ∈ gp, ∀ i < axes.length, (g.entry i).Affine := fun g hg i hi => (hk g hg i hi).affine
  have hc' : ∀ {v : E → Tensor ℝ}, Family R S v → ∀ e, BlurCall (g e) gp (v e) ax axes p := fun hv e => blurCall_congr (hc e) ((hv.shape e).trans (hx.shape e).symm)
  have hu := hx.shape e0
  have b1 := hq.blurred hR hx e0 hc ha hu
  have b2 := hq.blurred hR hy e0 (hc' hy) ha hu
  have b11 := hq.blurred hR (hx.times hR hx) e0 (hc' (hx.times hR hx)) ha hu
  have b22 := hq.blurred hR (hy.times hR hy) e0 (hc' (hy.times hR hy)) ha hu
  have b12 := hq.blurred hR (hx.times hR hy) e0 (hc' (hx.times hR hy)) ha hu
  have hden : ∀ e ix, InB (TI.Spec.blurred (g e0) gp axes (x e0)).shape ix → _ := fun e ix hix =>
    positive_denominators ((blurred_possible (y2 := y e) (hc e) (hav e) hk ((hy.shape e).trans (hx.shape e).symm)).possible ix
      (by rw [b1.shape e]; exact hix)) (covFactor_nonneg sc N) (pow_pos (abs_pos.2 (hk1 e)) 2) (pow_pos (abs_pos.2 (hk2 e)) 2)
  simp only [sq_abs] at hden
  have hnum : ∀ ix, InB (TI.Spec.blurred (g e0) gp axes (x e0)).shape ix → _ := fun ix hix =>
    hR.add (hR.mul (hR.const 2) (hR.mul (hR.const (covFactor sc N)) (hR.sub (b12.entry ix hix) (hR.mul (b1.entry ix hix) (b2.entry ix hix))))) (hR.sq h2)
  have hvar : ∀ ix, InB (TI.Spec.blurred (g e0) gp axes (x e0)).shape ix → _ := fun ix hix =>
    hR.add (hR.add (hR.mul (hR.const (covFactor sc N)) (hR.sub (b11.entry ix hix) (hR.sq (b1.entry ix hix))))
      (hR.mul (hR.const (covFactor sc N)) (hR.sub (b22.entry ix hix) (hR.sq (b2.entry ix hix))))) (hR.sq h2)
  refine ⟨⟨fun e => b1.shape e, fun ix hix => ?_⟩, fun e => b1.shape e, fun ix hix => ?_⟩
  · have hl := hR.add (hR.mul (hR.const 2) (hR.mul (b1.entry ix hix) (b2.entry ix hix))) (hR.sq h1)
    have hm := hR.add (hR.add (hR.sq (b1.entry ix hix)) (hR.sq (b2.entry ix hix))) (hR.sq h1)
    have := hR.div (hR.mul hl (hnum ix hix)) (hR.mul hm (hvar ix hix)) fun e => (mul_pos (hden e ix hix).1 (hden e ix hix).2).ne'
    refine (congrArg R (funext fun e => ?_)).mp this
    rw [ssimMap, get_ofFn (by rw [b1.shape e]; exact hix), ssimIndex]
  · have := hR.div (hnum ix hix) (hvar ix hix) fun e => (hden e ix hix).2.ne'
    refine (congrArg R (funext fun e => ?_)).mp this
    rw [csMap, get_ofFn (by rw [b1.shape e]; exact hix), csIndex]

/-- the scores of a level -/
theorem Spec.Weights.scores {cr : Bool} (hR : Arithmetic R) (hq : Weights R axes.length (.one (some 1)) K fun e => PoolArgs.filter (g e)) (hx : Family R S x) (hy : Family R S y) (e0 : E) {r : Nat}
    (h : ∀ e, MsAt (g e) gp cr r (x e) axes p) (hp : ∀ e, MsPossible (g e) gp cr axes (k1 e) (k2 e)) (h1 : R k1) (h2 : R k2) (last : Bool) :
    Family R (onesAt axes S) fun e => levelScore (k1 e) (k2 e) (covFactor sc N) (scoreBlur (g e) gp cr axes) axes last (x e) (y e) := by
  have ho := ((h e0).map_shape (y2 := x e0) (ssimIndex (k1 e0 ^ 2) (k2 e0 ^ 2) (covFactor sc N))).2
  rw [hx.shape] at ho
  obtain ⟨gp', p', hb, hk, hs⟩ : ∃ gp' p', (∀ e, BlurCall (g e) gp' (x e) (.seq (castV axes)) axes p') ∧ KeepsMoments gp' axes ∧ ∀ e, scoreBlur (g e) gp cr axes = TI.Spec.blurred (g e) gp' axes := by
    cases cr with
    | true => exact ⟨none, none, fun e => (h e).unpadded.blurCall, fun g hg => (by cases hg), fun _ => rfl⟩
    | false => exact ⟨gp, p, fun e => (h e).blurCall, (hp e0).keeps rfl, fun _ => rfl⟩
  simp only [hs] at ho ⊢
  obtain ⟨m1, m2⟩ := hq.maps (sc := sc) (N := N) hR hx hy e0 hb (fun e => (hp e).average) hk h1 h2 (fun e => (hp e).k1_ne) fun e => (hp e).k2_ne
  have ho' : onesAt axes (TI.Spec.blurred (g e0) gp' axes (x e0)).shape = onesAt axes S := ho
  rw [← ho']
  cases last
  · exact m2.meanKept hR axes
  · exact m1.meanKept hR axes

/-- the scores of all levels, combined -/
theorem Spec.Weights.msMap {cr : Bool} (hR : Arithmetic R) (hq : Weights R axes.length (.one (some 1)) K fun e => PoolArgs.filter (g e)) (hx : Family R S x) (hy : Family R S y) (e0 : E) {L : Nat}
    {ws : E → List ℝ} (hw : ∀ e, (ws e).length = L) {up : Bool} {eps : ℝ} (h : ∀ e, MsCall (g e) gp cr L (x e) ax axes p) (hp : ∀ e, MsPossible (g e) gp cr axes (k1 e) (k2 e)) (h1 : R k1) (h2 : R k2)
    (hT : ∀ i < L, ∀ jx, InB (onesAt axes S) jx →
      R (fun e => (levelScore (k1 e) (k2 e) (covFactor sc N) (scoreBlur (g e) gp cr axes) axes (decide (i + 1 = L)) (atLevel axes i (x e)) (atLevel axes i (y e))).get jx) →
      R (fun e => msTerm up eps ((ws e).getD i 0)
        ((levelScore (k1 e) (k2 e) (covFactor sc N) (scoreBlur (g e) gp cr axes) axes (decide (i + 1 = L)) (atLevel axes i (x e)) (atLevel axes i (y e))).get jx))) :
    Family R (onesAt axes S) fun e => TI.Spec.msMap up eps (k1 e) (k2 e) (covFactor sc N) (scoreBlur (g e) gp cr axes) axes (ws e) (x e) (y e) where
  shape e := by
    rw [← hx.shape e]
    rfl
  entry jx hjx := by
    have hl := hR.total up (l := List.range L)
      (v := fun i e => msTerm up eps ((ws e).getD i 0)
        ((levelScore (k1 e) (k2 e) (covFactor sc N) (scoreBlur (g e) gp cr axes) axes (decide (i + 1 = L)) (atLevel axes i (x e)) (atLevel axes i (y e))).get jx)) (by
        intro i hi
        have hi := List.mem_range.1 hi
        refine hT i hi jx hjx ?_
        obtain ⟨M, rfl⟩ : ∃ M, L = M + 1 := ⟨L - 1, by omega⟩
        have hat : ∀ e, MsAt (g e) gp cr (M - i + i) (x e) axes p := fun e => by rw [Nat.sub_add_cancel (by omega)]; exact (h e).at
        have hlx := hx.level hR i (hat e0) (hx.shape e0)
        have hly := hy.level hR i (hat e0) (hx.shape e0)
        have := hq.scores (sc := sc) (N := N) hR hlx hly e0 (fun e => MsAt.level i (hat e)) hp h1 h2 (decide (i + 1 = M + 1))
        rw [onesAt_level i (hat e0), hx.shape] at this
        exact this.entry jx hjx)
    refine (congrArg R (funext fun e => ?_)).mp hl
    rw [TI.Spec.msMap, get_ofFn (by rw [hx.shape]; exact hjx), hw]
    simp only [msLevel, hw]

end

variable {E : Type} [NormedAddCommGroup E] [NormedSpace ℝ E] {n : WithTop ℕ∞} {e0 : E} {S : List Nat} {y1 y2 : E → Tensor ℝ}
  {s : E → SSIM ℝ} {pool : E → SepPool ℝ} {a : E → PoolArgs ℝ} {m : Nat} {gp : Option (PadArgs ℝ)} {ax rax : Axes}
  {axes raxes : List Nat} {p : Option (Padder ℝ)} {k1 k2 : E → ℝ} {sc cr : Bool} {K : Nat → Nat}

/-- **C161.** SSIM is an `n` times continuously differentiable function of the images, of the weights of its window and of its two constants at once: where all of these are such functions of a parameter,
with windows of fixed sizes that average and constants that are not zero, the score and the map are such functions of the parameter. -/
theorem C161_ssim (hi : ∀ e, SSIM.init (pool e) false (k1 e) (k2 e) sc cr = .ok (s e)) (hb : ∀ e, Built (pool e) (a e) m) (hm : ∀ e, (a e).kernel.isMany = true → axes.length = m)
    (hq : Weights (fun f => ContDiffAt ℝ n f e0) axes.length (.one (some 1)) K fun e => PoolArgs.filter (a e).kernel) (h1 : SmoothAt n e0 S y1) (h2 : SmoothAt n e0 S y2)
    (hK1 : ContDiffAt ℝ n k1 e0) (hK2 : ContDiffAt ℝ n k2 e0) (h : ∀ e, BlurCall (a e).kernel gp (y1 e) ax axes p)
    (hN : sc = true → windowSize (a e0).kernel axes.length ≠ 1) (hr : axesOf S.length rax = some raxes) (hrn : raxes.Nodup) (hc : cr = false ∨ gp = none)
    (hav : ∀ e, Averages (a e).kernel axes) (hk : KeepsMoments gp axes) (hk1 : ∀ e, k1 e ≠ 0) (hk2 : ∀ e, k2 e ≠ 0) (junk : List Nat → ℝ) :
    ∃ T U score full, (∀ e, ((s e).forward junk (y1 e) (y2 e) ax rax p).2 = .ok (score e, full e)) ∧ SmoothAt n e0 T score ∧ SmoothAt n e0 U full ∧
      ((∀ k ∈ reducedAxes S.length raxes, 0 < S.getD k 0) → n ≠ 0 → y1 e0 = y2 e0 → ∀ jx, InB T jx → HasFDerivAt (fun e => (score e).get jx) (0 : E →L[ℝ] ℝ) e0) := by
  have hw := fun e => hq.windowSize_eq e e0
  have h12 : ∀ e, (y2 e).shape = (y1 e).shape := fun e => (h2.shape e).trans (h1.shape e).symm
  have hfull := (hq.maps (sc := sc) (N := windowSize (a e0).kernel axes.length) arithmetic_contDiffAt h1 h2 e0 h hav hk hK1 hK2 hk1 hk2).1
  have hscore := hfull.meanOver arithmetic_contDiffAt raxes
  refine ⟨_, _, _, _, fun e => ?_, hscore, hfull, ?_⟩
  · rw [C79_formula (hi e) (hb e) (hm e) (h e) (by rw [hw]; exact hN) (h12 e) (by rw [Tensor.ndim, h1.shape]; exact hr) hrn hc junk, hw e]
  intro hpos hn heq jx hjx
  have hpos' : ∀ e, ∀ k ∈ reducedAxes (y1 e).ndim raxes, 0 < (y1 e).shape.getD k 0 := fun e => by rw [Tensor.ndim, h1.shape]; exact hpos
  have hle : ∀ e, _ := fun e => meanOver_between (raxes := raxes)
    (ssimMap_between (sc := sc) (h e) (hav e) hk (h12 e) (hk1 e) (hk2 e) (windowSize (a e0).kernel axes.length)) (ssimMap_pos (h e) (hpos' e)) jx
    (by rw [hscore.shape e]; exact hjx)
  have hone : (meanOver (ssimMap (k1 e0) (k2 e0) (covFactor sc (windowSize (a e0).kernel axes.length)) (blurred (a e0).kernel gp axes) (y1 e0) (y2 e0)) raxes).get jx = 1 := by
    have := meanOver_constant (raxes := raxes) (ssimMap_self (sc := sc) (h e0) (hav e0) hk (hk1 e0) (hk2 e0) (windowSize (a e0).kernel axes.length)) (ssimMap_pos (h e0) (hpos' e0)) jx
    rw [← heq]
    refine this ?_
    have hh := hscore.shape e0
    rw [← heq] at hh
    rw [hh]
    exact hjx
  have hmax : IsLocalMax (fun e => (meanOver (ssimMap (k1 e) (k2 e) (covFactor sc (windowSize (a e0).kernel axes.length)) (blurred (a e).kernel gp axes) (y1 e) (y2 e)) raxes).get jx) e0 :=
    Filter.Eventually.of_forall fun e => (hle e).2.trans hone.ge
  have := ((hscore.entry jx hjx).differentiableAt hn).hasFDerivAt
  rwa [hmax.fderiv_eq_zero] at this

variable {size : Given Nat} {sigma : E → Given ℝ} {st : Given (Option Nat)}

/-- **C161** for the window of a `GaussianPoolNd`, as SSIM uses by default: SSIM is smooth in the sigmas, the constants and the pixels, and at equal images none of them changes the score to first order. -/
theorem C161_gaussian (hm0 : 0 < m) (hs : size.Fits m) (hg : ∀ e, (sigma e).Fits m) (hst : st.Fits m) (hv : ∀ s ∈ st.values, s ≠ some 0)
    (hnz : ∀ e, ∀ s ∈ (sigma e).values, s ≠ 0) (hσ : ∀ i < m, ContDiffAt ℝ n (fun e => (sigma e).entry 1 i) e0) (hm : axes.length = m) (h1 : SmoothAt n e0 S y1) (h2 : SmoothAt n e0 S y2)
    (hK1 : ContDiffAt ℝ n k1 e0) (hK2 : ContDiffAt ℝ n k2 e0) (h : ∀ e, BlurCall (gaussKernels m size (sigma e) (.one 0)) gp (y1 e) ax axes p)
    (hN : sc = true → windowSize (gaussKernels m size (sigma e0) (.one 0)) axes.length ≠ 1) (hr : axesOf S.length rax = some raxes) (hrn : raxes.Nodup) (hc : cr = false ∨ gp = none)
    (hk : KeepsMoments gp axes) (hk1 : ∀ e, k1 e ≠ 0) (hk2 : ∀ e, k2 e ≠ 0) (junk : List Nat → ℝ) :
    ∃ (pool : E → SepPool ℝ) (s : E → SSIM ℝ),
      (∀ e, SepPool.gaussInit (size.toPy pyNat) ((sigma e).toPy Py.leaf) (.leaf 0) (st.toPy PoolArgs.pyStride) = .ok (pool e) ∧ SSIM.init (pool e) false (k1 e) (k2 e) sc cr = .ok (s e)) ∧
      ∃ T U score full, (∀ e, ((s e).forward junk (y1 e) (y2 e) ax rax p).2 = .ok (score e, full e)) ∧ SmoothAt n e0 T score ∧ SmoothAt n e0 U full ∧
        ((∀ k ∈ reducedAxes S.length raxes, 0 < S.getD k 0) → n ≠ 0 → y1 e0 = y2 e0 → ∀ jx, InB T jx → HasFDerivAt (fun e => (score e).get jx) (0 : E →L[ℝ] ℝ) e0) := by
  choose pool e1 hb e3 using fun e => C34_gaussian_kernels (order := .one 0) (st := st) hm0 hs (hg e) trivial hst hv (hnz e)
  choose g hg' _ using fun e => (hb e).poolIs.1.toFilter
  have hq : Weights (fun f => ContDiffAt ℝ n f e0) axes.length (.one (some 1)) (fun i => size.entry 0 i) fun e => PoolArgs.filter (gaussKernels m size (sigma e) (.one 0)) := by
    refine gauss_weights (fun i hi => hσ i (hm ▸ hi)) (fun e i hi => ?_) fun _ _ => hm
    exact hnz e _ (entry_mem (hg e) 1 fun _ => hm ▸ hi)
  have hi : ∀ e, SSIM.init (pool e) false (k1 e) (k2 e) sc cr = .ok ⟨g e, false, k1 e, k2 e, sc, cr⟩ := fun e => by simp only [SSIM.init, hg', ok_bind]
  refine ⟨pool, fun e => ⟨g e, false, k1 e, k2 e, sc, cr⟩, fun e => ⟨e1 e, hi e⟩, ?_⟩
  refine C161_ssim hi hb (fun _ _ => hm) hq h1 h2 hK1 hK2 h hN hr hrn hc (fun e i hi hne => ?_) hk hk1 hk2 junk
  exact e3 e (by simp [Given.values]) axes hm _ (List.mem_map.2 ⟨i, List.mem_range.2 hi, rfl⟩) hne

/-- a Gaussian window of three weights with a sigma of `e² + 1`, constants `e² + 1` and `1`, on images of four pixels one of which moves: SSIM is smooth in `e`, and is stationary in `e` at `e = 1` -/
example (junk : List Nat → ℝ) : ∃ (pool : ℝ → SepPool ℝ) (s : ℝ → SSIM ℝ),
    (∀ e, SepPool.gaussInit (.leaf 3) (.leaf (e ^ 2 + 1)) (.leaf 0) (.leaf none) = .ok (pool e) ∧ SSIM.init (pool e) false (e ^ 2 + 1) 1 true false = .ok (s e)) ∧
    ∃ T U score full, (∀ e, ((s e).forward junk (ofFn [4] fun ix => if ix = [2] then e else 1) (ofFn [4] fun _ => 1) (.int 0) .none none).2 = .ok (score e, full e)) ∧
      SmoothAt ⊤ 1 T score ∧ SmoothAt ⊤ 1 U full ∧ ∀ jx, InB T jx → HasFDerivAt (fun e => (score e).get jx) (0 : ℝ →L[ℝ] ℝ) 1 := by
  have hx : SmoothAt ⊤ 1 [4] fun e : ℝ => ofFn [4] fun ix => if ix = [2] then e else 1 := by
    refine ⟨fun _ => rfl, fun ix hix => ?_⟩
    simp only [get_ofFn hix]
    split_ifs
    · exact contDiffAt_id
    · exact contDiffAt_const
  have hy : SmoothAt ⊤ 1 [4] fun _ : ℝ => ofFn [4] fun _ => (1 : ℝ) := ⟨fun _ => rfl, fun ix _ => contDiffAt_const⟩
  obtain ⟨pool, s, h1, T, U, score, full, h2, h3, h4, h5⟩ := C161_gaussian (n := ⊤) (e0 := (1 : ℝ)) (m := 1) (size := .one 3) (st := .one none) (sigma := fun e : ℝ => .one (e ^ 2 + 1)) (axes := [0])
    (ax := .int 0) (rax := .none) (raxes := [0]) (gp := none) (p := none) (sc := true) (cr := false) (k1 := fun e => e ^ 2 + 1) (k2 := fun _ => 1)
    one_pos trivial (fun _ => trivial) trivial (by simp [Given.values]) (fun e s hs => by simp [Given.values] at hs; rw [hs]; positivity)
    (fun i _ => (contDiffAt_id.pow 2).add contDiffAt_const) rfl hx hy ((contDiffAt_id.pow 2).add contDiffAt_const) contDiffAt_const
    (fun e => ⟨rfl, rfl, fun _ => ⟨by simp [ndim, PoolArgs.op], Nat.one_pos, by simp [PoolArgs.op, PoolArgs.filter, gaussKernels, Given.isMany, Given.entry, gaussWeights_length]⟩, trivial⟩)
    (fun _ => by simp [windowSize, gaussKernels, Given.isMany, Given.entry, gaussWeights_length]) rfl (by decide) (Or.inl rfl) (by intro g hg; cases hg) (fun e => by positivity) (fun _ => one_ne_zero) junk
  refine ⟨pool, s, h1, T, U, score, full, h2, h3, h4, h5 (by decide) (by simp) ?_⟩
  congr 1
  funext ix
  split_ifs <;> rfl

variable {ws : E → List ℝ} {L : Nat} {up : Bool} {eps : ℝ}

/-- a term of the product form, as a function of the score of the level and of its weight -/
theorem contDiffAt_power {w : E → ℝ} (heps : 0 < eps) {v : E → ℝ} (hv : ContDiffAt ℝ n v e0) (hw : ContDiffAt ℝ n w e0) (hne : v e0 ≠ eps) : ContDiffAt ℝ n (fun e => max (v e) eps ^ w e) e0 := by
  rcases lt_or_gt_of_ne hne with hlt | hgt
  · refine ((contDiffAt_const (c := eps)).rpow hw heps.ne').congr_of_eventuallyEq ?_
    filter_upwards [hv.continuousAt.eventually_lt continuousAt_const hlt] with e he
    rw [max_eq_right he.le]
  · refine (hv.rpow hw (heps.trans hgt).ne').congr_of_eventuallyEq ?_
    filter_upwards [continuousAt_const.eventually_lt hv.continuousAt hgt] with e he
    rw [max_eq_left he.le]

/-- **C161**: MS-SSIM is such a function of the images, of the weights of its window, of its constants and of the weights of its levels at once; the product form, for `eps > 0`, where no score of a level is
equal to `eps`. -/
theorem C161_msssim (hi : ∀ e, SSIM.init (pool e) false (k1 e) (k2 e) sc cr = .ok (s e)) (hb : ∀ e, Built (pool e) (a e) m) (hm : ∀ e, (a e).kernel.isMany = true → axes.length = m)
    (hq : Weights (fun f => ContDiffAt ℝ n f e0) axes.length (.one (some 1)) K fun e => PoolArgs.filter (a e).kernel) (h1 : SmoothAt n e0 S y1) (h2 : SmoothAt n e0 S y2)
    (hK1 : ContDiffAt ℝ n k1 e0) (hK2 : ContDiffAt ℝ n k2 e0) (hL : 2 ≤ L) (hw : ∀ e, (ws e).length = L) (hW : ∀ i < L, ContDiffAt ℝ n (fun e => (ws e).getD i 0) e0)
    (h : ∀ e, MsCall (a e).kernel gp cr L (y1 e) ax axes p) (hN : sc = true → windowSize (a e0).kernel axes.length ≠ 1) (hr : axesOf S.length rax = some raxes) (hrn : raxes.Nodup)
    (hp : ∀ e, MsPossible (a e).kernel gp cr axes (k1 e) (k2 e))
    (hup : up = true → 0 < eps ∧ ∀ i < L, ∀ jx, InB (onesAt axes S) jx →
      (levelScore (k1 e0) (k2 e0) (covFactor sc (windowSize (a e0).kernel axes.length)) (scoreBlur (a e0).kernel gp cr axes) axes (decide (i + 1 = L))
        (atLevel axes i (y1 e0)) (atLevel axes i (y2 e0))).get jx ≠ eps) (junk : List Nat → ℝ) :
    ∃ T score, (∀ e, ((⟨s e, ws e, up, eps⟩ : MsSsim).forward junk (y1 e) (y2 e) ax rax p).2 = .ok (score e)) ∧ SmoothAt n e0 T score := by
  have hws := fun e => hq.windowSize_eq e e0
  refine ⟨_, fun e => _, fun e => ?_, Family.meanOver arithmetic_contDiffAt (hq.msMap (sc := sc) (N := windowSize (a e0).kernel axes.length) (up := up) (eps := eps)
    arithmetic_contDiffAt h1 h2 e0 hw h hp hK1 hK2 ?_) raxes⟩
  · rw [C80_formula (hi e) (hb e) (hm e) (by rw [hw]; exact hL) (by rw [hw]; exact h e) (by rw [hws]; exact hN) ((h2.shape e).trans (h1.shape e).symm)
      (by rw [Tensor.ndim, h1.shape]; exact hr) hrn up eps junk, hws e]
  intro i hi' jx hjx hv
  cases up with
  | false => exact hv.mul (hW i hi')
  | true => exact contDiffAt_power (hup rfl).1 hv (hW i hi') ((hup rfl).2 i hi' jx hjx)

/-- **C161** for MS-SSIM with the window of a `GaussianPoolNd`, in the sum form. -/
theorem C161_msssim_gaussian (hm0 : 0 < m) (hs : size.Fits m) (hg : ∀ e, (sigma e).Fits m) (hst : st.Fits m) (hv : ∀ s ∈ st.values, s ≠ some 0)
    (hnz : ∀ e, ∀ s ∈ (sigma e).values, s ≠ 0) (hσ : ∀ i < m, ContDiffAt ℝ n (fun e => (sigma e).entry 1 i) e0) (hm : axes.length = m) (h1 : SmoothAt n e0 S y1) (h2 : SmoothAt n e0 S y2)
    (hK1 : ContDiffAt ℝ n k1 e0) (hK2 : ContDiffAt ℝ n k2 e0) (hL : 2 ≤ L) (hw : ∀ e, (ws e).length = L) (hW : ∀ i < L, ContDiffAt ℝ n (fun e => (ws e).getD i 0) e0)
    (h : ∀ e, MsCall (gaussKernels m size (sigma e) (.one 0)) gp cr L (y1 e) ax axes p)
    (hN : sc = true → windowSize (gaussKernels m size (sigma e0) (.one 0)) axes.length ≠ 1) (hr : axesOf S.length rax = some raxes) (hrn : raxes.Nodup)
    (hk : cr = false → KeepsMoments gp axes) (hk1 : ∀ e, k1 e ≠ 0) (hk2 : ∀ e, k2 e ≠ 0) (junk : List Nat → ℝ) :
    ∃ (pool : E → SepPool ℝ) (s : E → SSIM ℝ),
      (∀ e, SepPool.gaussInit (size.toPy pyNat) ((sigma e).toPy Py.leaf) (.leaf 0) (st.toPy PoolArgs.pyStride) = .ok (pool e) ∧ SSIM.init (pool e) false (k1 e) (k2 e) sc cr = .ok (s e)) ∧
      ∃ T score, (∀ e, ((⟨s e, ws e, false, eps⟩ : MsSsim).forward junk (y1 e) (y2 e) ax rax p).2 = .ok (score e)) ∧ SmoothAt n e0 T score := by
  choose pool e1 hb e3 using fun e => C34_gaussian_kernels (order := .one 0) (st := st) hm0 hs (hg e) trivial hst hv (hnz e)
  choose g hg' _ using fun e => (hb e).poolIs.1.toFilter
  have hq : Weights (fun f => ContDiffAt ℝ n f e0) axes.length (.one (some 1)) (fun i => size.entry 0 i) fun e => PoolArgs.filter (gaussKernels m size (sigma e) (.one 0)) := by
    refine gauss_weights (fun i hi => hσ i (hm ▸ hi)) (fun e i hi => ?_) fun _ _ => hm
    exact hnz e _ (entry_mem (hg e) 1 fun _ => hm ▸ hi)
  have hi : ∀ e, SSIM.init (pool e) false (k1 e) (k2 e) sc cr = .ok ⟨g e, false, k1 e, k2 e, sc, cr⟩ := fun e => by simp only [SSIM.init, hg', ok_bind]
  refine ⟨pool, fun e => ⟨g e, false, k1 e, k2 e, sc, cr⟩, fun e => ⟨e1 e, hi e⟩, ?_⟩
  refine C161_msssim hi hb (fun _ _ => hm) hq h1 h2 hK1 hK2 hL hw hW h hN hr hrn (fun e => ⟨fun i hi hne => ?_, hk, hk1 e, hk2 e⟩) (by intro h; cases h) junk
  exact e3 e (by simp [Given.values]) axes hm _ (List.mem_map.2 ⟨i, List.mem_range.2 hi, rfl⟩) hne

/-- MS-SSIM of two levels on images of eight pixels one of which moves, with a Gaussian window of three weights and a sigma of `e² + 1`, and the weights `e` and `1 - e` of the levels -/
example (junk : List Nat → ℝ) : ∃ (pool : ℝ → SepPool ℝ) (s : ℝ → SSIM ℝ),
    (∀ e, SepPool.gaussInit (.leaf 3) (.leaf (e ^ 2 + 1)) (.leaf 0) (.leaf none) = .ok (pool e) ∧ SSIM.init (pool e) false (e ^ 2 + 1) 1 true false = .ok (s e)) ∧
    ∃ T score, (∀ e, ((⟨s e, [e, 1 - e], false, 0⟩ : MsSsim).forward junk (ofFn [8] fun ix => if ix = [2] then e else 1) (ofFn [8] fun _ => 1) (.int 0) .none none).2 = .ok (score e)) ∧
      SmoothAt ⊤ 1 T score := by
  have hx : SmoothAt ⊤ 1 [8] fun e : ℝ => ofFn [8] fun ix => if ix = [2] then e else 1 := by
    refine ⟨fun _ => rfl, fun ix hix => ?_⟩
    simp only [get_ofFn hix]
    split_ifs
    · exact contDiffAt_id
    · exact contDiffAt_const
  have hy : SmoothAt ⊤ 1 [8] fun _ : ℝ => ofFn [8] fun _ => (1 : ℝ) := ⟨fun _ => rfl, fun ix _ => contDiffAt_const⟩
  refine C161_msssim_gaussian (n := ⊤) (e0 := (1 : ℝ)) (m := 1) (size := .one 3) (st := .one none) (sigma := fun e : ℝ => .one (e ^ 2 + 1)) (axes := [0]) (L := 2) (ws := fun e => [e, 1 - e])
    (ax := .int 0) (rax := .none) (raxes := [0]) (gp := none) (p := none) (sc := true) (cr := false) (k1 := fun e => e ^ 2 + 1) (k2 := fun _ => 1)
    one_pos trivial (fun _ => trivial) trivial (by simp [Given.values]) (fun e s hs => by simp [Given.values] at hs; rw [hs]; positivity)
    (fun i _ => (contDiffAt_id.pow 2).add contDiffAt_const) rfl hx hy ((contDiffAt_id.pow 2).add contDiffAt_const) contDiffAt_const le_rfl (fun _ => rfl) (fun i hi => ?_)
    (fun e => ?_)
    (fun _ => by simp [windowSize, gaussKernels, Given.isMany, Given.entry, gaussWeights_length]) rfl (by decide) (by intro _ g hg; cases hg) (fun e => by positivity) (fun _ => one_ne_zero) junk
  · rcases i with _ | _ | i
    · exact contDiffAt_id
    · exact contDiffAt_const.sub contDiffAt_id
    · omega
  · refine msCall_one (L := 2) ?_ rfl (by decide) (by decide) ?_
    · intro h0
      have := congrArg List.length h0
      simp [gaussWeights_length, Given.entry] at this
    · intro k hk
      rw [gaussWeights_length]
      simp at hk
      subst hk
      exact (by decide : 3 * 2 ^ 2 < 2 * 8)

end TI
