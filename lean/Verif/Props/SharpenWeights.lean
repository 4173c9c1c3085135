import Verif.Props.SmoothSharpen
import Verif.Props.SharpenLimit

/-!
# Unsharp masking as a function of its blur, amount and threshold (C166)
-/

set_option linter.unusedSectionVars false

namespace TI
open Tensor Spec Filter Topology

variable {E : Type} [NormedAddCommGroup E] [NormedSpace ℝ E] {n : WithTop ℕ∞} {e0 : E} {S : List Nat} {x : E → Tensor ℝ} {pool : E → SepPool ℝ} {pool' : SepPool ℝ} {g : E → PoolArgs ℝ} {m : Nat}
  {gp : PadArgs ℝ} {ax : Axes} {axes : List Nat} {p : Padder ℝ} {amount threshold : E → ℝ} {u : E → UnsharpMask ℝ} {K : Nat → Nat}

/-- **C166.** The sharpened image is an `n` times continuously differentiable function of the image, of the weights of the blur and of the amount at once, if there is no threshold, or, with a threshold
that varies continuously, where no pixel differs from the blurred one by exactly the threshold. -/
theorem C166_sharpen (hb : ∀ e, Built (pool e) (g e) m) (hu : ∀ e, UnsharpMask.init (pool e) (amount e) (threshold e) = .ok (u e)) (hf : (pool e0).toFilter = .ok pool') (hx : SmoothAt n e0 S x)
    (hw : Weights (fun f => ContDiffAt ℝ n f e0) axes.length (.one (some 1)) K fun e => PoolArgs.filter (g e).kernel) (ha : ContDiffAt ℝ n amount e0) (ht : ContinuousAt threshold e0)
    (h : ∀ e, SharpenCall (g e).kernel m gp (x e) ax axes) (hp : Holds p gp) (hl : ∀ i < axes.length, (gp.entry i).Affine) (junk : List Nat → ℝ)
    (hne : (∀ e, threshold e ≤ 0) ∨ ∀ y, (pool'.forward (some p) junk (x e0) ax).2 = .ok y → ∀ ix, InB S ix → |(x e0).get ix - y.get ix| ≠ threshold e0) :
    ∃ z : E → Tensor ℝ, (∀ e, ((u e).forward (some p) junk (x e) ax).2 = .ok (z e)) ∧ SmoothAt n e0 S z := by
  refine ⟨fun e => sharpenedImage (amount e) (threshold e) (g e).kernel gp (x e) axes, fun e => ?_, fun e => hx.shape e, fun ix hix => ?_⟩
  · obtain ⟨q, e1⟩ := unsharp_form (hb e) (hu e) (h e) hp junk
    rw [e1]
  obtain ⟨T, hT⟩ := hw.same arithmetic_contDiffAt hx e0 (fun e => (h e).call) hl
  have hT' : Family (fun f => ContDiffAt ℝ n f e0) T fun e => filtered (g e).kernel gp (x e) axes := hT
  have hTS : T = S := (hT'.shape e0).symm.trans ((filtered_same_shape (h e0)).trans (hx.shape e0))
  have hfil := hT'.entry ix (hTS ▸ hix)
  have hent := hx.entry ix hix
  have hform : ∀ e, (sharpenedImage (amount e) (threshold e) (g e).kernel gp (x e) axes).get ix =
      sharpened (amount e) (threshold e) ((x e).get ix) ((filtered (g e).kernel gp (x e) axes).get ix) := fun e => by
    rw [sharpenedImage, get_ofFn (by rw [hx.shape]; exact hix)]
  simp only [hform]
  have hfull : ContDiffAt ℝ n (fun e => (x e).get ix + amount e * ((x e).get ix - (filtered (g e).kernel gp (x e) axes).get ix)) e0 := hent.add (ha.mul (hent.sub hfil))
  rcases hne with h0 | hne
  · simp only [C45_threshold_nonpos _ (h0 _)]
    exact hfull
  have hne := hne _ (filter_form (hb e0) hf (h e0) hp junk) ix hix
  have hc : ContinuousAt (fun e => |(x e).get ix - (filtered (g e).kernel gp (x e) axes).get ix|) e0 := (hent.sub hfil).continuousAt.abs
  rcases lt_or_gt_of_ne hne with hlt | hgt
  · refine hent.congr_of_eventuallyEq ?_
    filter_upwards [hc.eventually_lt ht hlt] with e he
    rw [sharpened, if_pos he]
  · refine hfull.congr_of_eventuallyEq ?_
    filter_upwards [ht.eventually_lt hc hgt] with e he
    rw [sharpened, if_neg (not_lt.2 he.le)]

variable {size order : Given Nat} {sigma : E → Given ℝ} {st : Given (Option Nat)}

/-- **C166** for a Gaussian blur: smooth in the sigmas -/
theorem C166_gaussian (hm0 : 0 < m) (hs : size.Fits m) (hg : ∀ e, (sigma e).Fits m) (ho : order.Fits m) (hst : st.Fits m) (hv : ∀ s ∈ st.values, s ≠ some 0) (hnz : ∀ e, ∀ s ∈ (sigma e).values, s ≠ 0)
    (hσ : ∀ i < axes.length, ContDiffAt ℝ n (fun e => (sigma e).entry 1 i) e0) (hm : axes.length = m) (hx : SmoothAt n e0 S x) (ha : ContDiffAt ℝ n amount e0) (ht : ContinuousAt threshold e0)
    (h : ∀ e, SharpenCall (gaussKernels m size (sigma e) order) m gp (x e) ax axes) (hp : Holds p gp) (hl : ∀ i < axes.length, (gp.entry i).Affine) :
    ∃ (pool : E → SepPool ℝ) (u : E → UnsharpMask ℝ) (blur : SepPool ℝ), (∀ e, SepPool.gaussInit (size.toPy pyNat) ((sigma e).toPy Py.leaf) (order.toPy pyNat) (st.toPy PoolArgs.pyStride) = .ok (pool e)) ∧
      (∀ e, UnsharpMask.init (pool e) (amount e) (threshold e) = .ok (u e)) ∧ (pool e0).toFilter = .ok blur ∧
      ∀ junk, ((∀ e, threshold e ≤ 0) ∨ ∀ y, (blur.forward (some p) junk (x e0) ax).2 = .ok y → ∀ ix, InB S ix → |(x e0).get ix - y.get ix| ≠ threshold e0) →
        ∃ z : E → Tensor ℝ, (∀ e, ((u e).forward (some p) junk (x e) ax).2 = .ok (z e)) ∧ SmoothAt n e0 S z := by
  choose pool h1 h2 _ using fun e => C34_gaussian_kernels (order := order) (st := st) hm0 hs (hg e) ho hst hv (hnz e)
  choose u hu _ using fun e => C45_pooling (h2 e) (amount e) (threshold e)
  obtain ⟨blur, hf, -⟩ := (h2 e0).poolIs.1.toFilter
  refine ⟨pool, u, blur, h1, hu, hf, fun junk hne => ?_⟩
  have hq : Weights (fun f => ContDiffAt ℝ n f e0) axes.length (.one (some 1)) (fun i => size.entry 0 i) fun e => PoolArgs.filter (gaussKernels m size (sigma e) order) :=
    gauss_weights hσ (fun e i hi => hnz e _ (entry_mem (hg e) 1 fun _ => hm ▸ hi)) fun _ _ => hm
  exact C166_sharpen h2 hu hf hx hq ha ht h hp hl junk hne

open GaussLimitExample in
/-- five pixels, blurred with a Gaussian of sigma `1 / (s² + 1)` and sharpened by the amount `s³`: smooth in `s` -/
example (junk : List Nat → ℝ) : ∃ (pool : ℝ → SepPool ℝ) (u : ℝ → UnsharpMask ℝ) (z : ℝ → Tensor ℝ), (∀ s, SepPool.gaussInit (.leaf 4) (.leaf (1 / (s ^ 2 + 1))) (.leaf 0) (.leaf none) = .ok (pool s)) ∧
    (∀ s, UnsharpMask.init (pool s) (s ^ 3) 0 = .ok (u s)) ∧ (∀ s, ((u s).forward (some (mirrored.padder 1)) junk five (.int 0)).2 = .ok (z s)) ∧ SmoothAt (↑(⊤ : ℕ∞)) (2 : ℝ) [5] z := by
  have hq : ContDiffAt ℝ (↑(⊤ : ℕ∞)) (fun s : ℝ => s ^ 2 + 1) 2 := (contDiffAt_id.pow 2).add contDiffAt_const
  have hσ : ContDiffAt ℝ (↑(⊤ : ℕ∞)) (fun s : ℝ => 1 / (s ^ 2 + 1)) 2 := arithmetic_contDiffAt.div contDiffAt_const hq fun s => by positivity
  obtain ⟨pool, u, blur, h1, h2, -, h3⟩ := C166_gaussian (n := (↑(⊤ : ℕ∞))) (e0 := (2 : ℝ)) (S := [5]) (m := 1) (size := .one 4) (order := .one 0) (st := .one none) (sigma := fun s : ℝ => .one (1 / (s ^ 2 + 1)))
    (axes := [0]) (gp := mirrored) (p := mirrored.padder 1) (x := fun _ => five) (ax := .int 0) (amount := fun s => s ^ 3) (threshold := fun _ => 0) one_pos trivial (fun _ => trivial) trivial trivial
    (by simp [Given.values]) (fun e s hs => by simp [Given.values] at hs; rw [hs]; positivity)
    (fun i _ => hσ) rfl ⟨fun _ => rfl, fun ix _ => contDiffAt_const⟩ (contDiffAt_id.pow 3) continuousAt_const
    (fun e => ⟨rfl, five_call e rfl, fun _ => rfl, fun i _ => Or.inl rfl⟩) (holds_padder _ 1) (fun i _ => trivial)
  obtain ⟨z, h4, h5⟩ := h3 junk (.inl fun _ => le_rfl)
  exact ⟨pool, u, z, h1, h2, h4, h5⟩

end TI
