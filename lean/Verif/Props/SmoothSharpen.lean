import Verif.Proofs.Smooth
import Verif.Proofs.Blend
import Verif.Props.SharpenSym

/-!
# Where sharpening is differentiable, and where it jumps (C154)
-/

set_option linter.unusedSectionVars false

namespace TI
open Tensor Spec Filter Topology

variable {E : Type} [NormedAddCommGroup E] [NormedSpace ℝ E] {n : WithTop ℕ∞} {e0 : E} {S : List Nat} {x : E → Tensor ℝ}
  {pool pool' : SepPool ℝ} {g : PoolArgs ℝ} {m : Nat} {gp : PadArgs ℝ} {ax : Axes} {axes : List Nat} {p : Padder ℝ} {amount threshold : ℝ} {u : UnsharpMask ℝ}

/-- the blurring filter of the module -/
theorem filter_form {y : Tensor ℝ} (hb : Built pool g m) (hf : pool.toFilter = .ok pool') (h : SharpenCall g.kernel m gp y ax axes) (hp : Holds p gp) (junk : List Nat → ℝ) :
    (pool'.forward (some p) junk y ax).2 = .ok (filtered g.kernel gp y axes) := by
  have hbf : Built pool' (PoolArgs.filter g.kernel) m := Built.filter hb hf
  have hc : SameCall (PoolArgs.filter g.kernel) gp y ax axes := { h.call with axes_eq := h.axes_eq }
  have hfw := hbf.poolIs.1.forward_same hc (by
    intro hh
    apply h.many
    simpa [PoolArgs.filter, PoolArgs.isMany, Given.isMany] using hh) hp junk
  rw [hfw]
  rfl

theorem filtered_family {E : Type} {R : (E → ℝ) → Prop} {x : E → Tensor ℝ} (hR : Arithmetic R) (hx : Family R S x) {v : Tensor ℝ} (h : SharpenCall g.kernel m gp v ax axes)
    (hv : v.shape = S) (hl : ∀ i < axes.length, (gp.entry i).Affine) : Family R S fun e => filtered g.kernel gp (x e) axes :=
  hx.affine hR (b := fun y => filtered g.kernel gp y axes) (fun y hy => (filtered_same_shape (h.congr (hy.trans hv.symm))).trans hy) fun _ _ y z hab hy hz =>
    filtered_blend hab (h.congr (hy.trans hv.symm)).call hl (hz.trans hy.symm)

/-- **C154.** Images that depend smoothly on a parameter have sharpened images that do so, if there is no threshold, or at a parameter where no sample differs from the blurred
image by exactly the threshold. -/
theorem C154_smooth (hb : Built pool g m) (hu : UnsharpMask.init pool amount threshold = .ok u) (hf : pool.toFilter = .ok pool') (hx : SmoothAt n e0 S x)
    (h : SharpenCall g.kernel m gp (x e0) ax axes) (hp : Holds p gp) (hl : ∀ i < axes.length, (gp.entry i).Affine) (junk : List Nat → ℝ)
    (hne : threshold ≤ 0 ∨ ∀ y, (pool'.forward (some p) junk (x e0) ax).2 = .ok y → ∀ ix, InB S ix → |(x e0).get ix - y.get ix| ≠ threshold) :
    ∃ z : E → Tensor ℝ, (∀ e, (u.forward (some p) junk (x e) ax).2 = .ok (z e)) ∧ SmoothAt n e0 S z := by
  refine ⟨fun e => sharpenedImage amount threshold g.kernel gp (x e) axes, fun e => ?_, fun e => hx.shape e, fun ix hix => ?_⟩
  · obtain ⟨q, e1⟩ := unsharp_form hb hu (h.congr ((hx.shape e).trans (hx.shape e0).symm)) hp junk
    rw [e1]
  have hfil := (filtered_family arithmetic_contDiffAt hx h (hx.shape e0) hl).entry ix hix
  have hent := hx.entry ix hix
  have hform : ∀ e, (sharpenedImage amount threshold g.kernel gp (x e) axes).get ix = sharpened amount threshold ((x e).get ix) ((filtered g.kernel gp (x e) axes).get ix) := fun e => by
    rw [sharpenedImage, get_ofFn (by rw [hx.shape]; exact hix)]
  simp only [hform]
  have hfull : ContDiffAt ℝ n (fun e => (x e).get ix + amount * ((x e).get ix - (filtered g.kernel gp (x e) axes).get ix)) e0 := hent.add (contDiffAt_const.mul (hent.sub hfil))
  rcases hne with ht | hne
  · simp only [C45_threshold_nonpos _ ht]
    exact hfull
  have hne := hne _ (filter_form hb hf h hp junk) ix hix
  have hc : ContinuousAt (fun e => |(x e).get ix - (filtered g.kernel gp (x e) axes).get ix|) e0 := (hent.sub hfil).continuousAt.abs
  rcases lt_or_gt_of_ne hne with hlt | hgt
  · refine hent.congr_of_eventuallyEq ?_
    filter_upwards [hc.eventually_lt continuousAt_const hlt] with e he
    rw [sharpened, if_pos he]
  · refine hfull.congr_of_eventuallyEq ?_
    filter_upwards [continuousAt_const.eventually_lt hc hgt] with e he
    rw [sharpened, if_neg (not_lt.2 he.le)]

theorem multiple_eq (d : Tensor ℝ) (t : ℝ) : (d.map fun v => t * v) = lincomb t d 0 d := by
  rw [lincomb]
  conv_lhs => rw [eq_ofFn_get d, map_ofFn]
  apply ofFn_congr
  intro q _
  simp

/-- a value that is switched on when it reaches the threshold -/
theorem switch_continuous {v w θ a : ℝ} {F : ℝ → ℝ} (hF : ∀ t, F t = sharpened a θ (t * v) (t * w)) : ContinuousAt F 1 ↔ θ ≤ 0 ∨ a = 0 ∨ |v - w| ≠ θ := by
  have hF' : F = fun t => sharpened a θ (t * v) (t * w) := funext hF
  have hs : ∀ t, t * v - t * w = t * (v - w) := fun t => by ring
  constructor
  · intro hc
    by_contra hcon
    push Not at hcon
    obtain ⟨hθ, ha, hvw⟩ := hcon
    have hleft : Tendsto F (𝓝[<] 1) (𝓝 (F 1)) := hc.tendsto.mono_left nhdsWithin_le_nhds
    have hev : (fun t => t * v) =ᶠ[𝓝[<] 1] F := by
      filter_upwards [self_mem_nhdsWithin, mem_nhdsWithin_of_mem_nhds (lt_mem_nhds (show (0 : ℝ) < 1 by norm_num))] with t ht ht0
      rw [hF t, sharpened, if_pos]
      rw [hs, abs_mul, hvw, abs_of_pos ht0]
      have : t < 1 := ht
      nlinarith
    have hid : Tendsto (fun t : ℝ => t * v) (𝓝[<] 1) (𝓝 (1 * v)) := ((continuous_id.mul continuous_const).tendsto 1).mono_left nhdsWithin_le_nhds
    have := tendsto_nhds_unique (hid.congr' hev) hleft
    rw [hF 1, sharpened, if_neg (by rw [hs, one_mul, hvw]; exact lt_irrefl _), hs, one_mul, one_mul] at this
    have hz : a * (v - w) = 0 := by linarith
    rcases mul_eq_zero.1 hz with h | h
    · exact ha h
    · rw [h, abs_zero] at hvw
      linarith
  · intro h
    have hplain : Continuous fun t : ℝ => t * v := continuous_id.mul continuous_const
    have hfull : Continuous fun t : ℝ => t * v + a * (t * v - t * w) := hplain.add (continuous_const.mul (hplain.sub (continuous_id.mul continuous_const)))
    have habs : ContinuousAt (fun t : ℝ => |t * v - t * w|) 1 := ((hplain.sub (continuous_id.mul continuous_const)).abs).continuousAt
    rw [hF']
    rcases h with h | h | h
    · simp only [C45_threshold_nonpos _ h]
      exact hfull.continuousAt
    · simp only [sharpened, h, zero_mul, add_zero, ite_self]
      exact hplain.continuousAt
    · rcases lt_or_gt_of_ne h with h | h
      · refine hplain.continuousAt.congr ?_
        filter_upwards [habs.eventually_lt continuousAt_const (by simpa using h)] with t ht
        rw [sharpened, if_pos ht]
      · refine hfull.continuousAt.congr ?_
        filter_upwards [continuousAt_const.eventually_lt habs (by simpa using h)] with t ht
        rw [sharpened, if_neg (not_lt.2 ht.le)]

/-- **C154**: a threshold makes sharpening discontinuous.  For the multiples `t * d` of an image, a sample of the sharpened image is continuous at `t = 1` if and only if there is
no threshold, or no sharpening, or the sample of `d` does not differ from the blurred image by exactly the threshold. -/
theorem C154_jump (hb : Built pool g m) (hu : UnsharpMask.init pool amount threshold = .ok u) (hf : pool.toFilter = .ok pool') {d : Tensor ℝ}
    (h : SharpenCall g.kernel m gp d ax axes) (hp : Holds p gp) (hl : ∀ i < axes.length, (gp.entry i).Linear) (junk : List Nat → ℝ) :
    ∃ (z : ℝ → Tensor ℝ) (y : Tensor ℝ), (∀ t : ℝ, (u.forward (some p) junk (d.map fun v => t * v) ax).2 = .ok (z t)) ∧ (pool'.forward (some p) junk d ax).2 = .ok y ∧
      ∀ ix, InB d.shape ix → (ContinuousAt (fun t => (z t).get ix) 1 ↔ threshold ≤ 0 ∨ amount = 0 ∨ |d.get ix - y.get ix| ≠ threshold) := by
  refine ⟨fun t => sharpenedImage amount threshold g.kernel gp (d.map fun v => t * v) axes, filtered g.kernel gp d axes, fun t => ?_, filter_form hb hf h hp junk, fun ix hix => ?_⟩
  · obtain ⟨q, e1⟩ := unsharp_form hb hu (h.congr (y := d.map fun v => t * v) rfl) hp junk
    rw [e1]
  · apply switch_continuous
    intro t
    show (sharpenedImage amount threshold g.kernel gp (d.map fun v => t * v) axes).get ix = _
    rw [sharpenedImage, get_ofFn (show InB (d.map fun v => t * v).shape ix from hix), get_map _ _ hix, multiple_eq, filtered_lincomb h.call hl rfl,
      lincomb_get (by rw [filtered_same_shape h]; exact hix), zero_mul, add_zero]

/-- **C154**: the derivative, at an image `y` and in the direction `d`: that of the module without threshold where the difference from the blurred image exceeds the threshold, and
that of the identity where it is smaller. -/
theorem C154_derivative (hb : Built pool g m) (hu : UnsharpMask.init pool amount threshold = .ok u) (hf : pool.toFilter = .ok pool') {y d : Tensor ℝ} (hd : d.shape = y.shape)
    (h : SharpenCall g.kernel m gp y ax axes) (hp : Holds p gp) (hl : ∀ i < axes.length, (gp.entry i).Linear) (junk : List Nat → ℝ) :
    ∃ (z : ℝ → Tensor ℝ) (y' d' : Tensor ℝ), (∀ t : ℝ, (u.forward (some p) junk (lincomb 1 y t d) ax).2 = .ok (z t)) ∧ (pool'.forward (some p) junk y ax).2 = .ok y' ∧
      (pool'.forward (some p) junk d ax).2 = .ok d' ∧ ∀ ix, InB y.shape ix →
        (threshold < |y.get ix - y'.get ix| → HasDerivAt (fun t => (z t).get ix) (d.get ix + amount * (d.get ix - d'.get ix)) 0) ∧
        (|y.get ix - y'.get ix| < threshold → HasDerivAt (fun t => (z t).get ix) (d.get ix) 0) := by
  refine ⟨fun t => sharpenedImage amount threshold g.kernel gp (lincomb 1 y t d) axes, filtered g.kernel gp y axes, filtered g.kernel gp d axes, fun t => ?_, filter_form hb hf h hp junk,
    filter_form hb hf (h.congr hd) hp junk, fun ix hix => ?_⟩
  · obtain ⟨q, e1⟩ := unsharp_form hb hu (h.congr (y := lincomb 1 y t d) rfl) hp junk
    rw [e1]
  have hform : ∀ t, (sharpenedImage amount threshold g.kernel gp (lincomb 1 y t d) axes).get ix =
      sharpened amount threshold (y.get ix + t * d.get ix) ((filtered g.kernel gp y axes).get ix + t * (filtered g.kernel gp d axes).get ix) := by
    intro t
    rw [sharpenedImage, get_ofFn (show InB (lincomb 1 y t d).shape ix from hix), lincomb_get hix, filtered_lincomb h.call hl hd,
      lincomb_get (by rw [filtered_same_shape h]; exact hix), one_mul, one_mul]
  simp only [hform]
  generalize y.get ix = a
  generalize d.get ix = b
  generalize (filtered g.kernel gp y axes).get ix = a'
  generalize (filtered g.kernel gp d axes).get ix = b'
  have line : ∀ a b : ℝ, HasDerivAt (fun t : ℝ => a + t * b) b 0 := fun a b => by
    have := ((hasDerivAt_id (0 : ℝ)).mul_const b).const_add a
    exact this.congr_deriv (one_mul b)
  have hc : ContinuousAt (fun t : ℝ => |a + t * b - (a' + t * b')|) 0 := ((line a b).continuousAt.sub (line a' b').continuousAt).abs
  constructor
  · intro hlt
    have hd := (line a b).add (((line a b).sub (line a' b')).const_mul amount)
    refine hd.congr_of_eventuallyEq ?_
    filter_upwards [continuousAt_const.eventually_lt hc (by simpa using hlt)] with t ht
    rw [sharpened, if_neg (not_lt.2 ht.le)]
    rfl
  · intro hlt
    refine (line a b).congr_of_eventuallyEq ?_
    filter_upwards [hc.eventually_lt continuousAt_const (by simpa using hlt)] with t ht
    rw [sharpened, if_pos ht]

/-! ### examples -/

namespace SmoothSharpenExample
/-- three weights of one quarter -/
noncomputable def args : PoolArgs ℝ := ⟨.one [1 / 4, 1 / 4, 1 / 4], .one none⟩

/-- a circular padder -/
def ring : PadArgs ℝ := ⟨.one (0, 0), .one .circular, .one (0, 0), .one (0, 0), .one (none, none)⟩

/-- an image of fours -/
noncomputable def fours : Tensor ℝ := ofFn [3, 5] fun _ => 4

theorem built : ∃ pool, SepPool.init (args.kernel.toPy PoolArgs.pyKernel) (args.stride.toPy PoolArgs.pyStride) = .ok pool ∧ Built pool args 1 := by
  have hv : args.Valid := by
    intro s hs
    simp only [args, Given.values, List.mem_singleton] at hs
    rw [hs]; simp
  obtain ⟨pool, e, _⟩ := poolIs_init (g := args) Nat.one_pos ⟨trivial, trivial⟩ hv
  exact ⟨pool, e, .separable Nat.one_pos ⟨trivial, trivial⟩ hv e⟩

theorem call {y : Tensor ℝ} (hy : y.shape = [3, 5]) : SharpenCall args.kernel 1 ring y (.int 1) [1] where
  axes_eq := by rw [ndim, hy]; decide
  call :=
    { axes_eq := by rw [ndim, hy]; decide
      ne := by decide
      nodup := by decide
      fits := by intro h; cases h
      rest := ⟨trivial, trivial, trivial, trivial⟩
      stride := fun _ _ => Nat.one_pos
      pos := by rw [hy]; decide
      valued := by
        intro o ho _
        obtain ⟨i, _, rfl⟩ := sameOps_mem ho
        exact ⟨by simp [sameSetting, AxisPad.rule?, ring, Given.entry], by simp [sameSetting, ring, Given.entry]⟩ }
  many := by intro h; cases h
  keep := fun _ _ => Or.inl rfl

theorem linear : ∀ i < [1].length, (ring.entry i).Linear := fun _ _ => trivial

theorem blur_fours {ix : List Nat} (hix : InB [3, 5] ix) : (filtered args.kernel ring fours [1]).get ix = 3 := by
  have e : fours = fours.map fun v => 0 * v + 4 := by
    rw [fours, map_ofFn]
    simp
  rw [e, filtered_map (call rfl).call (fun _ _ => ⟨rfl, rfl, trivial⟩), get_map _ _ (by rw [filtered_same_shape (call rfl)]; exact hix)]
  simp [totalWeight, PoolArgs.ops, PoolArgs.op, PoolArgs.filter, args, Given.entry]
  norm_num

end SmoothSharpenExample

open SmoothSharpenExample in
/-- C154: fours and their blur, threes, differ by one: with this threshold the multiples of the image are not sharpened up to the image itself, and all samples jump there;
with the threshold one half the sharpened multiples are smooth, and the derivative is that without a threshold -/
example (junk : List Nat → ℝ) : ∃ pool pool' u u', SepPool.init (args.kernel.toPy PoolArgs.pyKernel) (args.stride.toPy PoolArgs.pyStride) = .ok pool ∧ pool.toFilter = .ok pool' ∧
    UnsharpMask.init pool 2 1 = .ok u ∧ UnsharpMask.init pool 2 (1 / 2) = .ok u' ∧
    (∃ z : ℝ → Tensor ℝ, (∀ t : ℝ, (u.forward (some (ring.padder 1)) junk (fours.map fun v => t * v) (.int 1)).2 = .ok (z t)) ∧
      ∀ ix, InB [3, 5] ix → ¬ ContinuousAt (fun t => (z t).get ix) 1) ∧
    (∃ z : ℝ → Tensor ℝ, (∀ t : ℝ, (u'.forward (some (ring.padder 1)) junk (lincomb 1 fours t fours) (.int 1)).2 = .ok (z t)) ∧
      ∀ ix, InB [3, 5] ix → HasDerivAt (fun t => (z t).get ix) 6 0) := by
  obtain ⟨pool, e, hb⟩ := built
  obtain ⟨pool', e', -⟩ := hb.poolIs.1.toFilter
  obtain ⟨u, hu, -⟩ := C45_pooling hb 2 1
  obtain ⟨u', hu', -⟩ := C45_pooling hb 2 (1 / 2)
  refine ⟨pool, pool', u, u', e, e', hu, hu', ?_, ?_⟩
  · obtain ⟨z, y, h1, h2, h3⟩ := C154_jump hb hu e' (call (y := fours) rfl) (holds_padder _ 1) linear junk
    rw [filter_form hb e' (call (y := fours) rfl) (holds_padder _ 1) junk] at h2
    cases h2
    refine ⟨z, h1, fun ix hix hc => ?_⟩
    have := (h3 ix hix).1 hc
    rw [blur_fours hix, fours, get_ofFn hix] at this
    norm_num at this
  · obtain ⟨z, y, d, h1, h2, h2', h3⟩ := C154_derivative hb hu' e' (y := fours) (d := fours) rfl (call rfl) (holds_padder _ 1) linear junk
    rw [filter_form hb e' (call (y := fours) rfl) (holds_padder _ 1) junk] at h2 h2'
    cases h2
    cases h2'
    refine ⟨z, h1, fun ix hix => ?_⟩
    have := (h3 ix hix).1
    rw [blur_fours hix, fours, get_ofFn hix] at this
    exact (this (by norm_num)).congr_deriv (by norm_num)

open SmoothSharpenExample in
/-- C154: without a threshold, at any image -/
example {pool pool' : SepPool ℝ} {u : UnsharpMask ℝ} (hb : Built pool args 1) (hf : pool.toFilter = .ok pool') (hu : UnsharpMask.init pool (1 / 2) 0 = .ok u) {x : ℝ → Tensor ℝ}
    (hx : SmoothAt (↑(⊤ : ℕ∞)) (7 : ℝ) [3, 5] x) (junk : List Nat → ℝ) :=
  C154_smooth hb hu hf hx (call (hx.shape 7)) (holds_padder _ 1) (fun i hi => (linear i hi).affine) junk (.inl le_rfl)

end TI
