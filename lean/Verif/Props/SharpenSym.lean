import Verif.Spec.SharpenSym
import Verif.Proofs.EdgeSym
import Verif.Props.Sharpen
import Verif.Props.Transpose

/-!
# Unsharp masking: symmetries and the amount (C112)
-/

set_option linter.unusedSectionVars false

namespace TI
open Tensor Spec

variable {α : Type} [Field α] [LinearOrder α] [IsStrictOrderedRing α] [FloorRing α] {x : Tensor α} {a b d : Nat}
  {pool pool' : SepPool α} {g : PoolArgs α} {m : Nat} {gp : PadArgs α} {ax ax' : Axes} {axes : List Nat} {p : Padder α} {amount threshold c e : α}
  {u u' : UnsharpMask α}

/-- the sharpened image -/
def Spec.sharpenedImage (amount threshold : α) (g : Given (List α)) (gp : PadArgs α) (x : Tensor α) (axes : List Nat) : Tensor α :=
  ofFn x.shape fun ix => sharpened amount threshold (x.get ix) ((filtered g gp x axes).get ix)

theorem Spec.SharpenCall.congr {g : Given (List α)} {y : Tensor α} (h : SharpenCall g m gp x ax axes) (hs : y.shape = x.shape) : SharpenCall g m gp y ax axes where
  axes_eq := by
    have : y.ndim = x.ndim := by rw [ndim, hs]; rfl
    rw [this]; exact h.axes_eq
  call := h.call.congr hs
  many := h.many
  keep := by rw [hs]; exact h.keep

theorem unsharp_form (hb : Built pool g m) (hu : UnsharpMask.init pool amount threshold = .ok u) (h : SharpenCall g.kernel m gp x ax axes)
    (hp : Holds p gp) (junk : List Nat → α) :
    ∃ p', u.forward (some p) junk x ax = (p', .ok (sharpenedImage amount threshold g.kernel gp x axes)) := by
  obtain ⟨u', hu', hf⟩ := C45_pooling hb amount threshold
  rw [hu] at hu'
  cases hu'
  obtain ⟨p', z, q1, q2, q3⟩ := hf h.axes_eq h.call h.many hp h.keep junk
  refine ⟨p', ?_⟩
  rw [q1]
  congr 2
  refine ext_get q2 ?_
  intro ix hix
  rw [q2] at hix
  rw [q3 ix hix, sharpenedImage, get_ofFn hix]

theorem filtered_same_shape {g : Given (List α)} (h : SharpenCall g m gp x ax axes) : (filtered g gp x axes).shape = x.shape :=
  filtered_shape h.call h.keep

/-! ## reversing, moving and exchanging axes -/

/-- **C112**: if the kernels (each with a middle entry, or empty) and the padding settings of axis `d` read the same backwards, the sharpened image of
the image with axis `d` reversed is the reversed sharpened image. -/
theorem C112_mirrored (hb : Built pool g m) (hu : UnsharpMask.init pool amount threshold = .ok u) (h : SharpenCall g.kernel m gp x ax axes) (hp : Holds p gp)
    (hpal : Palindromic d axes (PoolArgs.filter g.kernel) gp)
    (hodd : ∀ i < axes.length, axes.getD i 0 = d → (g.kernel.entry [] i).length % 2 = 1 ∨ g.kernel.entry [] i = []) (junk junk' : List Nat → α) :
    ∃ q q' z, u.forward (some p) junk x ax = (q, .ok z) ∧ u.forward (some p) junk' (flipped d x) ax = (q', .ok (flipped d z)) := by
  obtain ⟨q, e1⟩ := unsharp_form hb hu h hp junk
  obtain ⟨q', e2⟩ := unsharp_form hb hu (h.congr (flipped_shape d x)) hp junk'
  refine ⟨q, q', _, e1, ?_⟩
  rw [e2]
  congr 2
  refine ext_get rfl ?_
  intro ix hix
  have hix' : InB x.shape ix := hix
  have hbal : Balanced d axes (PoolArgs.filter g.kernel) gp (x.shape.getD d 0) := by
    apply balanced_filter hodd
    intro i hi hd hper
    rcases h.keep i hi with hk | hk
    · rw [hk] at hper; cases hper
    · rw [← hd]; exact hk
  have hs := filtered_same_shape h
  rw [sharpenedImage, get_ofFn (show InB (flipped d x).shape ix from hix), filtered_flip h.call hpal hbal, flipped_get hix', flipped_get (by rw [hs]; exact hix'), hs,
    flipped_get (show InB (sharpenedImage amount threshold g.kernel gp x axes).shape ix from hix)]
  rw [sharpenedImage]
  symm
  exact get_ofFn (flip_inB hix')

/-- **C112**: moving the image around an axis moves the sharpened image, if that axis is not sharpened or its padding is circular. -/
theorem C112_rolled (hb : Built pool g m) (hu : UnsharpMask.init pool amount threshold = .ok u) (h : SharpenCall g.kernel m gp x ax axes) (hp : Holds p gp)
    (hbn : b < x.ndim) (hmode : ∀ i < axes.length, axes.getD i 0 = b → gp.mode.entry .unknown i = .circular) (d : Nat) (junk junk' : List Nat → α) :
    ∃ q q' z, u.forward (some p) junk x ax = (q, .ok z) ∧ u.forward (some p) junk' (rolled b d x) ax = (q', .ok (rolled b d z)) := by
  obtain ⟨q, e1⟩ := unsharp_form hb hu h hp junk
  obtain ⟨q', e2⟩ := unsharp_form hb hu (h.congr (rolled_shape b d x)) hp junk'
  refine ⟨q, q', _, e1, ?_⟩
  rw [e2]
  congr 2
  refine ext_get rfl ?_
  intro ix hix
  have hix' : InB x.shape ix := hix
  have hs := filtered_same_shape h
  rw [sharpenedImage, get_ofFn (show InB (rolled b d x).shape ix from hix), filtered_rolled h.call hbn hmode, rolled_get hix', rolled_get (by rw [hs]; exact hix'), hs,
    rolled_get (show InB (sharpenedImage amount threshold g.kernel gp x axes).shape ix from hix)]
  rw [sharpenedImage]
  symm
  exact get_ofFn (roll_inB hix')

theorem Spec.SharpenCall.transposed {g : Given (List α)} (h : SharpenCall g m gp x ax axes) (ha : a < x.ndim) (hb : b < x.ndim)
    (hax : axesOf x.ndim ax' = some (swapAxes a b axes)) : SharpenCall g m gp (Spec.transposed a b x) ax' (swapAxes a b axes) where
  axes_eq := by rw [transposed_ndim]; exact hax
  call := h.call.transposed ha hb (normAxes_castV (by
    intro k hk
    exact (checkAxes_spec hax).2 k hk))
  many := by rw [swapAxes_length]; exact h.many
  keep := by
    intro i hi
    rw [swapAxes_length] at hi
    have e : (swapAxes a b axes).getD i 0 = Equiv.swap a b (axes.getD i 0) := by
      simp [swapAxes, hi]
    rw [e, transposed_size ha hb]
    exact h.keep i hi

/-- **C112**: exchanging two axes of the image, and of the axes to sharpen, exchanges them in the sharpened image. -/
theorem C112_transposed (hb : Built pool g m) (hu : UnsharpMask.init pool amount threshold = .ok u) (h : SharpenCall g.kernel m gp x ax axes) (hp : Holds p gp)
    (ha : a < x.ndim) (hbn : b < x.ndim) (hax : axesOf x.ndim ax' = some (swapAxes a b axes)) (junk junk' : List Nat → α) :
    ∃ q q' z, u.forward (some p) junk x ax = (q, .ok z) ∧ u.forward (some p) junk' (transposed a b x) ax' = (q', .ok (transposed a b z)) := by
  obtain ⟨q, e1⟩ := unsharp_form hb hu h hp junk
  obtain ⟨q', e2⟩ := unsharp_form hb hu (h.transposed ha hbn hax) hp junk'
  refine ⟨q, q', _, e1, ?_⟩
  rw [e2]
  congr 2
  refine ext_get rfl ?_
  intro ix hix
  have hix' : InB (transposed a b x).shape ix := hix
  have hs := filtered_same_shape h
  have hf : filtered g.kernel gp (transposed a b x) (swapAxes a b axes) = transposed a b (filtered g.kernel gp x axes) := same_transposed h.call ha hbn
  rw [sharpenedImage, get_ofFn hix', hf, transposed_get hix', transposed_get (by rw [hs]; exact hix'),
    transposed_get (x := sharpenedImage amount threshold g.kernel gp x axes) hix']
  rw [sharpenedImage]
  symm
  exact get_ofFn (swapAt_inB' ha hbn hix')

/-- **C112**: sharpening a selection of the samples of a batch is selecting from the sharpened batch. -/
theorem C112_batch {index : List Nat} (hb : Built pool g m) (hu : UnsharpMask.init pool amount threshold = .ok u) (h : SharpenCall g.kernel m gp x ax axes)
    (hp : Holds p gp) (hs : Selects b index x.shape) (hba : b ∉ axes) (junk junk' : List Nat → α) :
    ∃ q q' z, u.forward (some p) junk x ax = (q, .ok z) ∧ u.forward (some p) junk' (selected b index x) ax = (q', .ok (selected b index z)) := by
  have h' : SharpenCall g.kernel m gp (selected b index x) ax axes := ⟨by rw [selected_ndim]; exact h.axes_eq, h.call.selected hba, h.many, by
    intro i hi
    rw [selected_size (by intro e; exact hba (e ▸ getD_mem_lt hi))]
    exact h.keep i hi⟩
  obtain ⟨q, e1⟩ := unsharp_form hb hu h hp junk
  obtain ⟨q', e2⟩ := unsharp_form hb hu h' hp junk'
  refine ⟨q, q', _, e1, ?_⟩
  rw [e2]
  congr 2
  refine ext_get rfl ?_
  intro ix hix
  have hix' : InB (selected b index x).shape ix := hix
  have hsh := filtered_same_shape h
  have hf : filtered g.kernel gp (selected b index x) axes = selected b index (filtered g.kernel gp x axes) := same_selected h.call hs hba
  have hix2 : InB (x.shape.set b index.length) ix := hix
  rw [sharpenedImage, get_ofFn hix', hf, selected_get hix2, selected_get (by rw [hsh]; exact hix2),
    selected_get (x := sharpenedImage amount threshold g.kernel gp x axes) hix2, sharpenedImage]
  symm
  exact get_ofFn (hs.inB hix2)

/-! ## other grey values -/

theorem sharpened_map (v w : α) : sharpened amount (|c| * threshold) (c * v + e) (c * w + e) = c * sharpened amount threshold v w + e := by
  have h1 : c * v + e - (c * w + e) = c * (v - w) := by ring
  rw [sharpened, sharpened, h1, abs_mul]
  by_cases hc : c = 0
  · subst hc
    simp
  · have : |c| * |v - w| < |c| * threshold ↔ |v - w| < threshold := mul_lt_mul_iff_right₀ (abs_pos.2 hc)
    simp only [this]
    split_ifs
    · rfl
    · ring

/-- **C112**: if the weights have product of sums one (not needed if `e = 0`) and the padder follows the change, then sharpening `c * x + e` with the
threshold multiplied by `|c|` gives `c` times the sharpened image plus `e`. -/
theorem C112_grey (hb : Built pool g m) (hu : UnsharpMask.init pool amount threshold = .ok u) (hu' : UnsharpMask.init pool amount (|c| * threshold) = .ok u')
    (h : SharpenCall g.kernel m gp x ax axes) (hp : Holds p gp) (hf : gp.Follows (fun v => c * v + e) axes.length gp)
    (hw : e * totalWeight ((PoolArgs.filter g.kernel).ops axes) = e) (junk junk' : List Nat → α) :
    ∃ q q' z, u.forward (some p) junk x ax = (q, .ok z) ∧
      u'.forward (some p) junk' (x.map fun v => c * v + e) ax = (q', .ok (z.map fun v => c * v + e)) := by
  obtain ⟨q, e1⟩ := unsharp_form hb hu h hp junk
  obtain ⟨q', e2⟩ := unsharp_form hb hu' (h.congr (y := x.map fun v => c * v + e) rfl) hp junk'
  refine ⟨q, q', _, e1, ?_⟩
  rw [e2]
  congr 2
  refine ext_get rfl ?_
  intro ix hix
  have hix' : InB x.shape ix := hix
  rw [sharpenedImage, get_ofFn (show InB (x.map fun v => c * v + e).shape ix from hix), filtered_map h.call hf, hw, get_map _ _ hix', get_map _ _ (by rw [filtered_same_shape h]; exact hix'),
    get_map _ _ (show InB (sharpenedImage amount threshold g.kernel gp x axes).shape ix from hix), sharpenedImage, get_ofFn hix', sharpened_map]

/-! ## the amount -/

/-- **C112**: the sharpened image depends affinely on the amount: with amount `(1 - t) * a + t * a'` it is the mixture of the two. -/
theorem C112_amount {a a' t : α} {u1 u2 u3 : UnsharpMask α} (hb : Built pool g m) (h1 : UnsharpMask.init pool a threshold = .ok u1)
    (h2 : UnsharpMask.init pool a' threshold = .ok u2) (h3 : UnsharpMask.init pool ((1 - t) * a + t * a') threshold = .ok u3)
    (h : SharpenCall g.kernel m gp x ax axes) (hp : Holds p gp) (junk junk' junk'' : List Nat → α) :
    ∃ q q' q'' z z', u1.forward (some p) junk x ax = (q, .ok z) ∧ u2.forward (some p) junk' x ax = (q', .ok z') ∧
      u3.forward (some p) junk'' x ax = (q'', .ok (ofFn x.shape fun ix => (1 - t) * z.get ix + t * z'.get ix)) := by
  obtain ⟨q, e1⟩ := unsharp_form hb h1 h hp junk
  obtain ⟨q', e2⟩ := unsharp_form hb h2 h hp junk'
  obtain ⟨q'', e3⟩ := unsharp_form hb h3 h hp junk''
  refine ⟨q, q', q'', _, _, e1, e2, ?_⟩
  rw [e3]
  congr 2
  apply ofFn_congr
  intro ix hix
  rw [sharpenedImage, sharpenedImage, get_ofFn hix, get_ofFn hix, sharpened, sharpened, sharpened]
  split_ifs <;> ring

/-- **C112**: with amount `-1` and without a threshold the module is the blurring filter itself. -/
theorem C112_blur (hb : Built pool g m) (ht : threshold ≤ 0) (hu : UnsharpMask.init pool (-1) threshold = .ok u) (hf : pool.toFilter = .ok pool')
    (h : SharpenCall g.kernel m gp x ax axes) (hp : Holds p gp) (junk junk' : List Nat → α) :
    ∃ q q' z, pool'.forward (some p) junk x ax = (q, .ok z) ∧ u.forward (some p) junk' x ax = (q', .ok z) := by
  obtain ⟨q', e2⟩ := unsharp_form hb hu h hp junk'
  have hbf : Built pool' (PoolArgs.filter g.kernel) m := Built.filter hb hf
  have hc : SameCall (PoolArgs.filter g.kernel) gp x ax axes := { h.call with axes_eq := h.axes_eq }
  have hfw := hbf.poolIs.1.forward_same hc (by
    intro hh
    apply h.many
    simpa [PoolArgs.filter, PoolArgs.isMany, Given.isMany] using hh) hp junk
  refine ⟨_, q', _, hfw, ?_⟩
  rw [e2]
  congr 2
  refine ext_get (filtered_same_shape h).symm ?_
  intro ix hix
  have hix' : InB x.shape ix := hix
  rw [sharpenedImage, get_ofFn hix', C45_threshold_nonpos _ ht]
  rw [show poolSeq (padSeq x (sameOps (PoolArgs.filter g.kernel) gp x.shape axes)) ((PoolArgs.filter g.kernel).ops axes) = filtered g.kernel gp x axes from rfl]
  ring

/-- **C112**: no sample moves by more than the amount times its difference from the blurred image, and samples that differ from it by less than the
threshold stay. -/
theorem C112_change (hb : Built pool g m) (hu : UnsharpMask.init pool amount threshold = .ok u) (hf : pool.toFilter = .ok pool')
    (h : SharpenCall g.kernel m gp x ax axes) (hp : Holds p gp) (junk junk' : List Nat → α) :
    ∃ q q' y z, pool'.forward (some p) junk x ax = (q, .ok y) ∧ u.forward (some p) junk' x ax = (q', .ok z) ∧ z.shape = x.shape ∧
      ∀ ix, InB x.shape ix → |z.get ix - x.get ix| ≤ |amount| * |x.get ix - y.get ix| ∧ (|x.get ix - y.get ix| < threshold → z.get ix = x.get ix) ∧
        (threshold ≤ |x.get ix - y.get ix| → z.get ix - x.get ix = amount * (x.get ix - y.get ix)) := by
  obtain ⟨q', e2⟩ := unsharp_form hb hu h hp junk'
  have hbf : Built pool' (PoolArgs.filter g.kernel) m := Built.filter hb hf
  have hc : SameCall (PoolArgs.filter g.kernel) gp x ax axes := { h.call with axes_eq := h.axes_eq }
  have hfw := hbf.poolIs.1.forward_same hc (by
    intro hh
    apply h.many
    simpa [PoolArgs.filter, PoolArgs.isMany, Given.isMany] using hh) hp junk
  refine ⟨_, q', _, _, hfw, e2, rfl, ?_⟩
  intro ix hix
  rw [show poolSeq (padSeq x (sameOps (PoolArgs.filter g.kernel) gp x.shape axes)) ((PoolArgs.filter g.kernel).ops axes) = filtered g.kernel gp x axes from rfl,
    sharpenedImage, get_ofFn hix, sharpened]
  split_ifs with hlt
  · refine ⟨?_, fun _ => rfl, fun hle => absurd hlt (not_lt.2 hle)⟩
    rw [sub_self, abs_zero]
    positivity
  · refine ⟨?_, fun hlt' => absurd hlt' hlt, fun _ => by ring⟩
    rw [add_sub_cancel_left, abs_mul]

/-- **C112**: overshoot.  With averaging kernels and a padder that stays within the range of the image, the sharpened image leaves this range by at most
`|amount|` times its width. -/
theorem C112_overshoot (hb : Built pool g m) (hu : UnsharpMask.init pool amount threshold = .ok u) (h : SharpenCall g.kernel m gp x ax axes) (hp : Holds p gp)
    {lo hi : α} (hfill : ∀ o ∈ sameOps (PoolArgs.filter g.kernel) gp x.shape axes, o.2.Within lo hi)
    (hw : ∀ o ∈ (PoolArgs.filter g.kernel).ops axes, o.kernel ≠ [] → IsAverage o.kernel) (hx : Between lo hi x) (junk : List Nat → α) :
    ∃ q z, u.forward (some p) junk x ax = (q, .ok z) ∧ Between (lo - |amount| * (hi - lo)) (hi + |amount| * (hi - lo)) z := by
  obtain ⟨q, e2⟩ := unsharp_form hb hu h hp junk
  refine ⟨q, _, e2, ?_⟩
  have hnd : ((sameOps (PoolArgs.filter g.kernel) gp x.shape axes).map Prod.fst).Nodup := by rw [sameOps_fst]; exact h.call.nodup
  have hy : Between lo hi (filtered g.kernel gp x axes) := by
    apply poolSeq_between h.call.poolOps _ hw
    apply padSeq_between hnd h.call.lt _ hfill hx
    intro o ho
    obtain ⟨i, hi, rfl⟩ := sameOps_mem ho
    exact h.call.pos _ (getD_mem_lt hi)
  intro ix hix
  have hix' : InB x.shape ix := hix
  obtain ⟨x1, x2⟩ := hx ix hix'
  obtain ⟨y1, y2⟩ := hy ix (by rw [filtered_same_shape h]; exact hix')
  have hd : |x.get ix - (filtered g.kernel gp x axes).get ix| ≤ hi - lo := by rw [abs_le]; constructor <;> linarith
  have hm : |amount * (x.get ix - (filtered g.kernel gp x axes).get ix)| ≤ |amount| * (hi - lo) := by
    rw [abs_mul]; exact mul_le_mul_of_nonneg_left hd (abs_nonneg _)
  have h0 : 0 ≤ |amount| * (hi - lo) := mul_nonneg (abs_nonneg _) (by linarith)
  rw [sharpenedImage, get_ofFn hix', sharpened]
  rw [abs_le] at hm
  split_ifs <;> constructor <;> linarith

/-- **C112**: without a threshold and with circular padding, the sum of the samples is multiplied by `1 + amount * (1 - W)`, where `W` is the product of
the sums of the weights: for averaging kernels the mean is kept. -/
theorem C112_mass (hb : Built pool g m) (ht : threshold ≤ 0) (hu : UnsharpMask.init pool amount threshold = .ok u) (h : SharpenCall g.kernel m gp x ax axes)
    (hp : Holds p gp) (hmode : ∀ i < axes.length, gp.mode.entry .unknown i = .circular) (junk : List Nat → α) :
    ∃ q z, u.forward (some p) junk x ax = (q, .ok z) ∧ z.shape = x.shape ∧
      z.data.sum = (1 + amount * (1 - totalWeight ((PoolArgs.filter g.kernel).ops axes))) * x.data.sum := by
  obtain ⟨q, e2⟩ := unsharp_form hb hu h hp junk
  refine ⟨q, _, e2, rfl, ?_⟩
  obtain ⟨pool', e1, _⟩ := hb.poolIs.1.toFilter
  have hbf : Built pool' (PoolArgs.filter g.kernel) m := Built.filter hb e1
  have hm' : (PoolArgs.filter g.kernel).isMany = true → axes.length = m := by
    intro hh
    apply h.many
    simpa [PoolArgs.filter, PoolArgs.isMany, Given.isMany] using hh
  obtain ⟨q1, y, h1, h2, h3⟩ := C104_mass hbf hm' h.call hp hmode (fun _ _ => rfl) junk
  rw [hbf.poolIs.1.forward_same h.call hm' hp junk] at h1
  simp only [Prod.mk.injEq, Except.ok.injEq] at h1
  have hy : y = filtered g.kernel gp x axes := h1.2.symm
  rw [hy] at h2 h3
  have e3 : (sharpenedImage amount threshold g.kernel gp x axes).data.sum =
      ((indices x.shape).map fun ix => x.get ix + amount * (x.get ix - (filtered g.kernel gp x axes).get ix)).sum := by
    rw [data_eq_map_get]
    congr 1
    apply List.map_congr_left
    intro ix hix
    rw [sharpenedImage, get_ofFn (show InB x.shape ix from mem_indices.1 hix), C45_threshold_nonpos _ ht]
  have e4 : (filtered g.kernel gp x axes).data.sum = ((indices x.shape).map (filtered g.kernel gp x axes).get).sum := by
    rw [data_eq_map_get, h2]
  rw [e4] at h3
  have e5 : x.data.sum = ((indices x.shape).map x.get).sum := by rw [← data_eq_map_get]
  have e6 : ∀ l : List (List Nat), (l.map fun ix => x.get ix + amount * (x.get ix - (filtered g.kernel gp x axes).get ix)).sum =
      (1 + amount) * (l.map x.get).sum - amount * (l.map (filtered g.kernel gp x axes).get).sum := by
    intro l
    induction l with
    | nil => simp
    | cons i l ih =>
      simp only [List.map_cons, List.sum_cons, ih]
      ring
  rw [e3, e6, h3, ← e5]
  ring

/-! ## examples -/

namespace SharpenExample
open Example

/-- three rows of four samples -/
def image : Tensor ℚ := ⟨[3, 4], [1, 2, 3, 4, 5, 6, 7, 8, 9, 10, 11, 0], rfl⟩

/-- a binomial kernel for all axes -/
def args : PoolArgs ℚ := ⟨.one [1 / 4, 1 / 2, 1 / 4], .one none⟩

theorem built : ∃ pool, SepPool.init (args.kernel.toPy PoolArgs.pyKernel) (args.stride.toPy PoolArgs.pyStride) = .ok pool ∧ Built pool args 1 := by
  have hv : args.Valid := by
    intro s hs
    simp only [args, Given.values, List.mem_singleton] at hs
    rw [hs]; simp
  obtain ⟨pool, e, _⟩ := poolIs_init (g := args) Nat.one_pos ⟨trivial, trivial⟩ hv
  exact ⟨pool, e, .separable Nat.one_pos ⟨trivial, trivial⟩ hv e⟩

theorem inits {pool : SepPool ℚ} (hb : Built pool args 1) (amount threshold : ℚ) : ∃ u, UnsharpMask.init pool amount threshold = .ok u :=
  let ⟨u, h, _⟩ := C45_pooling hb amount threshold
  ⟨u, h⟩

theorem call {mode : Mode ℚ} (hv : ∀ s : AxisPad ℚ, s.mode = mode → s.rule? ≠ none ∧ s.mode ≠ .zeros) (hp : mode.isPeriodize = false) :
    SharpenCall args.kernel 1 (modeArgs mode) image .none [0, 1] where
  axes_eq := by decide
  call :=
    { axes_eq := by decide
      ne := by decide
      nodup := by decide
      fits := by intro h; cases h
      rest := ⟨trivial, trivial, trivial, trivial⟩
      stride := fun _ _ => Nat.one_pos
      pos := by decide
      valued := by
        intro o ho _
        obtain ⟨i, _, rfl⟩ := sameOps_mem ho
        exact hv _ rfl }
  many := by intro h; cases h
  keep := fun _ _ => Or.inl hp

theorem reflect : SharpenCall args.kernel 1 (modeArgs .reflect) image .none [0, 1] := call (by intro s hs; simp [AxisPad.rule?, hs]) rfl

theorem circular : SharpenCall args.kernel 1 (modeArgs .circular) image .none [0, 1] := call (by intro s hs; simp [AxisPad.rule?, hs]) rfl

theorem columns : SharpenCall args.kernel 1 (modeArgs .reflect) image (.int 1) [1] where
  axes_eq := by decide
  call :=
    { axes_eq := by decide
      ne := by decide
      nodup := by decide
      fits := by intro h; cases h
      rest := ⟨trivial, trivial, trivial, trivial⟩
      stride := fun _ _ => Nat.one_pos
      pos := by decide
      valued := by
        intro o ho _
        obtain ⟨i, _, rfl⟩ := sameOps_mem ho
        exact ⟨by simp [sameSetting, AxisPad.rule?, modeArgs, Given.entry], by simp [sameSetting, modeArgs, Given.entry]⟩ }
  many := by intro h; cases h
  keep := fun _ _ => Or.inl rfl

theorem holds (mode : Mode ℚ) : Holds ((modeArgs mode).padder 1) (modeArgs mode) := holds_padder _ 1

theorem weight : totalWeight ((PoolArgs.filter args.kernel).ops [0, 1]) = 1 := by decide +kernel

theorem kernels : ∀ o ∈ (PoolArgs.filter args.kernel).ops [0, 1], o.kernel ≠ [] → IsAverage o.kernel := by
  intro o ho _
  obtain ⟨i, _, rfl⟩ := mem_ops.1 ho
  show IsAverage [1 / 4, 1 / 2, 1 / 4]
  exact ⟨by intro a ha; simp only [List.mem_cons, List.not_mem_nil, or_false] at ha; rcases ha with rfl | rfl | rfl <;> norm_num, by norm_num⟩

end SharpenExample

open SharpenExample in
/-- C112: reversed columns, exchanged axes, a selection of rows of a batch, and the negative of an image -/
example (junk junk' : List Nat → ℚ) : ∃ pool u, SepPool.init (args.kernel.toPy PoolArgs.pyKernel) (args.stride.toPy PoolArgs.pyStride) = .ok pool ∧
    UnsharpMask.init pool 2 (1 / 2) = .ok u ∧
    (∃ q q' z, u.forward (some ((Example.modeArgs .reflect).padder 1)) junk image .none = (q, .ok z) ∧
      u.forward (some ((Example.modeArgs .reflect).padder 1)) junk' (flipped 1 image) .none = (q', .ok (flipped 1 z))) ∧
    (∃ q q' z, u.forward (some ((Example.modeArgs .reflect).padder 1)) junk image .none = (q, .ok z) ∧
      u.forward (some ((Example.modeArgs .reflect).padder 1)) junk' (transposed 0 1 image) (.seq [1, 0]) = (q', .ok (transposed 0 1 z))) ∧
    (∃ q q' z, u.forward (some ((Example.modeArgs .circular).padder 1)) junk image .none = (q, .ok z) ∧
      u.forward (some ((Example.modeArgs .circular).padder 1)) junk' (rolled 1 3 image) .none = (q', .ok (rolled 1 3 z))) ∧
    ∃ u', UnsharpMask.init pool 2 (|(-1 : ℚ)| * (1 / 2)) = .ok u' ∧
      ∃ q q' z, u.forward (some ((Example.modeArgs .reflect).padder 1)) junk image .none = (q, .ok z) ∧
      u'.forward (some ((Example.modeArgs .reflect).padder 1)) junk' (image.map fun v => -1 * v + 12) .none = (q', .ok (z.map fun v => -1 * v + 12)) := by
  obtain ⟨pool, e, hb⟩ := built
  obtain ⟨u, hu⟩ := inits hb 2 (1 / 2)
  obtain ⟨u', hu'⟩ := inits hb 2 (|(-1 : ℚ)| * (1 / 2))
  exact ⟨pool, u, e, hu,
    C112_mirrored hb hu reflect (holds _) (by intro i _ _; exact ⟨rfl, rfl, rfl, rfl⟩) (by intro i _ _; left; show ([1 / 4, 1 / 2, 1 / 4] : List ℚ).length % 2 = 1; simp) junk junk',
    C112_transposed hb hu reflect (holds _) (by decide) (by decide) (by decide) junk junk',
    C112_rolled hb hu circular (holds _) (by decide) (by intro i _ _; rfl) 3 junk junk', u', hu',
    C112_grey hb hu hu' reflect (holds _) (fun _ _ => ⟨rfl, rfl, trivial⟩) (by rw [weight, mul_one]) junk junk'⟩

open SharpenExample in
/-- C112: amounts, the blur as a special case, changes and overshoot, and the mean -/
example (junk : List Nat → ℚ) : ∃ pool pool' u u0 u1, SepPool.init (args.kernel.toPy PoolArgs.pyKernel) (args.stride.toPy PoolArgs.pyStride) = .ok pool ∧
    pool.toFilter = .ok pool' ∧ UnsharpMask.init pool 2 (1 / 2) = .ok u ∧ UnsharpMask.init pool (-1) 0 = .ok u0 ∧ UnsharpMask.init pool 2 0 = .ok u1 ∧
    (∃ q z, u.forward (some ((Example.modeArgs .reflect).padder 1)) junk image .none = (q, .ok z) ∧ Between (-22) 33 z) ∧
    (∃ q q' y z, pool'.forward (some ((Example.modeArgs .reflect).padder 1)) junk image .none = (q, .ok y) ∧
      u.forward (some ((Example.modeArgs .reflect).padder 1)) junk image .none = (q', .ok z) ∧
      |z.get [0, 0] - 1| ≤ 2 * |1 - y.get [0, 0]|) ∧
    (∃ q q' z, pool'.forward (some ((Example.modeArgs .reflect).padder 1)) junk image .none = (q, .ok z) ∧
      u0.forward (some ((Example.modeArgs .reflect).padder 1)) junk image .none = (q', .ok z)) ∧
    (∃ q z, u1.forward (some ((Example.modeArgs .circular).padder 1)) junk image .none = (q, .ok z) ∧ z.data.sum = 66) ∧
    ∃ u2, UnsharpMask.init pool ((1 - 1 / 3) * -1 + 1 / 3 * 2) 0 = .ok u2 ∧
      ∃ q q' q'' z z', u0.forward (some ((Example.modeArgs .reflect).padder 1)) junk image .none = (q, .ok z) ∧
        u1.forward (some ((Example.modeArgs .reflect).padder 1)) junk image .none = (q', .ok z') ∧
        u2.forward (some ((Example.modeArgs .reflect).padder 1)) junk image .none =
          (q'', .ok (ofFn image.shape fun ix => (1 - 1 / 3) * z.get ix + 1 / 3 * z'.get ix)) := by
  obtain ⟨pool, e, hb⟩ := built
  obtain ⟨pool', e', _⟩ := hb.poolIs.1.toFilter
  obtain ⟨u, hu⟩ := inits hb 2 (1 / 2)
  obtain ⟨u0, hu0⟩ := inits hb (-1) 0
  obtain ⟨u1, hu1⟩ := inits hb 2 0
  obtain ⟨u2, hu2⟩ := inits hb ((1 - 1 / 3) * -1 + 1 / 3 * 2) 0
  refine ⟨pool, pool', u, u0, u1, e, e', hu, hu0, hu1, ?_, ?_, C112_blur hb le_rfl hu0 e' reflect (holds _) junk junk, ?_, u2, hu2,
    C112_amount hb hu0 hu1 hu2 reflect (holds _) junk junk junk⟩
  · obtain ⟨q, z, h1, h2⟩ := C112_overshoot hb hu reflect (holds _) (lo := 0) (hi := 11) (by
      intro o ho
      obtain ⟨i, _, rfl⟩ := sameOps_mem ho
      exact trivial) kernels (by
      intro ix hix
      rw [← mem_indices] at hix
      have : ∀ ix ∈ indices image.shape, 0 ≤ image.get ix ∧ image.get ix ≤ 11 := by decide +kernel
      exact this ix hix) junk
    refine ⟨q, z, h1, ?_⟩
    norm_num at h2
    exact h2
  · obtain ⟨q, q', y, z, h1, h2, h3, h4⟩ := C112_change hb hu e' reflect (holds _) junk junk
    refine ⟨q, q', y, z, h1, h2, ?_⟩
    have := (h4 [0, 0] (by decide)).1
    rw [show image.get [0, 0] = 1 by decide +kernel, show |(2 : ℚ)| = 2 by norm_num] at this
    exact this
  · obtain ⟨q, z, h1, _, h3⟩ := C112_mass hb le_rfl hu1 circular (holds _) (by intro i _; rfl) junk
    refine ⟨q, z, h1, ?_⟩
    rw [h3, weight]
    decide +kernel

open SharpenExample in
/-- C112: the rows 2, 0 of an image, sharpened along the columns -/
example (junk junk' : List Nat → ℚ) :
    ∃ pool u, SepPool.init (args.kernel.toPy PoolArgs.pyKernel) (args.stride.toPy PoolArgs.pyStride) = .ok pool ∧ UnsharpMask.init pool 2 (1 / 2) = .ok u ∧
    ∃ q q' z, u.forward (some ((Example.modeArgs .reflect).padder 1)) junk image (.int 1) = (q, .ok z) ∧
      u.forward (some ((Example.modeArgs .reflect).padder 1)) junk' (selected 0 [2, 0] image) (.int 1) = (q', .ok (selected 0 [2, 0] z)) := by
  obtain ⟨pool, e, hb⟩ := built
  obtain ⟨u, hu⟩ := inits hb 2 (1 / 2)
  exact ⟨pool, u, e, hu, C112_batch hb hu columns (holds _) ⟨by decide, by decide⟩ (by decide) junk junk'⟩

end TI
