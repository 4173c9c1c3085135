import Verif.Proofs.FlipMetrics
import Verif.Props.MsSsim
import Verif.Props.Mse

/-!
# Reversing an axis of both images: C93
-/

set_option linter.unusedSectionVars false

namespace TI
open Tensor Spec

section
variable {α : Type} [Field α] [LinearOrder α] [IsStrictOrderedRing α]
variable {x y y1 y2 : Tensor α} {ax rax : Axes} {axes raxes : List Nat} {d : Nat}

/-! ## squared errors -/

theorem squaredError_flip (h : x.shape = y.shape) : squaredError (flipped d x) (flipped d y) = flipped d (squaredError x y) := by
  rw [squaredError, show flipped d (squaredError x y) = ofFn x.shape _ from rfl, flipped_shape]
  apply ofFn_congr
  intro ix hix
  have e : (squaredError x y).shape = x.shape := rfl
  rw [flipped_get hix, flipped_get (by rw [← h]; exact hix), ← h, e, squaredError, get_ofFn (flip_inB hix)]

/-- **C93.** Reversing an axis of both images does not change the squared error, if that axis is reduced; without reduction the error is
reversed as well. -/
theorem C93_mse (h : x.shape = y.shape) (hax : axesOf x.ndim ax = some axes) (hnd : axes.Nodup) (hd : d ∈ reducedAxes x.ndim axes) :
    mse .mean (flipped d x) (flipped d y) ax = mse .mean x y ax ∧ mse .sum (flipped d x) (flipped d y) ax = mse .sum x y ax ∧
    ∃ e, mse .none x y ax = .ok e ∧ mse .none (flipped d x) (flipped d y) ax = .ok (flipped d e) := by
  have key : ∀ jx, ((collected x.shape (reducedAxes x.ndim axes) jx).map fun ix => ((flipped d x).get ix - (flipped d y).get ix) ^ 2).Perm
      ((collected x.shape (reducedAxes x.ndim axes) jx).map fun ix => (x.get ix - y.get ix) ^ 2) := by
    intro jx
    have e1 : (collected x.shape (reducedAxes x.ndim axes) jx).map (fun ix => ((flipped d x).get ix - (flipped d y).get ix) ^ 2) =
        (collected x.shape (reducedAxes x.ndim axes) jx).map (flipped d (squaredError x y)).get := by
      apply List.map_congr_left
      intro ix hix
      rw [← squaredError_flip h, squaredError, get_ofFn (show InB (flipped d x).shape ix from (mem_collected.1 hix).1)]
    have e2 : (collected x.shape (reducedAxes x.ndim axes) jx).map (fun ix => (x.get ix - y.get ix) ^ 2) =
        (collected x.shape (reducedAxes x.ndim axes) jx).map (squaredError x y).get := by
      apply List.map_congr_left
      intro ix hix
      rw [squaredError, get_ofFn (mem_collected.1 hix).1]
    rw [e1, e2]
    exact flipped_collected (x := squaredError x y) hd jx
  have h' : (flipped d x).shape = (flipped d y).shape := h
  refine ⟨?_, ?_, _, C55_none h hax, ?_⟩
  · rw [C55_mean h hax hnd, C55_mean (x := flipped d x) h' hax hnd]
    congr 1
    apply ofFn_congr
    intro jx _
    exact mean_perm (key jx)
  · rw [C55_sum h hax hnd, C55_sum (x := flipped d x) h' hax hnd]
    congr 1
    apply ofFn_congr
    intro jx _
    exact (key jx).sum_eq
  · rw [C55_none (x := flipped d x) h' hax]
    exact congrArg Except.ok (squaredError_flip h)

/-! ## SSIM -/

section
variable {s : SSIM α} {pool : SepPool α} {a : PoolArgs α} {m : Nat} {gp : Option (PadArgs α)} {p : Option (Padder α)} {k1 k2 : α} {sc cr : Bool}

theorem blurCall_flip {g : Given (List α)} (h : BlurCall g gp x ax axes p) {z : Tensor α} (hz : z.shape = x.shape) : BlurCall g gp z ax axes p := by
  cases gp with
  | none => exact ⟨h.1, by rw [ndim, hz]; exact h.2.1, Fitting_congr hz.symm h.2.2⟩
  | some gp => exact ⟨h.1, h.2.congr hz⟩

theorem pointMap_blur {g : Given (List α)} (F : α → α → α → α → α → α) (h : BlurCall g gp y1 ax axes p) (h12 : y2.shape = y1.shape)
    (hf : FlipBlur d axes g (y1.shape.getD d 0) gp) :
    pointMap F (blurred g gp axes) (flipped d y1) (flipped d y2) = flipped d (pointMap F (blurred g gp axes) y1 y2) := by
  apply pointMap_flip F h12
  · intro z hz
    exact blurred_congr h hz
  · intro z hz
    exact blurred_flip (blurCall_flip h hz) (by rw [hz]; exact hf)

/-- **C93**: reversing an axis of both images reverses the SSIM map, and does not change the score if that axis is reduced; for palindromic weights
on that axis (and palindromic padding with an odd number of weights).  An axis that is not blurred needs no such condition. -/
theorem C93_ssim (hi : SSIM.init pool false k1 k2 sc cr = .ok s) (hb : Built pool a m) (hm : a.kernel.isMany = true → axes.length = m)
    (h : BlurCall a.kernel gp y1 ax axes p) (hN : sc = true → windowSize a.kernel axes.length ≠ 1) (h12 : y2.shape = y1.shape)
    (hr : axesOf y1.ndim rax = some raxes) (hrn : raxes.Nodup) (hc : cr = false ∨ gp = none)
    (hf : FlipBlur d axes a.kernel (y1.shape.getD d 0) gp) (hd : d ∈ reducedAxes y1.ndim raxes) (junk junk' : List Nat → α) :
    ∃ q score full, s.forward junk y1 y2 ax rax p = (q, .ok (score, full)) ∧
      s.forward junk' (flipped d y1) (flipped d y2) ax rax p = (q, .ok (score, flipped d full)) := by
  refine ⟨_, _, _, C79_formula hi hb hm h hN h12 hr hrn hc junk, ?_⟩
  rw [C79_formula hi hb hm (blurCall_flip h (flipped_shape d y1)) hN (show (flipped d y2).shape = (flipped d y1).shape from h12)
    (show axesOf (flipped d y1).ndim rax = some raxes from hr) hrn hc junk']
  have e := pointMap_blur (ssimIndex (k1 ^ 2) (k2 ^ 2) (covFactor (α := α) sc (windowSize a.kernel axes.length))) h h12 hf
  have e' : ssimMap k1 k2 (covFactor sc (windowSize a.kernel axes.length)) (blurred a.kernel gp axes) (flipped d y1) (flipped d y2) =
      flipped d (ssimMap k1 k2 (covFactor sc (windowSize a.kernel axes.length)) (blurred a.kernel gp axes) y1 y2) := e
  have hn : (ssimMap k1 k2 (covFactor sc (windowSize a.kernel axes.length)) (blurred a.kernel gp axes) y1 y2).ndim = y1.ndim := by
    show (blurred a.kernel gp axes y1).ndim = y1.ndim
    cases gp with
    | none => exact poolSeq_ndim _ _
    | some gp => rw [blurred, filtered, poolSeq_ndim, padSeq_ndim h.2.opsOK]
  rw [e', meanOver_flip (by rw [hn]; exact hd)]
  rfl

/-- **C93** with cropping: the score of the reversed images is the same for any known padding, also if the padding is not palindromic, since the
padding does not enter it. -/
theorem C93_ssim_cropped {gp : PadArgs α} (hi : SSIM.init pool false k1 k2 sc true = .ok s) (hb : Built pool a m)
    (hm : a.kernel.isMany = true → axes.length = m) (hc : KnownCall (PoolArgs.filter a.kernel) gp y1 ax axes) {p : Padder α} (hp : Holds p gp)
    (hper : ∀ i < axes.length, (gp.mode.entry .unknown i).isPeriodize = false ∨ y1.shape.getD (axes.getD i 0) 0 % 2 = 0)
    (hk : ∀ i < axes.length, (a.kernel.entry [] i).length ≤ y1.shape.getD (axes.getD i 0) 0)
    (hN : sc = true → windowSize a.kernel axes.length ≠ 1) (h12 : y2.shape = y1.shape)
    (hr : axesOf y1.ndim rax = some raxes) (hrn : raxes.Nodup)
    (hf : ∀ i < axes.length, axes.getD i 0 = d → (a.kernel.entry [] i).reverse = a.kernel.entry [] i) (hd : d ∈ reducedAxes y1.ndim raxes)
    (junk junk' : List Nat → α) :
    ∃ q q' score full full', s.forward junk y1 y2 ax rax (some p) = (q, .ok (score, full)) ∧
      s.forward junk' (flipped d y1) (flipped d y2) ax rax (some p) = (q', .ok (score, full')) := by
  obtain ⟨q, full, e, _⟩ := C60_cropped_score_partial hi hb hm hc hp hper hk hN h12 hr hrn junk
  obtain ⟨q', full', e', _⟩ := C60_cropped_score_partial hi hb hm (hc.congr (flipped_shape d y1)) hp hper hk hN
    (show (flipped d y2).shape = (flipped d y1).shape from h12) (show axesOf (flipped d y1).ndim rax = some raxes from hr) hrn junk'
  have hfl : ssimMap k1 k2 (covFactor sc (windowSize a.kernel axes.length)) (valid a.kernel axes) (flipped d y1) (flipped d y2) =
      flipped d (ssimMap k1 k2 (covFactor sc (windowSize a.kernel axes.length)) (valid a.kernel axes) y1 y2) :=
    pointMap_blur (gp := none) (p := none) (ax := ax) (ssimIndex (k1 ^ 2) (k2 ^ 2) (covFactor (α := α) sc (windowSize a.kernel axes.length)))
      ⟨rfl, hc.axes_eq, fitting_of_sizes hc.toSameReq hk⟩ h12 hf
  have hn : (ssimMap k1 k2 (covFactor sc (windowSize a.kernel axes.length)) (valid a.kernel axes) y1 y2).ndim = y1.ndim := poolSeq_ndim _ _
  rw [hfl, meanOver_flip (by rw [hn]; exact hd)] at e'
  exact ⟨q, q', _, full, full', e, e'⟩

end
end

/-! ## peak signal-to-noise ratio and MS-SSIM -/

section
variable {x y y1 y2 : Tensor ℝ} {ax rax : Axes} {axes raxes : List Nat} {d : Nat}

/-- **C93**: the peak signal-to-noise ratio of reversed images -/
theorem C93_psnr (h : x.shape = y.shape) (hax : axesOf x.ndim ax = some axes) (hnd : axes.Nodup) (hd : d ∈ reducedAxes x.ndim axes)
    (maxValue eps : ℝ) :
    psnr maxValue eps .mean (flipped d x) (flipped d y) ax = psnr maxValue eps .mean x y ax ∧
    psnr maxValue eps .sum (flipped d x) (flipped d y) ax = psnr maxValue eps .sum x y ax := by
  obtain ⟨h1, h2, _⟩ := C93_mse h hax hnd hd
  simp only [psnr, h1, h2, and_self]

theorem halved_flip {x : Tensor ℝ} (hnd : axes.Nodup) (hlt : ∀ a ∈ axes, a < x.ndim) (hsz : ∀ a ∈ axes, 2 ≤ x.shape.getD a 0)
    (heven : d ∈ axes → x.shape.getD d 0 % 2 = 0) : halved axes (flipped d x) = flipped d (halved axes x) := by
  have h := poolSeq_flip (d := d) (halver_poolOps (α := ℝ) hnd hlt hsz) (by
    intro o ho hd _
    obtain ⟨i, hi, rfl⟩ := mem_ops.1 ho
    have hd' : axes.getD i 0 = d := hd
    have := heven (hd' ▸ getD_mem_lt hi)
    have := hsz _ (getD_mem_lt hi)
    rw [hd'] at this
    show (x.shape.getD d 0 - 2) % 2 = 0
    omega)
  have e : reverseAt d ((halver (α := ℝ)).ops axes) = (halver (α := ℝ)).ops axes := by
    rw [reverseAt]
    conv_rhs => rw [← List.map_id ((halver (α := ℝ)).ops axes)]
    apply List.map_congr_left
    intro o ho
    obtain ⟨i, hi, rfl⟩ := mem_ops.1 ho
    split_ifs <;> rfl
  rw [e] at h
  exact h

section
variable {g : Given (List ℝ)} {gp : Option (PadArgs ℝ)} {p : Option (Padder ℝ)} {cr : Bool}

theorem atLevel_flip : ∀ (n : Nat) {r : Nat} {x : Tensor ℝ}, MsAt g gp cr (r + n) x axes p → (d ∈ axes → x.shape.getD d 0 % 2 ^ n = 0) →
    atLevel axes n (flipped d x) = flipped d (atLevel axes n x)
  | 0, _, _, _, _ => rfl
  | n + 1, r, x, h, hdiv => by
    have h' : MsAt g gp cr (r + n + 1) x axes p := h
    have hdiv' : d ∈ axes → x.shape.getD d 0 % 2 = 0 := fun hd =>
      Nat.mod_eq_zero_of_dvd (dvd_trans (dvd_pow_self 2 (Nat.succ_ne_zero n)) (Nat.dvd_of_mod_eq_zero (hdiv hd)))
    rw [atLevel, atLevel, halved_flip h'.nodup h'.lt h'.two_le hdiv']
    apply atLevel_flip n h'.next
    intro hd
    rw [halved_size h'.nodup h'.lt h'.two_le, if_pos hd]
    have hd2 := hdiv hd
    rw [pow_succ] at hd2
    obtain ⟨c, hc⟩ := Nat.dvd_of_mod_eq_zero hd2
    rw [hc, mul_assoc, mul_comm 2 c, ← mul_assoc, Nat.mul_div_cancel _ (by norm_num), Nat.mul_mod_right]

theorem atLevel_size : ∀ (n : Nat) {r : Nat} {x : Tensor ℝ}, MsAt g gp cr (r + n) x axes p → d ∈ axes →
    (atLevel axes n x).shape.getD d 0 = x.shape.getD d 0 / 2 ^ n
  | 0, _, _, _, _ => by simp [atLevel]
  | n + 1, r, x, h, hd => by
    have h' : MsAt g gp cr (r + n + 1) x axes p := h
    rw [atLevel, atLevel_size n h'.next hd, halved_size h'.nodup h'.lt h'.two_le, if_pos hd, Nat.div_div_eq_div_mul, pow_succ, mul_comm 2]

/-- what the blur of every level needs to commute with reversing axis `d`: as `FlipBlur` at the sizes of all levels; nothing of the padder if the
border is cropped -/
def Spec.FlipLevels (d : Nat) (axes : List Nat) (g : Given (List ℝ)) (gp : Option (PadArgs ℝ)) (cr : Bool) (L n : Nat) : Prop :=
  ∀ i < L, FlipBlur d axes g (n / 2 ^ i) (if cr then none else gp)

theorem levelScore_flip {r : Nat} {k1 k2 f : ℝ} (h : MsAt g gp cr r y1 axes p) (h12 : y2.shape = y1.shape) (hd : d ∈ axes)
    (hf : FlipBlur d axes g (y1.shape.getD d 0) (if cr then none else gp)) (last : Bool) :
    levelScore k1 k2 f (scoreBlur g gp cr axes) axes last (flipped d y1) (flipped d y2) =
      levelScore k1 k2 f (scoreBlur g gp cr axes) axes last y1 y2 := by
  obtain ⟨gp', p', e, hc, h1, h2⟩ := h.scoreCall
  have hg : gp' = if cr then none else gp := by
    cases cr with
    | true => rw [h1 rfl]; rfl
    | false => rw [h2 rfl]; rfl
  rw [← hg] at hf
  rw [e, levelScore, levelScore]
  have key : ∀ F : ℝ → ℝ → ℝ → ℝ → ℝ → ℝ, meanKept (pointMap F (blurred g gp' axes) (flipped d y1) (flipped d y2)) axes =
      meanKept (pointMap F (blurred g gp' axes) y1 y2) axes := by
    intro F
    rw [pointMap_blur F hc h12 hf, meanKept_flip hd]
  cases last with
  | true => exact key (ssimIndex (k1 ^ 2) (k2 ^ 2) f)
  | false => exact key (csIndex (k2 ^ 2) f)

end

variable {s : SSIM ℝ} {pool : SepPool ℝ} {a : PoolArgs ℝ} {m : Nat} {gp : Option (PadArgs ℝ)} {p : Option (Padder ℝ)} {k1 k2 : ℝ}
  {sc cr up : Bool} {eps : ℝ} {ws : List ℝ}

/-- **C93**: reversing a content axis of both images does not change MS-SSIM if the number of samples can be halved exactly at all levels
and the blur is palindromic on that axis (otherwise see `C93_downsample_odd_false`). -/
theorem C93_msssim_partial (hi : SSIM.init pool false k1 k2 sc cr = .ok s) (hb : Built pool a m) (hm : a.kernel.isMany = true → axes.length = m)
    (hw : 2 ≤ ws.length) (h : MsCall a.kernel gp cr ws.length y1 ax axes p) (hN : sc = true → windowSize a.kernel axes.length ≠ 1)
    (h12 : y2.shape = y1.shape) (hr : axesOf y1.ndim rax = some raxes) (hrn : raxes.Nodup) (hd : d ∈ axes)
    (hdiv : y1.shape.getD d 0 % 2 ^ (ws.length - 1) = 0) (hf : FlipLevels d axes a.kernel gp cr ws.length (y1.shape.getD d 0))
    (up : Bool) (eps : ℝ) (junk junk' : List Nat → ℝ) :
    ∃ q t, (⟨s, ws, up, eps⟩ : MsSsim).forward junk y1 y2 ax rax p = (q, .ok t) ∧
      (⟨s, ws, up, eps⟩ : MsSsim).forward junk' (flipped d y1) (flipped d y2) ax rax p = (q, .ok t) := by
  have h' : MsCall a.kernel gp cr ws.length (flipped d y1) ax axes p := ⟨h.axes_eq, h.ne, h.nodup, h.fits, h.kernel, h.large, h.padder⟩
  refine ⟨_, _, C80_formula hi hb hm hw h hN h12 hr hrn up eps junk, ?_⟩
  rw [C80_formula hi hb hm hw h' hN (show (flipped d y2).shape = (flipped d y1).shape from h12)
    (show axesOf (flipped d y1).ndim rax = some raxes from hr) hrn up eps junk']
  obtain ⟨L, hL⟩ : ∃ L, ws.length = L + 1 := ⟨ws.length - 1, by omega⟩
  have hat : ∀ i ≤ L, MsAt a.kernel gp cr (L - i + i) y1 axes p := by
    intro i hi
    rw [Nat.sub_add_cancel hi]
    rw [hL] at h
    exact h.at
  have hlv : ∀ i ≤ L, ∀ y : Tensor ℝ, y.shape = y1.shape → atLevel axes i (flipped d y) = flipped d (atLevel axes i y) := by
    intro i hi y hy
    apply atLevel_flip i ((hat i hi).congr hy)
    intro _
    rw [hy]
    rw [hL, Nat.add_sub_cancel] at hdiv
    exact Nat.mod_eq_zero_of_dvd (dvd_trans (pow_dvd_pow 2 hi) (Nat.dvd_of_mod_eq_zero hdiv))
  have hmap : msMap up eps k1 k2 (covFactor sc (windowSize a.kernel axes.length)) (scoreBlur a.kernel gp cr axes) axes ws (flipped d y1) (flipped d y2) =
      msMap up eps k1 k2 (covFactor sc (windowSize a.kernel axes.length)) (scoreBlur a.kernel gp cr axes) axes ws y1 y2 := by
    rw [msMap, msMap, flipped_shape]
    apply ofFn_congr
    intro jx _
    congr 1
    apply List.map_congr_left
    intro i hi
    have hi' : i ≤ L := by have := List.mem_range.1 hi; omega
    rw [msLevel, msLevel, hlv i hi' y1 rfl, hlv i hi' y2 h12, levelScore_flip (MsAt.level i (hat i hi')) (atLevel_shape_congr i h12) hd]
    rw [atLevel_size i (hat i hi') hd]
    exact hf i (by omega)
  rw [hmap, hlv _ (by omega) y1 rfl, flipped_shape]

/-! ## the default blurs -/

theorem gaussWeights_palindrome {σ : ℝ} (hσ : σ ≠ 0) {k : Nat} (hodd : k % 2 = 1) : (gaussWeights k σ 0).reverse = gaussWeights k σ 0 := by
  obtain ⟨w, e1, _, _, _, h⟩ := C37_probability_vector hσ (k := k) (by omega)
  have e2 := gaussianKernel_weights hσ k 0
  have e3 : w = gaussWeights k σ 0 := Except.ok.inj (e1.symm.trans e2)
  rw [← e3]
  exact h hodd

theorem ssim_gaussian_weights (k1 k2 : ℝ) (sc cr : Bool) : ∃ s pool, SSIM.initGaussian k1 k2 sc cr = .ok s ∧ SSIM.init pool false k1 k2 sc cr = .ok s ∧
    Built pool ⟨.one (gaussWeights 11 (3 / 2) 0), .one none⟩ 1 := by
  obtain ⟨pool, h1, h2, h3⟩ := C34_gaussian_kernels (size := .one 11) (sigma := .one (3 / 2)) (order := .one 0) (st := .one none) (m := 1)
    (by decide) trivial trivial trivial trivial (by intro s hs; simp [Given.values] at hs; simp [hs])
    (by intro s hs; simp [Given.values] at hs; simp [hs])
  have h1' : SepPool.gaussInit (.leaf 11) (.leaf (3 / 2)) (.leaf 0) (.leaf none) = .ok pool := h1
  obtain ⟨f, hf, _⟩ := h2.poolIs.1.toFilter
  refine ⟨⟨f, false, k1, k2, sc, cr⟩, pool, ?_, ?_, h2⟩
  · simp only [SSIM.initGaussian, h1', SSIM.init, hf, ok_bind]
  · simp only [SSIM.init, hf, ok_bind]

/-- **C93** for `SSIM()` (Gaussian blur over 11 samples, no padder): reversing any reduced axis of both images -/
theorem C93_gaussian {k1 k2 : ℝ} (sc cr : Bool) (hax : axesOf y1.ndim ax = some axes) (hne : axes ≠ []) (hnd : axes.Nodup)
    (hsz : ∀ k ∈ axes, 11 ≤ y1.shape.getD k 0) (h12 : y2.shape = y1.shape) (hr : axesOf y1.ndim rax = some raxes) (hrn : raxes.Nodup)
    (hd : d ∈ reducedAxes y1.ndim raxes) (junk junk' : List Nat → ℝ) :
    ∃ s, SSIM.initGaussian k1 k2 sc cr = .ok s ∧ ∃ q score full, s.forward junk y1 y2 ax rax none = (q, .ok (score, full)) ∧
      s.forward junk' (flipped d y1) (flipped d y2) ax rax none = (q, .ok (score, flipped d full)) := by
  obtain ⟨s, pool, h1, h2, h3⟩ := ssim_gaussian_weights k1 k2 sc cr
  have hl : (gaussWeights 11 (3 / 2) 0).length = 11 := by simp [gaussWeights]
  refine ⟨s, h1, C93_ssim h2 h3 (by intro h; cases h) (gp := none) (p := none) ⟨rfl, hax, ?_⟩ ?_ h12 hr hrn (Or.inr rfl) ?_ hd junk junk'⟩
  · refine (poolOps_of (g := PoolArgs.filter (.one (gaussWeights 11 (3 / 2) 0))) ?_ ⟨trivial, trivial⟩ hnd (checkAxes_spec hax).2 ?_).fitting
    · intro t ht
      simp only [PoolArgs.filter, Given.values, List.mem_singleton] at ht
      rw [ht]; simp
    · intro o ho
      obtain ⟨i, hi, rfl⟩ := mem_ops.1 ho
      show (gaussWeights 11 (3 / 2) 0).length ≤ _
      rw [hl]
      exact hsz _ (getD_mem_lt hi)
  · exact fun _ => windowSize_ne_one (by rw [hl]; norm_num) (by simpa using hne)
  · intro i hi _
    exact gaussWeights_palindrome (by norm_num) (by norm_num)

end

/-! ## where the conditions are needed, and concrete cases meeting them -/

open SsimExample in
/-- C93: an average of three samples, replicated borders -/
example : run 3 1 1 false (sig [0, 0, 3, 1]) (sig [3, 0, 1, 0]) (some ((args .replicate).padder 1)) =
      some ([5329403 / 19028100], [1 / 15, 99 / 1394, 323 / 650, 17 / 35]) ∧
    run 3 1 1 false (flipped 0 (sig [0, 0, 3, 1])) (flipped 0 (sig [3, 0, 1, 0])) (some ((args .replicate).padder 1)) =
      some ([5329403 / 19028100], [17 / 35, 323 / 650, 99 / 1394, 1 / 15]) := by decide +kernel

open SsimExample in
/-- **C93** is false for a blur with an even number of samples and a padder: the padding is not balanced. -/
theorem C93_even_false : ∃ u v f g, u ≠ v ∧ run 2 1 1 false (sig [0, 1, 3]) (sig [3, 1, 1]) (some ((args .replicate).padder 1)) = some ([u], f) ∧
    run 2 1 1 false (flipped 0 (sig [0, 1, 3])) (flipped 0 (sig [3, 1, 1])) (some ((args .replicate).padder 1)) = some ([v], g) :=
  ⟨31 / 180, 139 / 396, [1 / 10, 0, 5 / 12], [7 / 11, 5 / 12, 0], by decide +kernel, by decide +kernel, by decide +kernel⟩

open SsimExample in
/-- **C93** for MS-SSIM needs sizes that can be halved exactly: the last of an odd number of samples is left out, so that reversing the axis
leaves out another one. -/
theorem C93_downsample_odd_false : ∃ u v : Tensor ℚ, u ≠ v ∧ SSIM.downsample (fun _ => 0) (sig [1, 2, 4]) [0] = .ok u ∧
    SSIM.downsample (fun _ => 0) (flipped 0 (sig [1, 2, 4])) [0] = .ok (flipped 0 v) :=
  ⟨sig [3 / 2], sig [3], by decide +kernel, by decide +kernel, by decide +kernel⟩

end TI
