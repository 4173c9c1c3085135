import Verif.Proofs.Transpose
import Verif.Props.Batch

/-!
# Exchanging two axes of the image: C95
-/

set_option linter.unusedSectionVars false

namespace TI
open Tensor Spec

section
variable {α : Type} [Field α] [LinearOrder α] [IsStrictOrderedRing α]
variable {x y y1 y2 : Tensor α} {ax ax' rax rax' : Axes} {axes raxes : List Nat} {a b : Nat}

/-! ## padding and pooling -/

theorem zipRight_swapAxes (ss : List (AxisPad α)) : zipRight (swapAxes a b axes) ss = swapOps a b (zipRight axes ss) := by
  rw [zipRight, zipRight, swapAxes_length, swapAxes, ← List.map_drop, List.zip_map_left]
  rfl

/-- **C95.** If two axes of the tensor are exchanged, and the axes to pad are renamed accordingly, the padded tensor is the padded tensor with these
two axes exchanged, in every mode that defines values. -/
theorem C95_pad {p : Padder α} {ss : List (AxisPad α)} (h : PadCall p x ax axes ss) (ha : a < x.ndim) (hb : b < x.ndim)
    (hax : axesOf x.ndim ax' = some (swapAxes a b axes)) (junk junk' : List Nat → α) :
    ∃ z, p.forward junk x ax = .ok z ∧ p.forward junk' (transposed a b x) ax' = .ok (transposed a b z) := by
  have h' : PadCall p (transposed a b x) ax' (swapAxes a b axes) ss := ⟨by rw [transposed_ndim]; exact h.ndim_ne, by rw [transposed_ndim]; exact hax,
    swapAxes_nodup h.nodup, by rw [swapAxes_length]; exact h.len, h.reads, by
      intro o ho hw
      rw [zipRight_swapAxes] at ho
      obtain ⟨q, hq, rfl⟩ := List.mem_map.1 ho
      rw [transposed_size ha hb]
      exact h.valued q hq hw⟩
  refine ⟨_, forward_call h junk, ?_⟩
  rw [forward_call h' junk', zipRight_swapAxes, padSeq_transposed ha hb (fun o ho hw => (h.valued o ho hw).1) (zipRight_nodup h.nodup h.len_le)
    fun o ho hw => (h.valued o ho hw).2.2]

section
variable {pool : SepPool α} {g : PoolArgs α} {m : Nat}

/-- **C95**: the same for pooling without a padder. -/
theorem C95_pool (hp : Built pool g m) (hax : axesOf x.ndim ax = some axes) (hnd : axes.Nodup) (hm : g.isMany = true → axes.length = m)
    (hsz : ∀ i < axes.length, (g.op axes i).kernel.length ≤ x.shape.getD (axes.getD i 0) 0) (ha : a < x.ndim) (hb : b < x.ndim)
    (hax' : axesOf x.ndim ax' = some (swapAxes a b axes)) (junk junk' : List Nat → α) :
    ∃ y, SepPool.forward pool none junk x ax = (none, .ok y) ∧
      SepPool.forward pool none junk' (transposed a b x) ax' = (none, .ok (transposed a b y)) := by
  have hpo := poolOps_of hp.poolIs.2.2 (hp.poolIs.1.fits_axes hm) hnd (checkAxes_spec hax).2 (by
    intro o ho
    obtain ⟨i, hi, rfl⟩ := mem_ops.1 ho
    exact hsz i hi)
  obtain ⟨h1, h2⟩ := Fitting_transposed ha hb hpo.fitting
  refine ⟨_, hp.poolIs.1.forward_none hax hm hpo.fitting junk, ?_⟩
  rw [hp.poolIs.1.forward_none (x := transposed a b x) (ax := ax') (axes := swapAxes a b axes) (by rw [transposed_ndim]; exact hax')
    (by rw [swapAxes_length]; exact hm) (by rw [ops_swapAxes]; exact h1) junk', ops_swapAxes, h2]

/-- **C95** with a same padder, which is left in the same state. -/
theorem C95_pool_same {gp : PadArgs α} {p : Padder α} (hpl : Built pool g m) (hc : SameCall g gp x ax axes) (hm : g.isMany = true → axes.length = m)
    (hp : Holds p gp) (ha : a < x.ndim) (hb : b < x.ndim) (hax' : axesOf x.ndim ax' = some (swapAxes a b axes)) (junk junk' : List Nat → α) :
    ∃ q y, SepPool.forward pool (some p) junk x ax = (q, .ok y) ∧
      SepPool.forward pool (some p) junk' (transposed a b x) ax' = (q, .ok (transposed a b y)) := by
  refine ⟨_, _, hpl.poolIs.1.forward_same hc hm hp junk, ?_⟩
  rw [hpl.poolIs.1.forward_same (hc.transposed ha hb hax') (by rw [swapAxes_length]; exact hm) hp junk', same_transposed hc ha hb,
    widths_swapAxes ha hb, swapAxes_length]

theorem ops_swapAxes_perm (hg : g.isMany = false) (h : (swapAxes a b axes).Perm axes) : (g.ops (swapAxes a b axes)).Perm (g.ops axes) := by
  have hg' : g.kernel.isMany = false ∧ g.stride.isMany = false := by simpa [PoolArgs.isMany] using hg
  have e : ∀ l, g.ops l = l.map fun k => (⟨k, (g.op [] 0).kernel, (g.op [] 0).stride⟩ : PoolOp α) := by
    intro l
    apply List.ext_getElem (by simp [PoolArgs.ops])
    intro i h1 h2
    have hi : i < l.length := by simpa using h2
    simp only [PoolArgs.ops, PoolArgs.op, List.getElem_map, List.getElem_range, entry_of_not_many hg'.1 _ i, entry_of_not_many hg'.2 _ i]
    simp [hi]
  rw [e, e]
  exact h.map _

/-- **C95**, one kernel and one stride for all axes: exchanging two pooled axes (or two axes that are not pooled) commutes with the very same call. -/
theorem C95_pool_uniform (hp : Built pool g m) (hg : g.isMany = false) (hax : axesOf x.ndim ax = some axes) (hnd : axes.Nodup)
    (hsz : ∀ i < axes.length, (g.op axes i).kernel.length ≤ x.shape.getD (axes.getD i 0) 0) (ha : a < x.ndim) (hb : b < x.ndim)
    (hab : a ∈ axes ↔ b ∈ axes) (junk junk' : List Nat → α) :
    ∃ y, SepPool.forward pool none junk x ax = (none, .ok y) ∧
      SepPool.forward pool none junk' (transposed a b x) ax = (none, .ok (transposed a b y)) := by
  have hlt : ∀ k ∈ swapAxes a b axes, k < x.ndim := fun k hk => (swap_lt ha hb).1 ((checkAxes_spec hax).2 _ (mem_swapAxes.1 hk))
  have hax' : axesOf x.ndim (.seq (castV (swapAxes a b axes))) = some (swapAxes a b axes) := normAxes_castV hlt
  obtain ⟨y, h1, h2⟩ := C95_pool hp hax hnd (by intro h; rw [hg] at h; cases h) hsz ha hb hax' junk junk'
  refine ⟨y, h1, ?_⟩
  rw [← h2]
  refine (C32_axis_order hp hp (by rw [transposed_ndim]; exact hax') (by rw [transposed_ndim]; exact hax) (by intro h; rw [hg] at h; cases h)
    (by intro h; rw [hg] at h; cases h) (swapAxes_nodup hnd) (ops_swapAxes_perm hg ?_) junk' junk').symm
  rw [List.perm_ext_iff_of_nodup (swapAxes_nodup hnd) hnd]
  intro k
  rw [mem_swapAxes, Equiv.swap_apply_def]
  split_ifs with h3 h4
  · rw [h3]; exact hab.symm
  · rw [h4]; exact hab
  · rfl

end

/-! ## edge filters -/

section
variable [FloorRing α] {f : EdgeFilter α} {w : List α} {g : Given (List α)} {m : Nat} {gp : PadArgs α}

theorem Spec.EdgeSetup.transposed (h : EdgeSetup g gp x ax axes) (ha : a < x.ndim) (hb : b < x.ndim)
    (hax : axesOf x.ndim ax' = some (swapAxes a b axes)) : EdgeSetup g gp (transposed a b x) ax' (swapAxes a b axes) where
  axes_eq := by rw [transposed_ndim]; exact hax
  two := by rw [swapAxes_length]; exact h.two
  nodup := swapAxes_nodup h.nodup
  fits := by rw [swapAxes_length]; exact h.fits
  pos := by
    intro k hk
    rw [← Equiv.swap_apply_self a b k, transposed_size ha hb]
    exact h.pos _ (mem_swapAxes.1 hk)
  uniform := h.uniform
  valued := h.valued
  keep := by
    refine h.keep.imp_right fun hk k hk' => ?_
    rw [← Equiv.swap_apply_self a b k, transposed_size ha hb]
    exact hk _ (mem_swapAxes.1 hk')

theorem swapAxes_filter (k : Nat) : ((swapAxes a b axes).filter fun j => j ≠ Equiv.swap a b k) = swapAxes a b (axes.filter fun j => j ≠ k) := by
  rw [swapAxes, List.filter_map, swapAxes]
  congr 1
  apply List.filter_congr
  intro j _
  simp [Function.comp]

theorem edgeResponse_transposed (h : EdgeSetup g gp x ax axes) (ha : a < x.ndim) (hb : b < x.ndim) {k : Nat} (hk : k ∈ axes) :
    edgeResponse w g gp (Spec.transposed a b x) (swapAxes a b axes) (Equiv.swap a b k) = Spec.transposed a b (edgeResponse w g gp x axes k) := by
  have hc := h.edgeCall w hk
  have e : filtered (.one w) gp (Spec.transposed a b x) [Equiv.swap a b k] = Spec.transposed a b (filtered (.one w) gp x [k]) :=
    same_transposed hc.edge ha hb
  have hn : (filtered (.one w) gp x [k]).ndim = x.ndim := by rw [ndim, h.edge_shape w hk]; rfl
  rw [edgeResponse, edgeResponse, e, swapAxes_filter]
  exact same_transposed hc.smooth (by rw [hn]; exact ha) (by rw [hn]; exact hb)

/-- **C95**: the components of an edge filter along the renamed axes are the components with the two axes exchanged. -/
theorem C95_edges (hf : EdgeBuilt f w g m) {ps : EdgePadders α} (hps : HoldsBoth ps gp) (h : EdgeSetup g gp x ax axes)
    (hm : g.isMany = true → axes.length - 1 = m) (ha : a < x.ndim) (hb : b < x.ndim) (hax : axesOf x.ndim ax' = some (swapAxes a b axes))
    (junk junk' : List Nat → α) :
    ∃ ps' ps'' cs, f.allComponents ps junk x ax = (ps', .ok cs) ∧
      f.allComponents ps junk' (Spec.transposed a b x) ax' = (ps'', .ok (cs.map (Spec.transposed a b))) := by
  obtain ⟨ps', e, -⟩ := C75_components hf hps h hm junk
  obtain ⟨ps'', e', -⟩ := C75_components hf hps (h.transposed ha hb hax) (by rw [swapAxes_length]; exact hm) junk'
  refine ⟨ps', ps'', _, e, ?_⟩
  rw [e', swapAxes, List.map_map, List.map_map]
  congr 2
  apply List.map_congr_left
  intro k hk
  exact edgeResponse_transposed h ha hb hk

end

/-! ## squared errors -/

theorem squaredError_transposed (ha : a < x.ndim) (hb : b < x.ndim) (h : x.shape = y.shape) :
    squaredError (transposed a b x) (transposed a b y) = transposed a b (squaredError x y) := by
  rw [squaredError, show transposed a b (squaredError x y) = ofFn (swapAt a b x.shape) _ from rfl, transposed_shape]
  apply ofFn_congr
  intro ix hix
  rw [transposed_get hix, transposed_get (by rw [← h]; exact hix), squaredError, get_ofFn (swapAt_inB' ha hb hix)]

/-- **C95**: exchanging two reduced axes of both images leaves the squared errors as they are; without reduction they are exchanged too. -/
theorem C95_mse (h : x.shape = y.shape) (hax : axesOf x.ndim ax = some axes) (hnd : axes.Nodup) (hax' : axesOf x.ndim ax' = some (swapAxes a b axes))
    (ha : a ∈ reducedAxes x.ndim axes) (hb : b ∈ reducedAxes x.ndim axes) (ha' : a < x.ndim) (hb' : b < x.ndim) :
    mse .mean (transposed a b x) (transposed a b y) ax' = mse .mean x y ax ∧
    mse .sum (transposed a b x) (transposed a b y) ax' = mse .sum x y ax ∧
    ∃ e, mse .none x y ax = .ok e ∧ mse .none (transposed a b x) (transposed a b y) ax' = .ok (transposed a b e) := by
  have h' : (transposed a b x).shape = (transposed a b y).shape := by rw [transposed_shape, transposed_shape, h]
  have hax'' : axesOf (transposed a b x).ndim ax' = some (swapAxes a b axes) := by rw [transposed_ndim]; exact hax'
  have key : ∀ f : List α → α, (∀ l l', l.Perm l' → f l = f l') →
      (ofFn (onKept (reducedAxes x.ndim (swapAxes a b axes)) (transposed a b x).shape) fun jx =>
        f ((collected (transposed a b x).shape (reducedAxes x.ndim (swapAxes a b axes)) jx).map fun ix =>
          ((transposed a b x).get ix - (transposed a b y).get ix) ^ 2)) =
      ofFn (onKept (reducedAxes x.ndim axes) x.shape) fun jx => f ((collected x.shape (reducedAxes x.ndim axes) jx).map fun ix => (x.get ix - y.get ix) ^ 2) := by
    intro f hf
    rw [squaredError_collected f, squaredError_collected f, squaredError_transposed ha' hb' h,
      ← reduced_transposed (x := squaredError x y) f hf ha' hb' ha hb]
    have hk := mem_reducedAxes_swap ha hb
    rw [onKept_congr hk]
    apply ofFn_congr
    intro jx _
    rw [collected_congr hk]
  refine ⟨?_, ?_, _, C55_none h hax, ?_⟩
  · rw [C55_mean h hax hnd, C55_mean h' hax'' (swapAxes_nodup hnd), transposed_ndim]
    exact congrArg Except.ok (key mean fun _ _ h => mean_perm h)
  · rw [C55_sum h hax hnd, C55_sum h' hax'' (swapAxes_nodup hnd), transposed_ndim]
    exact congrArg Except.ok (key (fun l => l.sum) fun _ _ h => h.sum_eq)
  · rw [C55_none h' hax'']
    exact congrArg Except.ok (squaredError_transposed ha' hb' h)

/-! ## SSIM -/

section
variable {s : SSIM α} {pool : SepPool α} {g : PoolArgs α} {m : Nat} {gp : Option (PadArgs α)} {p : Option (Padder α)} {k1 k2 : α} {sc cr : Bool}

theorem padderAfter_transposed {g : Given (List α)} (ha : a < x.ndim) (hb : b < x.ndim) :
    padderAfter g gp (transposed a b x).shape (swapAxes a b axes) = padderAfter g gp x.shape axes := by
  cases gp with
  | none => rfl
  | some gp => simp only [padderAfter, Option.map, widths_swapAxes ha hb, swapAxes_length]

/-- **C95**: with the blurred and reduced axes renamed, the SSIM map has its axes exchanged, and the scores are the same if both axes are reduced. -/
theorem C95_ssim (hi : SSIM.init pool false k1 k2 sc cr = .ok s) (hp : Built pool g m) (hm : g.kernel.isMany = true → axes.length = m)
    (h : BlurCall g.kernel gp y1 ax axes p) (hN : sc = true → windowSize g.kernel axes.length ≠ 1) (h12 : y2.shape = y1.shape)
    (hr : axesOf y1.ndim rax = some raxes) (hrn : raxes.Nodup) (hc : cr = false ∨ gp = none) (ha : a < y1.ndim) (hb : b < y1.ndim)
    (hax : axesOf y1.ndim ax' = some (swapAxes a b axes)) (hrax : axesOf y1.ndim rax' = some (swapAxes a b raxes)) (junk junk' : List Nat → α) :
    ∃ q score score' full, s.forward junk y1 y2 ax rax p = (q, .ok (score, full)) ∧
      s.forward junk' (transposed a b y1) (transposed a b y2) ax' rax' p = (q, .ok (score', transposed a b full)) ∧
      (a ∈ reducedAxes y1.ndim raxes → b ∈ reducedAxes y1.ndim raxes → score' = score) := by
  refine ⟨_, _, meanOver (ssimMap k1 k2 (covFactor sc (windowSize g.kernel axes.length)) (blurred g.kernel gp (swapAxes a b axes)) (transposed a b y1)
    (transposed a b y2)) (swapAxes a b raxes), _, C79_formula hi hp hm h hN h12 hr hrn hc junk, ?_⟩
  have e := C79_formula hi hp (by rw [swapAxes_length]; exact hm) (h.transposed ha hb hax) (by rw [swapAxes_length]; exact hN)
    (show (transposed a b y2).shape = (transposed a b y1).shape by rw [transposed_shape, transposed_shape, h12])
    (show axesOf (transposed a b y1).ndim rax' = some _ by rw [transposed_ndim]; exact hrax) (swapAxes_nodup hrn) hc junk'
  rw [swapAxes_length] at e
  rw [e]
  have e : ssimMap k1 k2 (covFactor sc (windowSize g.kernel axes.length)) (blurred g.kernel gp (swapAxes a b axes)) (transposed a b y1) (transposed a b y2) =
      transposed a b (ssimMap k1 k2 (covFactor sc (windowSize g.kernel axes.length)) (blurred g.kernel gp axes) y1 y2) :=
    pointMap_blur_transposed (ssimIndex (k1 ^ 2) (k2 ^ 2) (covFactor (α := α) sc (windowSize g.kernel axes.length))) h h12 ha hb
  have hn : (ssimMap k1 k2 (covFactor sc (windowSize g.kernel axes.length)) (blurred g.kernel gp axes) y1 y2).ndim = y1.ndim := blurred_ndim h
  refine ⟨?_, fun hda hdb => ?_⟩
  · rw [padderAfter_transposed ha hb, e]
  · rw [e, meanOver_transposed (by rw [hn]; exact ha) (by rw [hn]; exact hb) (by rw [hn]; exact hda) (by rw [hn]; exact hdb)]

end
end

/-! ## MS-SSIM -/

theorem msMap_transposed {g : Given (List ℝ)} {gp : Option (PadArgs ℝ)} {y1 y2 : Tensor ℝ} {axes : List Nat} {p : Option (Padder ℝ)} {a b : Nat}
    {cr up : Bool} {eps k1 k2 f : ℝ} {ws : List ℝ} {L : Nat} (hL : ws.length = L + 1) (h : MsAt g gp cr L y1 axes p)
    (h12 : y2.shape = y1.shape) (ha : a < y1.ndim) (hb : b < y1.ndim) :
    msMap up eps k1 k2 f (scoreBlur g gp cr (swapAxes a b axes)) (swapAxes a b axes) ws (transposed a b y1) (transposed a b y2) =
      transposed a b (msMap up eps k1 k2 f (scoreBlur g gp cr axes) axes ws y1 y2) := by
  rw [msMap, transposed_shape, onesAt_swapAxes ha hb,
    show transposed a b (msMap up eps k1 k2 f (scoreBlur g gp cr axes) axes ws y1 y2) = ofFn (swapAt a b (onesAt axes y1.shape)) _ from rfl]
  apply ofFn_congr
  intro jx hjx
  rw [msMap, get_ofFn (swapAt_inB' (by rw [onesAt_length]; exact ha) (by rw [onesAt_length]; exact hb) hjx)]
  congr 1
  apply List.map_congr_left
  intro i hi
  have hi' : i ≤ L := by have := List.mem_range.1 hi; omega
  have hat : MsAt g gp cr (L - i + i) y1 axes p := by rw [Nat.sub_add_cancel hi']; exact h
  have hn := atLevel_ndim (axes := axes) i y1
  rw [msLevel, msLevel, atLevel_transposed i hat ha hb,
    atLevel_transposed i (hat.congr h12) (by rw [ndim, h12]; exact ha) (by rw [ndim, h12]; exact hb),
    levelScore_transposed (MsAt.level i hat) (atLevel_shape_congr i h12) (by rw [hn]; exact ha) (by rw [hn]; exact hb)]
  rw [transposed_get]
  rw [levelScore_shape (MsAt.level i hat), atLevel_onesAt]
  exact hjx

section
variable {y1 y2 : Tensor ℝ} {ax ax' rax rax' : Axes} {axes raxes : List Nat} {a b : Nat}
variable {s : SSIM ℝ} {pool : SepPool ℝ} {g : PoolArgs ℝ} {m : Nat} {gp : Option (PadArgs ℝ)} {p : Option (Padder ℝ)} {k1 k2 : ℝ} {sc cr : Bool}
  {ws : List ℝ}

/-- **C95**: exchanging two reduced axes of both images, and renaming the content axes, leaves MS-SSIM as it is. -/
theorem C95_msssim (hi : SSIM.init pool false k1 k2 sc cr = .ok s) (hp : Built pool g m) (hm : g.kernel.isMany = true → axes.length = m)
    (hw : 2 ≤ ws.length) (h : MsCall g.kernel gp cr ws.length y1 ax axes p) (hN : sc = true → windowSize g.kernel axes.length ≠ 1)
    (h12 : y2.shape = y1.shape) (hr : axesOf y1.ndim rax = some raxes) (hrn : raxes.Nodup) (ha : a < y1.ndim) (hb : b < y1.ndim)
    (hax : axesOf y1.ndim ax' = some (swapAxes a b axes)) (hrax : axesOf y1.ndim rax' = some (swapAxes a b raxes))
    (hda : a ∈ reducedAxes y1.ndim raxes) (hdb : b ∈ reducedAxes y1.ndim raxes) (up : Bool) (eps : ℝ) (junk junk' : List Nat → ℝ) :
    (⟨s, ws, up, eps⟩ : MsSsim).forward junk' (transposed a b y1) (transposed a b y2) ax' rax' p =
      (⟨s, ws, up, eps⟩ : MsSsim).forward junk y1 y2 ax rax p := by
  have h' : MsCall g.kernel gp cr ws.length (transposed a b y1) ax' (swapAxes a b axes) p := ⟨by rw [transposed_ndim]; exact hax,
    by simpa [swapAxes] using h.ne, swapAxes_nodup h.nodup, by rw [swapAxes_length]; exact h.fits, by rw [swapAxes_length]; exact h.kernel, by
    intro i hi
    rw [swapAxes_length] at hi
    rw [swapAxes_getD hi, transposed_size ha hb]
    exact h.large i hi, by rw [swapAxes_length]; exact h.padder⟩
  have e := C80_formula hi hp (by rw [swapAxes_length]; exact hm) hw h' (by rw [swapAxes_length]; exact hN)
    (show (transposed a b y2).shape = (transposed a b y1).shape by rw [transposed_shape, transposed_shape, h12])
    (show axesOf (transposed a b y1).ndim rax' = some _ by rw [transposed_ndim]; exact hrax) (swapAxes_nodup hrn) up eps junk'
  rw [swapAxes_length] at e
  rw [C80_formula hi hp hm hw h hN h12 hr hrn up eps junk, e]
  obtain ⟨L, hL⟩ : ∃ L, ws.length = L + 1 := ⟨ws.length - 1, by omega⟩
  have hat : MsAt g.kernel gp cr L y1 axes p := by rw [hL] at h; exact h.at
  have hn : (msMap up eps k1 k2 (covFactor sc (windowSize g.kernel axes.length)) (scoreBlur g.kernel gp cr axes) axes ws y1 y2).ndim = y1.ndim :=
    onesAt_length _ _
  have hl := atLevel_ndim (axes := axes) (ws.length - 1) y1
  rw [msMap_transposed hL hat h12 ha hb, meanOver_transposed (by rw [hn]; exact ha) (by rw [hn]; exact hb) (by rw [hn]; exact hda) (by rw [hn]; exact hdb),
    atLevel_transposed (r := 0) (ws.length - 1) (by rw [hL, Nat.add_sub_cancel, Nat.zero_add]; exact hat) ha hb,
    padderAfter_transposed (by rw [hl]; exact ha) (by rw [hl]; exact hb)]

end

/-! ## concrete cases meeting the hypotheses -/

namespace TransposeExample
open SsimExample BatchExample

example : (transposed 0 1 (pair [1, 2, 4, 9, 0, 0, 3, 1])).shape = [4, 2] ∧
    (transposed 0 1 (pair [1, 2, 4, 9, 0, 0, 3, 1])).data = [1, 0, 2, 0, 4, 3, 9, 1] := by decide +kernel

/-- C95: averages along the second axis of the image are averages along the first axis of the transposed image -/
example : (do
    let p ← SepPool.avgInit (.leaf (some 3)) (.leaf (some 1))
    let r ← (SepPool.forward p none (fun _ => 0) (pair [1, 2, 3, 7, 0, 0, 3, 3]) (.int 1)).2
    let r' ← (SepPool.forward p none (fun _ => 0) (transposed 0 1 (pair [1, 2, 3, 7, 0, 0, 3, 3])) (.int 0)).2
    .ok (r.data, r'.data) : Except Err (List ℚ × List ℚ)).toOption = some ([2, 4, 1, 2], [2, 1, 4, 2]) := by decide +kernel

/-- C95: the SSIM of two images blurred along the second axis, and of the transposed images blurred along the first axis -/
example (junk junk' : List Nat → ℚ) (u v : List ℚ) : ∃ (pool : SepPool ℚ) (s : SSIM ℚ),
    SepPool.avgInit (.leaf (some 3)) (.leaf none) = .ok pool ∧ SSIM.init pool false 1 1 false false = .ok s ∧
    ∃ q score full, s.forward junk (pair u) (pair v) (.int 1) .none (some ((args .replicate).padder 1)) = (q, .ok (score, full)) ∧
      s.forward junk' (transposed 0 1 (pair u)) (transposed 0 1 (pair v)) (.int 0) (.seq [1, 0]) (some ((args .replicate).padder 1)) =
        (q, .ok (score, transposed 0 1 full)) := by
  obtain ⟨pool, h1, h2, _⟩ := C34_average_kernels (α := ℚ) (size := .one 3) (st := .one none) (m := 1) (by decide) trivial trivial
    (by intro s hs; simp [Given.values] at hs; simp [hs])
  obtain ⟨f, hf, _⟩ := h2.poolIs.1.toFilter
  have hi : SSIM.init pool false 1 1 false false = .ok (⟨f, false, 1, 1, false, false⟩ : SSIM ℚ) := by
    simp only [SSIM.init, hf, ok_bind]
  obtain ⟨q, score, score', full, e1, e2, e3⟩ := C95_ssim hi h2 (by intro h; cases h) (gp := some (args .replicate))
    (p := some ((args .replicate).padder 1)) ⟨⟨_, rfl, holds_padder _ 1⟩, sameCall_pair u⟩ (by intro h; cases h) (show (pair v).shape = (pair u).shape from rfl)
    (rax := .none) (raxes := [0, 1]) rfl (by decide) (Or.inl rfl) (a := 0) (b := 1) (ax' := .int 0) (rax' := .seq [1, 0])
    (by show 0 < 2; decide) (by show 1 < 2; decide) (by show axesOf 2 (.int 0) = some (swapAxes 0 1 [1]); decide)
    (by show axesOf 2 (.seq [1, 0]) = some (swapAxes 0 1 [0, 1]); decide) junk junk'
  rw [e3 (by show 0 ∈ reducedAxes 2 [0, 1]; decide) (by show 1 ∈ reducedAxes 2 [0, 1]; decide)] at e2
  exact ⟨pool, _, h1, hi, q, score, full, e1, e2⟩

end TransposeExample

/-- C95: the components of `SobelFilter` along rows and columns of an image and of its transpose -/
example (junk junk' : List Nat → ℚ) : ∃ f : EdgeFilter ℚ, EdgeFilter.sobel false = .ok f ∧
    ∃ ps' ps'' cs, f.allComponents Example.reflectPadders junk Example.impulse (.seq [0, 1]) = (ps', .ok cs) ∧
      f.allComponents Example.reflectPadders junk' (transposed 0 1 Example.impulse) (.seq [1, 0]) = (ps'', .ok (cs.map (transposed 0 1))) := by
  obtain ⟨f, h1, h2⟩ := Example.sobel_built
  exact ⟨f, h1, C95_edges h2 Example.reflect_holds (axes := [0, 1]) (Example.setup_impulse rfl) (by intro h; cases h) (by show 0 < 2; decide) (by show 1 < 2; decide)
    (by show axesOf 2 (.seq [1, 0]) = some (swapAxes 0 1 [0, 1]); decide) junk junk'⟩

end TI
