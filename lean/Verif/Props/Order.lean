import Verif.Proofs.Order
import Verif.Props.Grey

/-!
# C101: brighter images give brighter results, small changes stay small
-/

set_option linter.unusedSectionVars false

namespace TI
open Tensor Spec

section
variable {α : Type} [Field α] [LinearOrder α] [IsStrictOrderedRing α]
variable {x y : Tensor α} {ax : Axes} {axes : List Nat} {δ : α}

/-! ## padding -/

/-- **C101.** Padding with samples, statistics, constants or ramps keeps the order: if no entry of `x` exceeds that of `y` and no constant or end
value of the first padder exceeds that of the second, no entry of the padded `x` exceeds that of the padded `y`. -/
theorem C101_pad {p p' : Padder α} {ss ss' : List (AxisPad α)} (h : PadCall p x ax axes ss) (h' : PadCall p' y ax axes ss')
    (hf : ∀ j (h1 : j < ss.length) (h2 : j < ss'.length), ss'[j].before = ss[j].before ∧ ss'[j].after = ss[j].after ∧
      (¬ (ss[j].before = 0 ∧ ss[j].after = 0) → ss[j].Rises ss'[j])) (hl : ss'.length = ss.length) (hxy : Below x y) (junk junk' : List Nat → α) :
    ∃ z z', p.forward junk x ax = .ok z ∧ p'.forward junk' y ax = .ok z' ∧ Below z z' := by
  refine ⟨_, _, forward_call h junk, forward_call h' junk', ?_⟩
  apply padSeq_below (zipRight_nodup h.nodup h.len_le)
  · rw [zipRight, zipRight, List.forall₂_iff_get, hl]
    refine ⟨by simp [hl], ?_⟩
    intro i h1 h2
    simp only [List.length_zip, List.length_drop, hl] at h1 h2
    simp only [List.get_eq_getElem, List.getElem_zip]
    exact ⟨trivial, hf i (by omega) (by omega)⟩
  · exact fun o ho => (checkAxes_spec h.axes_eq).2 _ (zipRight_mem ho).1
  · exact fun o ho hw => ⟨(h.valued o ho hw).1, (h.valued o ho hw).2.2⟩
  · exact hxy

/-- **C101**: such a padder enlarges no distance: entries that differ by at most `δ` lead to padded entries that differ by at most `δ`. -/
theorem C101_pad_close {p : Padder α} {ss : List (AxisPad α)} (h : PadCall p x ax axes ss)
    (hf : ∀ s ∈ ss, ¬ (s.before = 0 ∧ s.after = 0) → s.Rises s) (hδ : 0 ≤ δ) (hxy : Close δ x y) (junk junk' : List Nat → α) :
    ∃ z z', p.forward junk x ax = .ok z ∧ p.forward junk' y ax = .ok z' ∧ Close δ z z' := by
  have hs := hxy.1
  have h' : PadCall p y ax axes ss := by
    refine ⟨?_, ?_, h.nodup, h.len, h.reads, ?_⟩
    · simp only [ndim, hs]; exact h.ndim_ne
    · simp only [ndim, hs]; exact h.axes_eq
    · rw [hs]; exact h.valued
  refine ⟨_, _, forward_call h junk, forward_call h' junk', ?_⟩
  exact padSeq_close hδ (zipRight_nodup h.nodup h.len_le) (fun o ho => (checkAxes_spec h.axes_eq).2 _ (zipRight_mem ho).1)
    (fun o ho hz => hf _ (zipRight_mem ho).2 hz) (fun o ho hw => ⟨(h.valued o ho hw).1, (h.valued o ho hw).2.2⟩) hxy

/-! ## pooling -/

section
variable {pool : SepPool α} {g : PoolArgs α} {m : Nat}

/-- **C101**: pooling with non-negative weights keeps the order, and multiplies distances by at most the sum of all weights. -/
theorem C101_pool (hb : Built pool g m) (hax : axesOf x.ndim ax = some axes) (hnd : axes.Nodup) (hm : g.isMany = true → axes.length = m)
    (hsz : ∀ i < axes.length, (g.op axes i).kernel.length ≤ x.shape.getD (axes.getD i 0) 0) (hw : ∀ i < axes.length, ∀ a ∈ (g.op axes i).kernel, 0 ≤ a)
    (hs : y.shape = x.shape) (junk junk' : List Nat → α) :
    ∃ z z', SepPool.forward pool none junk x ax = (none, .ok z) ∧ SepPool.forward pool none junk' y ax = (none, .ok z') ∧
      (Below x y → Below z z') ∧ ∀ δ, Close δ x y → Close (δ * totalWeight (g.ops axes)) z z' := by
  have hpo := poolOps_of hb.poolIs.2.2 (hb.poolIs.1.fits_axes hm) hnd (checkAxes_spec hax).2 (by
    intro o ho
    obtain ⟨i, hi, rfl⟩ := mem_ops.1 ho
    exact hsz i hi)
  have hwo : ∀ o ∈ g.ops axes, ∀ a ∈ o.kernel, 0 ≤ a := by
    intro o ho
    obtain ⟨i, hi, rfl⟩ := mem_ops.1 ho
    exact hw i hi
  refine ⟨_, _, hb.poolIs.1.forward_none hax hm hpo.fitting junk,
    hb.poolIs.1.forward_none (x := y) (by simp only [ndim, hs]; exact hax) hm (Fitting_congr hs.symm hpo.fitting) junk', ?_, ?_⟩
  · exact poolSeq_below hpo.fitting hwo
  · exact fun δ => poolSeq_close hpo.fitting hwo

/-- **C101**: the same with a same padder that fills with samples, statistics, constants or ramps. -/
theorem C101_pool_same {gp gp' : PadArgs α} {p p' : Padder α} (hb : Built pool g m) (hc : SameCall g gp x ax axes) (hc' : SameCall g gp' y ax axes)
    (hm : g.isMany = true → axes.length = m) (hp : Holds p gp) (hp' : Holds p' gp') (hr : gp.Rises axes.length gp')
    (hw : ∀ i < axes.length, ∀ a ∈ (g.op axes i).kernel, 0 ≤ a) (hxy : Below x y) (junk junk' : List Nat → α) :
    ∃ q q' z z', SepPool.forward pool (some p) junk x ax = (q, .ok z) ∧ SepPool.forward pool (some p') junk' y ax = (q', .ok z') ∧ Below z z' := by
  refine ⟨_, _, _, _, hb.poolIs.1.forward_same hc hm hp junk, hb.poolIs.1.forward_same hc' hm hp' junk', ?_⟩
  have hwo : ∀ o ∈ g.ops axes, ∀ a ∈ o.kernel, 0 ≤ a := by
    intro o ho
    obtain ⟨i, hi, rfl⟩ := mem_ops.1 ho
    exact hw i hi
  apply poolSeq_below hc.poolOps.fitting hwo
  rw [hxy.1]
  apply padSeq_below (by rw [sameOps_fst]; exact hc.nodup) _ _ _ hxy
  · rw [sameOps, sameOps, List.forall₂_iff_get]
    refine ⟨by simp, ?_⟩
    intro i h1 h2
    have hi : i < axes.length := by simpa using h1
    simp only [List.get_eq_getElem, List.getElem_zip, List.getElem_map, List.getElem_range]
    rw [withWidths_entry _ _ _ _ hi, withWidths_entry _ _ _ _ hi]
    exact ⟨trivial, rfl, rfl, fun _ => ⟨(hr i hi).mode, (hr i hi).sl, (hr i hi).fill⟩⟩
  · exact hc.lt
  · intro o ho hw
    refine ⟨hc.opsOK o ho hw, ?_⟩
    obtain ⟨i, hi, rfl⟩ := sameOps_mem ho
    exact hc.pos _ (getD_mem_lt hi)

/-- **C101**: a same-padded filter whose weights are averages (all window averages and Gaussian blurs) enlarges no distance. -/
theorem C101_filter_close {gp : PadArgs α} {p : Padder α} (hb : Built pool g m) (hc : SameCall g gp x ax axes)
    (hm : g.isMany = true → axes.length = m) (hp : Holds p gp) (hr : gp.Rises axes.length gp)
    (hw : ∀ i < axes.length, (g.op axes i).kernel ≠ [] → IsAverage (g.op axes i).kernel) (hδ : 0 ≤ δ) (hxy : Close δ x y) (junk junk' : List Nat → α) :
    ∃ q q' z z', SepPool.forward pool (some p) junk x ax = (q, .ok z) ∧ SepPool.forward pool (some p) junk' y ax = (q', .ok z') ∧ Close δ z z' := by
  have hs := hxy.1
  refine ⟨_, _, _, _, hb.poolIs.1.forward_same hc hm hp junk, hb.poolIs.1.forward_same (hc.congr hs) hm hp junk', ?_⟩
  have hwo : ∀ o ∈ g.ops axes, ∀ a ∈ o.kernel, 0 ≤ a := by
    intro o ho
    obtain ⟨i, hi, rfl⟩ := mem_ops.1 ho
    by_cases hk : (g.op axes i).kernel = []
    · rw [hk]; simp
    · exact (hw i hi hk).1
  have h1 : totalWeight (g.ops axes) = 1 := by
    apply totalWeight_one
    intro o ho hk
    obtain ⟨i, hi, rfl⟩ := mem_ops.1 ho
    exact (hw i hi hk).2
  have := poolSeq_close (δ := δ) hc.poolOps.fitting hwo (y := padSeq y (sameOps g gp y.shape axes)) (by
    rw [hs]
    apply padSeq_close hδ (by rw [sameOps_fst]; exact hc.nodup) _ _ _ hxy
    · exact hc.lt
    · intro o ho hz
      obtain ⟨i, hi, rfl⟩ := sameOps_mem ho
      simp only [sameSetting]
      exact ⟨rfl, rfl, (hr i hi).fill⟩
    · intro o ho hw
      refine ⟨hc.opsOK o ho hw, ?_⟩
      obtain ⟨i, hi, rfl⟩ := sameOps_mem ho
      exact hc.pos _ (getD_mem_lt hi))
  rwa [h1, mul_one] at this

end

end

namespace OrderExample
open SsimExample FlipExample

/-- C101: signals with 1 ≤ 1, 2 ≤ 5, 4 ≤ 4 and their maxima -/
example : padded (request (1, 2) (.stat .maximum)) (sig [1, 2, 4]) = some [2, 1, 2, 4, 4, 4] ∧
    padded (request (1, 2) (.stat .maximum)) (sig [1, 5, 4]) = some [5, 1, 5, 4, 5, 5] := by decide +kernel

/-- C101: the hypotheses hold -/
example : ∃ z z', ((request (2, 1) (.stat .median)).padder 1).forward (fun _ => 0) (sig [1, 2, 4]) .none = .ok z ∧
    ((request (2, 1) (.stat .median)).padder 1).forward (fun _ => 0) (sig [1, 5, 4]) .none = .ok z' ∧ Below z z' := by
  refine C101_pad (call (2, 1) (.stat .median) _ _ _ _ rfl (by simp [AxisPad.rule?]) (by simp))
    (call (2, 1) (.stat .median) _ _ _ _ rfl (by simp [AxisPad.rule?]) (by simp)) ?_ rfl ?_ _ _
  · intro j h1 h2
    have hj : j = 0 := by simpa using h1
    subst hj
    exact ⟨rfl, rfl, fun _ => ⟨rfl, rfl, trivial⟩⟩
  · refine ⟨rfl, ?_⟩
    intro ix hix
    obtain ⟨hl, h⟩ := inB_iff.1 hix
    match ix, hl, h with
    | [i], _, h =>
      have : i < 3 := h 0 (by decide)
      interval_cases i <;> decide +kernel

/-- Smooth padding does not keep the order: raising a sample next to the border lowers the continuation. -/
example : padded (request (0, 1) .smooth) (sig [1, 2, 4]) = some [1, 2, 4, 6] ∧
    padded (request (0, 1) .smooth) (sig [1, 3, 4]) = some [1, 3, 4, 5] := by decide +kernel

/-- C101: the window average of a signal and of a signal within 1/10 of it -/
example (junk junk' : List Nat → ℚ) (y : Tensor ℚ) (hy : Close (1 / 10) (sig [1, 2, 4, 9]) y) : ∃ (pool : SepPool ℚ),
    SepPool.avgInit (.leaf (some 3)) (.leaf (some 1)) = .ok pool ∧ ∃ q q' z z',
    SepPool.forward pool (some ((args .replicate).padder 1)) junk (sig [1, 2, 4, 9]) .none = (q, .ok z) ∧
    SepPool.forward pool (some ((args .replicate).padder 1)) junk' y .none = (q', .ok z') ∧ Close (1 / 10) z z' := by
  obtain ⟨pool, h1, h2, _⟩ := C34_average_kernels (α := ℚ) (size := .one 3) (st := .one (some 1)) (m := 1) (by decide) trivial trivial
    (by intro s hs; simp [Given.values] at hs; simp [hs])
  refine ⟨pool, h1, C101_filter_close h2 sameCall_sig (by intro h; cases h) (holds_padder _ 1) ?_ ?_ (by norm_num) hy junk junk'⟩
  · intro i _
    exact ⟨rfl, rfl, trivial⟩
  · intro i hi _
    have : i = 0 := by simpa using hi
    subst this
    constructor
    · intro a ha
      revert a
      decide +kernel
    · decide +kernel

end OrderExample
end TI
