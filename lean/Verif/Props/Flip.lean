import Verif.Proofs.Flip
import Verif.Props.Ssim

/-!
# Reversing an axis: C91, C92
-/

set_option linter.unusedSectionVars false

namespace TI
open Tensor Spec

section
variable {α : Type} [Field α] [LinearOrder α] [IsStrictOrderedRing α]
variable {x : Tensor α} {ax : Axes} {axes : List Nat} {d : Nat}

/-! ## C91: padding -/

section
variable {p p' : Padder α} {ss ss' : List (AxisPad α)}

/-- **C91.** Padding commutes with reversing an axis, if the widths, constants, end values and statistic lengths of that axis are
exchanged as well (`periodize` on that axis only for an even number of samples, see `C91_periodize_false`). -/
theorem C91_mirrored_partial (h : PadCall p x ax axes ss) (h' : PadCall p' (flipped d x) ax axes ss')
    (hm : zipRight axes ss' = mirrorAt d (zipRight axes ss))
    (hper : ∀ o ∈ zipRight axes ss, o.1 = d → o.2.mode.isPeriodize = true → x.shape.getD d 0 % 2 = 0) (junk junk' : List Nat → α) :
    ∃ z, p.forward junk x ax = .ok z ∧ p'.forward junk' (flipped d x) ax = .ok (flipped d z) := by
  refine ⟨_, forward_call h junk, ?_⟩
  rw [forward_call h' junk', hm, padSeq_flip]
  · exact fun o ho hw => (h.valued o ho hw).1
  · exact zipRight_nodup h.nodup h.len_le
  · exact fun o ho => (checkAxes_spec h.axes_eq).2 o.1 (zipRight_mem ho).1
  · exact fun o ho hw => ⟨(h.valued o ho hw).2.2, fun e hp => e ▸ hper o ho e hp⟩

/-- **C91**: a padder whose settings of axis `d` are the same before and after commutes with reversing that axis; in particular any
padder commutes with reversing an axis that it does not touch. -/
theorem C91_symmetric_partial (h : PadCall p x ax axes ss)
    (hsym : ∀ o ∈ zipRight axes ss, o.1 = d → o.2.mirrored = o.2)
    (hper : ∀ o ∈ zipRight axes ss, o.1 = d → o.2.mode.isPeriodize = true → x.shape.getD d 0 % 2 = 0) (junk junk' : List Nat → α) :
    ∃ z, p.forward junk x ax = .ok z ∧ p.forward junk' (flipped d x) ax = .ok (flipped d z) := by
  have h' : PadCall p (flipped d x) ax axes ss := ⟨h.ndim_ne, h.axes_eq, h.nodup, h.len, h.reads, h.valued⟩
  refine C91_mirrored_partial h h' ?_ hper junk junk'
  rw [mirrorAt]
  conv_lhs => rw [← List.map_id (zipRight axes ss)]
  apply List.map_congr_left
  intro o ho
  split_ifs with e
  · exact Prod.ext rfl (hsym o ho e).symm
  · rfl

end

/-! ## C92: pooling and filters -/

section
variable {g g' : PoolArgs α} {gp gp' : PadArgs α} {m m' : Nat} {pool pool' : SepPool α}

/-- **C92.** Without a padder, a pooling commutes with reversing an axis if the weights of that axis are reversed as well and the windows reach
the end of the axis. -/
theorem C92_reversed (hb : Built pool g m) (hb' : Built pool' g' m') (hax : axesOf x.ndim ax = some axes) (hnd : axes.Nodup)
    (hm : g.isMany = true → axes.length = m) (hm' : g'.isMany = true → axes.length = m') (hr : g'.ops axes = reverseAt d (g.ops axes))
    (hsz : ∀ i < axes.length, (g.op axes i).kernel.length ≤ x.shape.getD (axes.getD i 0) 0)
    (hdiv : ∀ i < axes.length, axes.getD i 0 = d → (x.shape.getD d 0 - (g.op axes i).kernel.length) % (g.op axes i).stride = 0)
    (junk junk' : List Nat → α) :
    ∃ y, SepPool.forward pool none junk x ax = (none, .ok y) ∧ SepPool.forward pool' none junk' (flipped d x) ax = (none, .ok (flipped d y)) := by
  have hsz' : ∀ o ∈ g.ops axes, o.kernel.length ≤ x.shape.getD o.axis 0 := by
    intro o ho
    obtain ⟨i, hi, rfl⟩ := mem_ops.1 ho
    exact hsz i hi
  have hpo := poolOps_of hb.poolIs.2.2 (hb.poolIs.1.fits_axes hm) hnd (checkAxes_spec hax).2 hsz'
  have hsz2 : ∀ o ∈ g'.ops axes, o.kernel.length ≤ (flipped d x).shape.getD o.axis 0 := by
    intro o ho
    rw [hr, reverseAt, List.mem_map] at ho
    obtain ⟨q, hq, rfl⟩ := ho
    have := hsz' q hq
    rw [flipped_shape]
    split_ifs
    · simpa using this
    · exact this
  have hpo' := poolOps_of (x := flipped d x) hb'.poolIs.2.2 (hb'.poolIs.1.fits_axes hm') hnd (checkAxes_spec hax).2 hsz2
  refine ⟨_, hb.poolIs.1.forward_none hax hm hpo.fitting junk, ?_⟩
  rw [hb'.poolIs.1.forward_none (x := flipped d x) hax hm' hpo'.fitting junk', hr, poolSeq_flip hpo]
  intro o ho hd _
  obtain ⟨i, hi, rfl⟩ := mem_ops.1 ho
  exact hdiv i hi hd

/-- the second pooling and padding settings are those of the first, reversed on axis `d` -/
def Spec.Mirrors (d : Nat) (axes : List Nat) (g g' : PoolArgs α) (gp gp' : PadArgs α) : Prop := ∀ i < axes.length,
  gp'.mode.entry .unknown i = gp.mode.entry .unknown i ∧ (g'.op axes i).stride = (g.op axes i).stride ∧
  if axes.getD i 0 = d then
    (g'.op axes i).kernel = (g.op axes i).kernel.reverse ∧ gp'.cv.entry (0, 0) i = (gp.cv.entry (0, 0) i).swap ∧
    gp'.ev.entry (0, 0) i = (gp.ev.entry (0, 0) i).swap ∧ gp'.sl.entry (none, none) i = (gp.sl.entry (none, none) i).swap
  else
    (g'.op axes i).kernel = (g.op axes i).kernel ∧ gp'.cv.entry (0, 0) i = gp.cv.entry (0, 0) i ∧
    gp'.ev.entry (0, 0) i = gp.ev.entry (0, 0) i ∧ gp'.sl.entry (none, none) i = gp.sl.entry (none, none) i

/-- axis `d` is padded by as many samples before as after, the windows reach its end, and `periodize` meets an even number of samples -/
def Spec.Balanced (d : Nat) (axes : List Nat) (g : PoolArgs α) (gp : PadArgs α) (n : Nat) : Prop := ∀ i < axes.length, axes.getD i 0 = d →
  PoolArgs.sameTotal (g.op axes i).kernel.length (g.op axes i).stride n % 2 = 0 ∧
  (n + PoolArgs.sameTotal (g.op axes i).kernel.length (g.op axes i).stride n - (g.op axes i).kernel.length) % (g.op axes i).stride = 0 ∧
  ((gp.mode.entry .unknown i).isPeriodize = true → n % 2 = 0)

theorem mirrors_ops (h : Mirrors d axes g g' gp gp') : g'.ops axes = reverseAt d (g.ops axes) := by
  rw [PoolArgs.ops, PoolArgs.ops, reverseAt, List.map_map]
  apply List.map_congr_left
  intro i hi
  obtain ⟨_, hs, h⟩ := h i (List.mem_range.1 hi)
  simp only [Function.comp]
  have ea : (g.op axes i).axis = axes.getD i 0 := rfl
  have ea' : (g'.op axes i).axis = axes.getD i 0 := rfl
  by_cases e : axes.getD i 0 = d
  · rw [if_pos e] at h
    rw [if_pos (by rw [ea]; exact e), ← hs, ← h.1, ea, ← ea']
  · rw [if_neg e] at h
    rw [if_neg (by rw [ea]; exact e)]
    generalize g'.op axes i = o' at *
    generalize g.op axes i = o at *
    cases o; cases o'
    simp only at hs ea ea' h
    rw [hs, h.1, ea, ea']

theorem mirrors_sameOps (h : Mirrors d axes g g' gp gp') {shape : List Nat}
    (hb : Balanced d axes g gp (shape.getD d 0)) :
    sameOps g' gp' shape axes = mirrorAt d (sameOps g gp shape axes) := by
  rw [sameOps, sameOps, mirrorAt]
  apply List.ext_getElem (by simp)
  intro i h1 h2
  have hi : i < axes.length := by simp at h1; exact h1
  obtain ⟨hmode, hs, hh⟩ := h i hi
  simp only [List.getElem_zip, List.getElem_map, List.getElem_range]
  rw [withWidths_entry _ _ _ _ hi, withWidths_entry _ _ _ _ hi]
  have eax : axes[i] = axes.getD i 0 := by simp [hi]
  rw [eax]
  by_cases e : axes.getD i 0 = d
  · rw [if_pos e] at hh
    obtain ⟨hk, hcv, hev, hsl⟩ := hh
    obtain ⟨heven, _, _⟩ := hb i hi e
    rw [if_pos e]
    refine Prod.ext rfl ?_
    simp only [sameSetting, AxisPad.mirrored, hmode, hs, hk, hcv, hev, hsl, List.length_reverse, e, Prod.swap, PoolArgs.samePair]
    congr 1 <;> omega
  · rw [if_neg e] at hh
    obtain ⟨hk, hcv, hev, hsl⟩ := hh
    rw [if_neg e]
    simp only [sameSetting, hmode, hs, hk, hcv, hev, hsl]

theorem same_flip (hc : SameCall g gp x ax axes) (h : Mirrors d axes g g' gp gp') (hb : Balanced d axes g gp (x.shape.getD d 0)) :
    poolSeq (padSeq (flipped d x) (sameOps g' gp' (flipped d x).shape axes)) (g'.ops axes) =
      flipped d (poolSeq (padSeq x (sameOps g gp x.shape axes)) (g.ops axes)) := by
  rw [flipped_shape, mirrors_sameOps h hb, mirrors_ops h, padSeq_flip hc.opsOK (by rw [sameOps_fst]; exact hc.nodup) hc.lt, poolSeq_flip hc.poolOps]
  · intro o ho hd _
    obtain ⟨i, hi, rfl⟩ := mem_ops.1 ho
    have hd' : axes.getD i 0 = d := hd
    obtain ⟨_, hdiv, hper⟩ := hb i hi hd'
    have := hc.padded_size hi (by
      rw [hd']
      cases hp : (gp.mode.entry .unknown i).isPeriodize with
      | false => exact Or.inl rfl
      | true => exact Or.inr (hper hp))
    rw [hd'] at this
    rw [this]
    exact hdiv
  · intro o ho _
    obtain ⟨i, hi, rfl⟩ := sameOps_mem ho
    refine ⟨hc.pos _ (getD_mem_lt hi), ?_⟩
    intro hd hp
    have hd' : axes.getD i 0 = d := hd
    show x.shape.getD (axes.getD i 0) 0 % 2 = 0
    rw [hd']
    exact (hb i hi hd').2.2 hp

/-- **C92** with a same padder: a padded pooling commutes with reversing an axis, if the weights and the padding settings of that axis are
reversed as well, and the padding is balanced (as it is for stride 1 and kernels of odd length, see `C92_odd`). -/
theorem C92_same (hb : Built pool g m) (hb' : Built pool' g' m') (hc : SameCall g gp x ax axes)
    (hc' : SameCall g' gp' (flipped d x) ax axes) (hm : g.isMany = true → axes.length = m) (hm' : g'.isMany = true → axes.length = m')
    (h : Mirrors d axes g g' gp gp') (hbal : Balanced d axes g gp (x.shape.getD d 0)) {p p' : Padder α} (hp : Holds p gp) (hp' : Holds p' gp')
    (junk junk' : List Nat → α) :
    ∃ q q' y, SepPool.forward pool (some p) junk x ax = (q, .ok y) ∧
      SepPool.forward pool' (some p') junk' (flipped d x) ax = (q', .ok (flipped d y)) := by
  refine ⟨_, some ((gp'.withWidths (g'.widths (flipped d x).shape axes)).padder axes.length), _, hb.poolIs.1.forward_same hc hm hp junk, ?_⟩
  rw [hb'.poolIs.1.forward_same hc' hm' hp' junk', same_flip hc h hbal]

/-- stride 1 and an odd kernel on axis `d`, `periodize` only for an even number of samples -/
theorem balanced_odd {n : Nat} (h : ∀ i < axes.length, axes.getD i 0 = d → (g.op axes i).stride = 1 ∧ (g.op axes i).kernel.length % 2 = 1 ∧
    ((gp.mode.entry .unknown i).isPeriodize = true → n % 2 = 0)) : Balanced d axes g gp n := by
  intro i hi e
  obtain ⟨h1, h2, h3⟩ := h i hi e
  refine ⟨?_, ?_, h3⟩
  · rw [h1, sameTotal_one]; omega
  · rw [h1, Nat.mod_one]

/-- the weights and padding settings of axis `d` read the same in both directions -/
def Spec.Palindromic (d : Nat) (axes : List Nat) (g : PoolArgs α) (gp : PadArgs α) : Prop := ∀ i < axes.length, axes.getD i 0 = d →
  (g.op axes i).kernel.reverse = (g.op axes i).kernel ∧ (gp.cv.entry (0, 0) i).swap = gp.cv.entry (0, 0) i ∧
  (gp.ev.entry (0, 0) i).swap = gp.ev.entry (0, 0) i ∧ (gp.sl.entry (none, none) i).swap = gp.sl.entry (none, none) i

theorem Spec.Palindromic.mirrors (h : Palindromic d axes g gp) : Mirrors d axes g g gp gp := by
  intro i hi
  refine ⟨rfl, rfl, ?_⟩
  split_ifs with e
  · obtain ⟨h1, h2, h3, h4⟩ := h i hi e
    exact ⟨h1.symm, h2.symm, h3.symm, h4.symm⟩
  · exact ⟨rfl, rfl, rfl, rfl⟩

/-- **C92**: a same-padded filter (stride 1) with palindromic weights of odd length and palindromic padding settings on axis `d`
commutes with reversing that axis. -/
theorem C92_odd (hb : Built pool g m) (hc : SameCall g gp x ax axes) (hm : g.isMany = true → axes.length = m) (h : Palindromic d axes g gp)
    (hodd : ∀ i < axes.length, axes.getD i 0 = d → (g.op axes i).stride = 1 ∧ (g.op axes i).kernel.length % 2 = 1 ∧
      ((gp.mode.entry .unknown i).isPeriodize = true → x.shape.getD d 0 % 2 = 0))
    {p : Padder α} (hp : Holds p gp) (junk junk' : List Nat → α) :
    ∃ q y, SepPool.forward pool (some p) junk x ax = (q, .ok y) ∧ SepPool.forward pool (some p) junk' (flipped d x) ax = (q, .ok (flipped d y)) := by
  refine ⟨_, _, hb.poolIs.1.forward_same hc hm hp junk, ?_⟩
  rw [hb.poolIs.1.forward_same (hc.congr (flipped_shape d x)) hm hp junk', same_flip hc h.mirrors (balanced_odd hodd)]
  rfl

end
end

/-! ## where the conditions are needed, and concrete cases meeting them -/

namespace FlipExample
open SsimExample

/-- widths, mode; constants 5 and 6, end values 8 and 9, statistics over the first 2 and over all samples -/
def request (w : Nat × Nat) (mode : Mode ℚ) : PadArgs ℚ := ⟨.one w, .one mode, .one (5, 6), .one (8, 9), .one (some 2, none)⟩

/-- the same request from the other end -/
def reversed (w : Nat × Nat) (mode : Mode ℚ) : PadArgs ℚ := ⟨.one (w.2, w.1), .one mode, .one (6, 5), .one (9, 8), .one (none, some 2)⟩

def padded (g : PadArgs ℚ) (x : Tensor ℚ) : Option (List ℚ) := ((g.padder 1).forward (fun _ => 0) x .none).toOption.map (·.data)

/-- C91: ramps to the end values -/
example : padded (request (2, 1) .linearRamp) (sig [1, 2, 4]) = some [8, 9 / 2, 1, 2, 4, 9] ∧
    padded (reversed (2, 1) .linearRamp) (flipped 0 (sig [1, 2, 4])) = some [9, 4, 2, 1, 9 / 2, 8] := by decide +kernel

theorem call (w : Nat × Nat) (mode : Mode ℚ) (c e : ℚ × ℚ) (l : Option Int × Option Int) (x : Tensor ℚ) (hx : x.shape = [3])
    (h : (⟨w.1, w.2, mode, c, e, l⟩ : AxisPad ℚ).rule? ≠ none) (hz : mode ≠ .zeros) :
    PadCall ((⟨.one w, .one mode, .one c, .one e, .one l⟩ : PadArgs ℚ).padder 1) x .none [0] [⟨w.1, w.2, mode, c, e, l⟩] := by
  have hn : x.ndim = 1 := by rw [ndim, hx]; rfl
  refine call_args (g := ⟨.one w, .one mode, .one c, .one e, .one l⟩) (m := 1) Nat.one_pos ⟨trivial, trivial, trivial, trivial, trivial⟩
    (by rw [hn]; decide) (by rw [hn]; decide) (by decide) ?_
  intro o ho _
  have : o = (0, ⟨w.1, w.2, mode, c, e, l⟩) := by
    have h2 := zipRight_mem ho
    simp [PadArgs.settings, PadArgs.isMany, Given.isMany, PadArgs.entry, Given.entry] at h2
    exact Prod.ext h2.1 h2.2
  rw [this]
  exact ⟨h, hz, by rw [hx]; show 0 < ([3] : List Nat).getD 0 0; decide⟩

/-- C91: the hypotheses hold for every mode except `periodize`, and any widths -/
example (w : Nat × Nat) (mode : Mode ℚ) (h : (⟨w.1, w.2, mode, (5, 6), (8, 9), (some 2, none)⟩ : AxisPad ℚ).rule? ≠ none)
    (hz : mode ≠ .zeros) (hp : mode.isPeriodize = false) :
    ∃ z, ((request w mode).padder 1).forward (fun _ => 0) (sig [1, 2, 4]) .none = .ok z ∧
      ((reversed w mode).padder 1).forward (fun _ => 0) (flipped 0 (sig [1, 2, 4])) .none = .ok (flipped 0 z) := by
  refine C91_mirrored_partial (call w mode _ _ _ _ rfl h hz) (call (w.2, w.1) mode _ _ _ _ rfl ?_ hz) rfl ?_ _ _
  · have := h
    cases mode <;> simp_all [AxisPad.rule?]
  · intro o ho _ hper
    have h2 := zipRight_mem ho
    simp only [List.mem_singleton] at h2
    rw [h2.2] at hper
    simp only at hper
    rw [hp] at hper
    cases hper

/-- C92: weights 1, 2, 4 with stride 2, and the reversed weights -/
example : (do
    let p ← SepPool.init (.seq [.leaf 1, .leaf 2, .leaf 4]) (.leaf (some 2))
    let p' ← SepPool.init (.seq [.leaf 4, .leaf 2, .leaf (1 : ℚ)]) (.leaf (some 2))
    let r ← (SepPool.forward p none (fun _ => 0) (sig [1, 2, 4, 0, 3]) .none).2
    let r' ← (SepPool.forward p' none (fun _ => 0) (flipped 0 (sig [1, 2, 4, 0, 3])) .none).2
    .ok (r.data, r'.data) : Except Err _).toOption = some ([21, 16], [16, 21]) := by decide +kernel

/-- C92: the hypotheses hold for a same-padded average of three samples -/
example (junk junk' : List Nat → ℚ) : ∃ pool : SepPool ℚ, SepPool.avgInit (.leaf (some 3)) (.leaf (some 1)) = .ok pool ∧
    ∃ q y, SepPool.forward pool (some ((args .replicate).padder 1)) junk (sig [1, 2, 4, 9]) .none = (q, .ok y) ∧
      SepPool.forward pool (some ((args .replicate).padder 1)) junk' (flipped 0 (sig [1, 2, 4, 9])) .none = (q, .ok (flipped 0 y)) := by
  obtain ⟨pool, h1, h2, _⟩ := C34_average_kernels (α := ℚ) (size := .one 3) (st := .one (some 1)) (m := 1) (by decide) trivial trivial
    (by intro s hs; simp [Given.values] at hs; simp [hs])
  refine ⟨pool, h1, C92_odd h2 sameCall_sig (by intro h; cases h) ?_ ?_ (holds_padder _ 1) junk junk'⟩
  · intro i _ _
    exact ⟨show (avgKernel (α := ℚ) 3).reverse = avgKernel 3 by decide +kernel, rfl, rfl, rfl⟩
  · intro i _ _
    refine ⟨rfl, show (avgKernel (α := ℚ) 3).length % 2 = 1 by decide +kernel, ?_⟩
    intro h; cases h

end FlipExample

open FlipExample SsimExample in
/-- **C91** is false for `periodize` on an axis of odd size: the last sample is repeated first, whichever end is the last. -/
theorem C91_periodize_false : ∃ u v, u.reverse ≠ v ∧ padded (request (1, 1) .periodize) (sig [1, 2, 4]) = some u ∧
    padded (reversed (1, 1) .periodize) (flipped 0 (sig [1, 2, 4])) = some v :=
  ⟨[4, 1, 2, 4, 4, 1], [1, 4, 2, 1, 1, 4], by decide +kernel, by decide +kernel, by decide +kernel⟩

end TI
