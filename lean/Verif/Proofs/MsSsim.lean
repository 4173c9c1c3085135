import Verif.Spec.MsSsim
import Verif.Props.Ssim

/-!
# MS-SSIM: the levels
-/

set_option linter.unusedSectionVars false

namespace TI
open Tensor Spec

/-! ## symmetry -/

namespace MsSsim
variable {ms : MsSsim} {junk : List Nat → ℝ} {ax : List Int} {y1 y2 z1 z2 : Tensor ℝ} {p q : Option (Padder ℝ)}

theorem levels_swap : ∀ {ws : List ℝ} {acc acc' : Option (Tensor ℝ)} {y1 y2 z1 z2 : Tensor ℝ} {p : Option (Padder ℝ)},
    ms.levels junk ax ws acc y1 y2 p = (q, .ok (acc', z1, z2)) → ms.levels junk ax ws acc y2 y1 p = (q, .ok (acc', z2, z1))
  | [], acc, acc', y1, y2, z1, z2, p, h => by
    change (pure (acc, y1, y2) : Run ℝ _) p = _ at h
    change (pure (acc, y2, y1) : Run ℝ _) p = _
    obtain ⟨rfl, h⟩ := Run.pure_inv h
    cases h
    rfl
  | w :: ws, acc, acc', y1, y2, z1, z2, p, h => by
    simp only [levels] at h ⊢
    obtain ⟨p1, cs, e1, h⟩ := Run.bind_inv h
    obtain ⟨p2, c, e2, h⟩ := Run.bind_inv h
    obtain ⟨sc, e3, h⟩ := Run.lift_inv h
    obtain ⟨a, e4, h⟩ := Run.lift_inv h
    obtain ⟨u1, e5, h⟩ := Run.lift_inv h
    obtain ⟨u2, e6, h⟩ := Run.lift_inv h
    rw [Run.bind_ok (SSIM.csFull_swap e1), Run.bind_ok e2, e3, Run.lift_bind, e4, Run.lift_bind, e6, Run.lift_bind, e5, Run.lift_bind]
    exact levels_swap h

theorem forward_swap {a r : Axes} {t : Tensor ℝ} (h : ms.forward junk y1 y2 a r p = (q, .ok t)) :
    ms.forward junk y2 y1 a r p = (q, .ok t) := by
  simp only [forward] at h ⊢
  split_ifs at h with hs
  · obtain ⟨_, h⟩ := Run.lift_apply_inv h
    cases h
  · rw [not_not] at hs
    rw [if_neg (by simp [hs]), ndim, ← hs]
    obtain ⟨c, e1, h⟩ := Run.lift_inv h
    obtain ⟨r', e2, h⟩ := Run.lift_inv h
    obtain ⟨_, e3, h⟩ := Run.lift_inv h
    obtain ⟨p1, ⟨acc, u1, u2⟩, e4, h⟩ := Run.bind_inv h
    obtain ⟨p2, f, e5, h⟩ := Run.bind_inv h
    rw [ndim] at e1 e2
    rw [e1, Run.lift_bind, e2, Run.lift_bind, e3, Run.lift_bind, Run.bind_ok (levels_swap e4), Run.bind_ok (SSIM.ssimFull_swap e5)]
    exact h

end MsSsim

/-! ## halving -/

section
variable {α : Type} [Field α] [LinearOrder α] [IsStrictOrderedRing α] {x : Tensor α} {axes : List Nat}

/-- the pooling that halves -/
def halver : PoolArgs α := ⟨.one [1 / 2, 1 / 2], .one (some 2)⟩

theorem halver_op (axes : List Nat) (i : Nat) : (halver (α := α)).op axes i = ⟨axes.getD i 0, [1 / 2, 1 / 2], 2⟩ := rfl

theorem halver_poolOps (hnd : axes.Nodup) (hlt : ∀ a ∈ axes, a < x.ndim) (hsz : ∀ a ∈ axes, 2 ≤ x.shape.getD a 0) :
    PoolOps x ((halver (α := α)).ops axes) := by
  refine poolOps_of ?_ ⟨trivial, trivial⟩ hnd hlt ?_
  · intro t ht
    simp only [halver, Given.values, List.mem_singleton] at ht
    rw [ht]; simp
  · intro o ho
    obtain ⟨i, hi, rfl⟩ := List.mem_map.1 ho
    have hi' := List.mem_range.1 hi
    exact hsz _ (by simp [halver_op, hi'])

theorem downsample_eq (hnd : axes.Nodup) (hlt : ∀ a ∈ axes, a < x.ndim) (hsz : ∀ a ∈ axes, 2 ≤ x.shape.getD a 0) (junk : List Nat → α) :
    SSIM.downsample junk x (castV axes) = .ok (halved axes x) := by
  obtain ⟨pool, e, h⟩ := poolIs_avg (α := α) (size := .one 2) (st := .one (some 2)) (m := 1) Nat.one_pos trivial trivial (by
    intro s hs
    simp only [Given.values, List.mem_singleton] at hs
    rw [hs]; simp)
  have e' : SepPool.avgInit (α := α) (.leaf (some 2)) (.leaf (some 2)) = .ok pool := e
  have hg : (⟨Given.map avgKernel (.one 2), .one (some 2)⟩ : PoolArgs α) = halver := by
    simp [halver, Given.map, avgKernel, List.replicate]
  rw [hg] at h
  have hax : axesOf x.ndim (.seq (castV axes)) = some axes := normAxes_castV hlt
  rw [SSIM.downsample, e', ok_bind, h.forward_none hax (by intro hh; simp [halver, PoolArgs.isMany, Given.isMany] at hh)
    (halver_poolOps hnd hlt hsz).fitting junk]
  rfl

theorem halved_ndim (axes : List Nat) (x : Tensor α) : (halved axes x).ndim = x.ndim := poolSeq_ndim _ _

theorem halved_size (hnd : axes.Nodup) (hlt : ∀ a ∈ axes, a < x.ndim) (hsz : ∀ a ∈ axes, 2 ≤ x.shape.getD a 0) (k : Nat) :
    (halved axes x).shape.getD k 0 = if k ∈ axes then x.shape.getD k 0 / 2 else x.shape.getD k 0 := by
  have := poolSeq_shape (halver_poolOps hnd hlt hsz) k
  rw [show halved axes x = poolSeq x ((halver (α := α)).ops axes) from rfl, this]
  split_ifs with hk
  · obtain ⟨i, hi, rfl⟩ := List.mem_iff_getElem.1 hk
    have e : axes[i] = axes.getD i 0 := by simp [hi]
    have h2 := hsz _ hk
    rw [e] at h2 ⊢
    rw [find_ops hnd hi (by simp [halver_op])]
    simp only [halver_op, List.length_cons, List.length_nil]
    rw [windowCount_pos (by norm_num) (by norm_num) h2]
    omega
  · rw [find_ops_none]
    intro i hi hik
    exact absurd (hik ▸ (by simp [hi])) hk

theorem halved_shape_congr {y : Tensor α} (h : y.shape = x.shape) : (halved axes y).shape = (halved axes x).shape := poolSeq_shape_congr h

/-! ## means that keep the axes -/

theorem onesAt_length (axes shape : List Nat) : (onesAt axes shape).length = shape.length := by simp [onesAt]

theorem onesAt_getD {axes shape : List Nat} {k : Nat} (hk : k < shape.length) :
    (onesAt axes shape).getD k 0 = if k ∈ axes then 1 else shape.getD k 0 := by
  simp [onesAt, hk]

theorem onesAt_congr {axes s t : List Nat} (hl : s.length = t.length) (h : ∀ k < s.length, k ∉ axes → s.getD k 0 = t.getD k 0) :
    onesAt axes s = onesAt axes t := by
  rw [onesAt, onesAt, ← hl]
  apply List.map_congr_left
  intro k hk
  split_ifs with h1
  · rfl
  · exact h k (List.mem_range.1 hk) h1

theorem onKept_eq_iff {ds ix jx : List Nat} (hl : ix.length = jx.length) :
    onKept ds ix = onKept ds jx ↔ ∀ k < ix.length, k ∉ ds → ix.getD k 0 = jx.getD k 0 := by
  rw [onKept, onKept, ← hl]
  constructor
  · intro h k hk hkd
    exact List.map_inj_left.1 h k (mem_keptAxes.2 ⟨hk, hkd⟩)
  · intro h
    apply List.map_congr_left
    intro k hk
    exact h k (mem_keptAxes.1 hk).1 (mem_keptAxes.1 hk).2

theorem collapse_eq_iff {ds shape ix jx : List Nat} (hix : InB shape ix) (hjx : InB (onesAt ds shape) jx) :
    collapse ds (some 0) ix = jx ↔ onKept ds ix = onKept ds jx := by
  have hl : ix.length = jx.length := by rw [hix.length_eq, hjx.length_eq, onesAt_length]
  rw [onKept_eq_iff hl, collapse_some]
  have hz : ∀ k < ix.length, k ∈ ds → jx.getD k 0 = 0 := by
    intro k hk hkd
    have hk' : k < shape.length := by rw [← hix.length_eq]; exact hk
    have := hjx.lt (k := k) (by rw [onesAt_length]; exact hk')
    rw [onesAt_getD hk', if_pos hkd] at this
    omega
  constructor
  · intro h k hk hkd
    rw [← h]
    simp [hk, hkd]
  · intro h
    apply list_ext_getD
    · simpa using hl
    · intro k hk
      have hk' : k < ix.length := by simpa using hk
      rw [List.getD_eq_getElem?_getD, List.getElem?_map, List.getElem?_range hk']
      simp only [Option.map_some, Option.getD_some]
      split_ifs with hkd
      · exact (hz k hk' hkd).symm
      · exact h k hk' hkd

theorem meanDims_keep (hne : axes ≠ []) (hlt : ∀ a ∈ axes, a < x.ndim) (hnd : axes.Nodup) :
    x.meanDims (castV axes) true = .ok (meanKept x axes) := by
  simp only [meanDims, Tensor.reduce, reduceDims_eq hlt hnd, ok_bind, if_true, reducedAxes, if_neg hne]
  congr 1
  rw [meanKept, collapse_some]
  apply ofFn_congr
  intro jx hjx
  have : (indices x.shape).filter (fun ix => decide (collapse axes (some 0) ix = jx)) = collected x.shape axes (onKept axes jx) := by
    rw [collected]
    apply List.filter_congr
    intro ix hix
    rw [decide_eq_decide]
    exact collapse_eq_iff (mem_indices.1 hix) hjx
  rw [this]
  rfl

theorem meanKept_between {lo hi : α} (hx : Between lo hi x) (hpos : ∀ k ∈ axes, k < x.ndim → 0 < x.shape.getD k 0) :
    Between lo hi (meanKept x axes) := by
  intro jx hjx
  have hjx' : InB (onesAt axes x.shape) jx := hjx
  rw [meanKept, get_ofFn hjx']
  apply mean_between
  · have hin : InB (onKept axes x.shape) (onKept axes jx) := by
      have h1 := onKept_inB (ds := axes) hjx'
      have : onKept axes (onesAt axes x.shape) = onKept axes x.shape := by
        rw [onKept_eq_iff (onesAt_length _ _)]
        intro k hk hkd
        rw [onesAt_length] at hk
        rw [onesAt_getD hk, if_neg hkd]
      rwa [this] at h1
    simpa using collected_ne (fun k hk hkd => hpos k hkd hk) hin
  · intro v hv
    obtain ⟨ix, hix, rfl⟩ := List.mem_map.1 hv
    exact hx ix (mem_collected.1 hix).1

end

/-! ## one level -/

section
variable {α : Type} [Field α] [LinearOrder α] [IsStrictOrderedRing α]

/-- conditions of a level with `r` more levels to follow -/
structure MsAt (g : Given (List α)) (gp : Option (PadArgs α)) (crop : Bool) (r : Nat) (x : Tensor α) (axes : List Nat)
    (p : Option (Padder α)) : Prop where
  lt : ∀ a ∈ axes, a < x.ndim
  ne : axes ≠ []
  nodup : axes.Nodup
  fits : g.Fits axes.length
  kernel : ∀ i < axes.length, g.entry [] i ≠ []
  large : ∀ i < axes.length, (g.entry [] i).length * 2 ^ r ≤ x.shape.getD (axes.getD i 0) 0
  padder : match gp with
    | none => p = none
    | some gp => (∃ p0, p = some p0 ∧ Holds p0 gp) ∧ gp.FitsRest axes.length ∧ ∀ i < axes.length,
      (gp.entry i).rule? ≠ none ∧ (gp.entry i).mode ≠ .zeros ∧ (crop = true → (gp.entry i).mode.isPeriodize = false)

variable {g : Given (List α)} {gp : Option (PadArgs α)} {cr sc : Bool} {r L m : Nat} {x y1 y2 : Tensor α} {ax : Axes} {axes : List Nat}
  {p : Option (Padder α)} {s : SSIM α} {k1 k2 : α}

theorem Spec.MsCall.at (h : MsCall g gp cr (L + 1) x ax axes p) : MsAt g gp cr L x axes p where
  lt := (checkAxes_spec h.axes_eq).2
  ne := h.ne
  nodup := h.nodup
  fits := h.fits
  kernel := h.kernel
  large := by
    intro i hi
    have := h.large i hi
    rw [pow_succ] at this
    have e : (g.entry [] i).length * (2 ^ L * 2) = 2 * ((g.entry [] i).length * 2 ^ L) := by ring
    omega
  padder := h.padder

namespace MsAt

theorem mem_axes (h : MsAt g gp cr r x axes p) {a : Nat} (ha : a ∈ axes) : 2 ^ r ≤ x.shape.getD a 0 := by
  obtain ⟨i, hi, rfl⟩ := List.mem_iff_getElem.1 ha
  have e : axes[i] = axes.getD i 0 := by simp [hi]
  have h1 := h.large i hi
  have h2 : 0 < (g.entry [] i).length := List.length_pos_iff.2 (h.kernel i hi)
  rw [e]
  calc 2 ^ r = 1 * 2 ^ r := (one_mul _).symm
    _ ≤ (g.entry [] i).length * 2 ^ r := Nat.mul_le_mul_right _ h2
    _ ≤ _ := h1

theorem size (h : MsAt g gp cr r x axes p) {i : Nat} (hi : i < axes.length) : (g.entry [] i).length ≤ x.shape.getD (axes.getD i 0) 0 :=
  le_trans (Nat.le_mul_of_pos_right _ (Nat.pos_of_ne_zero (by positivity))) (h.large i hi)

theorem pos (h : MsAt g gp cr r x axes p) {a : Nat} (ha : a ∈ axes) : 0 < x.shape.getD a 0 :=
  lt_of_lt_of_le (by positivity) (h.mem_axes ha)

theorem two_le (h : MsAt g gp cr (r + 1) x axes p) : ∀ a ∈ axes, 2 ≤ x.shape.getD a 0 := by
  intro a ha
  have := h.mem_axes ha
  rw [pow_succ] at this
  have : 0 < 2 ^ r := by positivity
  omega

theorem congr (h : MsAt g gp cr r x axes p) {y : Tensor α} (hs : y.shape = x.shape) : MsAt g gp cr r y axes p where
  lt := by rw [ndim, hs]; exact h.lt
  ne := h.ne
  nodup := h.nodup
  fits := h.fits
  kernel := h.kernel
  large := by rw [hs]; exact h.large
  padder := h.padder

theorem after (h : MsAt g gp cr r x axes p) (shape : List Nat) : MsAt g gp cr r x axes (padderAfter g gp shape axes) where
  lt := h.lt
  ne := h.ne
  nodup := h.nodup
  fits := h.fits
  kernel := h.kernel
  large := h.large
  padder := by
    have := h.padder
    cases gp with
    | none => rfl
    | some gp => exact ⟨⟨_, rfl, holds_withWidths _ _ _⟩, this.2⟩

theorem next (h : MsAt g gp cr (r + 1) x axes p) : MsAt g gp cr r (halved axes x) axes p where
  lt := by rw [halved_ndim]; exact h.lt
  ne := h.ne
  nodup := h.nodup
  fits := h.fits
  kernel := h.kernel
  large := by
    intro i hi
    have hm : axes.getD i 0 ∈ axes := by simp [hi]
    rw [halved_size h.nodup h.lt h.two_le, if_pos hm]
    have := h.large i hi
    rw [pow_succ, ← mul_assoc] at this
    omega
  padder := h.padder

theorem poolOps (h : MsAt g gp cr r x axes p) : PoolOps x ((PoolArgs.filter g).ops axes) := by
  refine poolOps_of ?_ ⟨h.fits, trivial⟩ h.nodup h.lt ?_
  · intro t ht
    simp only [PoolArgs.filter, Given.values, List.mem_singleton] at ht
    rw [ht]; simp
  · intro o ho
    obtain ⟨i, hi, rfl⟩ := List.mem_map.1 ho
    exact h.size (List.mem_range.1 hi)

theorem sameCall {gp : PadArgs α} (h : MsAt g (some gp) cr r x axes p) : SameCall (PoolArgs.filter g) gp x (.seq (castV axes)) axes where
  axes_eq := normAxes_castV h.lt
  ne := h.ne
  nodup := h.nodup
  fits := fun _ => ⟨h.fits, trivial⟩
  rest := h.padder.2.1
  stride := fun _ _ => Nat.one_pos
  pos := fun _ ha => h.pos ha
  valued := by
    intro o ho _
    obtain ⟨i, hi, rfl⟩ := sameOps_mem ho
    obtain ⟨h1, h2, _⟩ := h.padder.2.2 i hi
    refine ⟨?_, h2⟩
    simp only [AxisPad.rule?, PadArgs.entry, sameSetting] at h1 ⊢
    cases hmode : gp.mode.entry .unknown i <;> simp [hmode] at h1 ⊢

theorem blurCall (h : MsAt g gp cr r x axes p) : BlurCall g gp x (.seq (castV axes)) axes p := by
  cases gp with
  | none => exact ⟨h.padder, normAxes_castV h.lt, h.poolOps.fitting⟩
  | some gp => exact ⟨h.padder.1, h.sameCall⟩

/-- the same without a padder -/
theorem unpadded (h : MsAt g gp cr r x axes p) : MsAt g none cr r x axes none := ⟨h.lt, h.ne, h.nodup, h.fits, h.kernel, h.large, rfl⟩

/-- the blur that the scores see is a blur under the same conditions -/
theorem scoreCall (h : MsAt g gp cr r x axes p) : ∃ gp' p', scoreBlur g gp cr axes = blurred g gp' axes ∧
    BlurCall g gp' x (.seq (castV axes)) axes p' ∧ (cr = true → gp' = none) ∧ (cr = false → gp' = gp) := by
  cases cr with
  | true => exact ⟨none, none, rfl, h.unpadded.blurCall, fun _ => rfl, by simp⟩
  | false => exact ⟨gp, p, rfl, h.blurCall, by simp, fun _ => rfl⟩

theorem crop (h : MsAt g gp cr r y1 axes p) (hs : SsimOf s g m k1 k2 sc cr) (h12 : y2.shape = y1.shape) (F : α → α → α → α → α → α) :
    s.cropBorder (pointMap F (blurred g gp axes) y1 y2) (castV axes) (padderAfter g gp y1.shape axes) =
      (padderAfter g gp y1.shape axes, .ok (pointMap F (scoreBlur g gp cr axes) y1 y2)) := by
  cases cr with
  | true =>
    cases gp with
    | none => rfl
    | some gp => exact (crop_pointMap hs h.sameCall (fun i hi => Or.inl ((h.padder.2.2 i hi).2.2 rfl)) (fun i hi => h.size hi) h12 F).2
  | false =>
    cases gp with
    | none => rfl
    | some gp =>
      simp only [SSIM.cropBorder, hs.crop, scoreBlur, Bool.false_eq_true, if_false]
      rfl

/-- the maps have the shape of the image away from the content axes -/
theorem map_shape (h : MsAt g gp cr r y1 axes p) (F : α → α → α → α → α → α) :
    (pointMap F (scoreBlur g gp cr axes) y1 y2).ndim = y1.ndim ∧
      onesAt axes (pointMap F (scoreBlur g gp cr axes) y1 y2).shape = onesAt axes y1.shape := by
  obtain ⟨gp', p', e, hb, -⟩ := h.scoreCall
  rw [e]
  have hsh : (pointMap F (blurred g gp' axes) y1 y2).shape = (blurred g gp' axes y1).shape := rfl
  have hk : ∀ {z : Tensor α}, ∀ k, k ∉ axes → PoolOps z ((PoolArgs.filter g).ops axes) →
      (poolSeq z ((PoolArgs.filter g).ops axes)).shape.getD k 0 = z.shape.getD k 0 := by
    intro z k hk hpo
    rw [poolSeq_shape hpo, find_ops_none]
    intro i hi hik
    exact absurd (hik ▸ (by simp [hi])) hk
  have hn : (blurred g gp' axes y1).shape.length = y1.shape.length := by
    cases gp' with
    | none => exact poolSeq_ndim _ _
    | some gp' => exact (poolSeq_ndim _ _).trans (padSeq_ndim hb.2.opsOK _)
  refine ⟨hn, ?_⟩
  rw [hsh]
  apply onesAt_congr hn
  intro k _ hka
  cases gp' with
  | none => exact hk k hka h.poolOps
  | some gp' =>
    have hc := hb.2
    have hnd : ((sameOps (PoolArgs.filter g) gp' y1.shape axes).map Prod.fst).Nodup := by rw [sameOps_fst]; exact hc.nodup
    rw [blurred, filtered, hk k hka hc.poolOps, padSeq_shape hc.opsOK hnd y1 hc.lt, settingAt_none (by rw [sameOps_fst]; exact hka)]

theorem mean (h : MsAt g gp cr r y1 axes p) (F : α → α → α → α → α → α) :
    (pointMap F (scoreBlur g gp cr axes) y1 y2).meanDims (castV axes) true = .ok (meanKept (pointMap F (scoreBlur g gp cr axes) y1 y2) axes) :=
  meanDims_keep h.ne (by rw [(h.map_shape F).1]; exact h.lt) h.nodup

end MsAt

end

/-! ## the loop over the levels -/

section
variable {ms : MsSsim} {g : Given (List ℝ)} {gp : Option (PadArgs ℝ)} {cr sc up : Bool} {m : Nat} {axes : List Nat} {k1 k2 eps : ℝ}
  {y1 y2 : Tensor ℝ} {p : Option (Padder ℝ)}

/-- what is known of an MS-SSIM object -/
structure MsOf (ms : MsSsim) (g : Given (List ℝ)) (m : Nat) (k1 k2 : ℝ) (sc cr up : Bool) (eps : ℝ) : Prop where
  base : SsimOf ms.base g m k1 k2 sc cr
  prod : ms.useProd = up
  eps_eq : ms.eps = eps

/-- one more factor or summand -/
noncomputable def msOp (up : Bool) (a b : ℝ) : ℝ := if up then a * b else a + b

/-- no factors, no summands -/
noncomputable def msUnit (up : Bool) : ℝ := if up then 1 else 0

theorem msOp_unit (up : Bool) (b : ℝ) : msOp up (msUnit up) b = b := by cases up <;> simp [msOp, msUnit]

theorem msOp_assoc (up : Bool) (a b c : ℝ) : msOp up (msOp up a b) c = msOp up a (msOp up b c) := by
  cases up <;> simp [msOp, mul_assoc, add_assoc]

theorem msTotal_nil (up : Bool) : msTotal up [] = msUnit up := by cases up <;> simp [msTotal, msUnit]

theorem msTotal_cons (up : Bool) (a : ℝ) (l : List ℝ) : msTotal up (a :: l) = msOp up a (msTotal up l) := by
  cases up <;> simp [msTotal, msOp]

theorem msTotal_append (up : Bool) (l : List ℝ) (a : ℝ) : msTotal up (l ++ [a]) = msOp up (msTotal up l) a := by
  cases up <;> simp [msTotal, msOp]

theorem msOp_right (up : Bool) (a : ℝ) : msOp up a (msUnit up) = a := by cases up <;> simp [msOp, msUnit]

theorem term_ofFn (h : MsOf ms g m k1 k2 sc cr up eps) (w : ℝ) (S : List Nat) (v : List Nat → ℝ) :
    ms.term w (ofFn S v) = ofFn S fun jx => msTerm up eps w (v jx) := by
  simp only [MsSsim.term, h.prod, h.eps_eq]
  cases up <;> simp [map_ofFn, msTerm]

theorem iop_ofFn (f : ℝ → ℝ → ℝ) (S : List Nat) (u v : List Nat → ℝ) : iop f (ofFn S u) (ofFn S v) = .ok (ofFn S fun jx => f (u jx) (v jx)) := by
  simp only [iop]
  rw [if_pos (show bcastable (ofFn S v).shape (ofFn S u).shape = true from bcastable_self S)]
  congr 1
  apply ofFn_congr
  intro ix hix
  have hix' : InB S ix := hix
  rw [get_ofFn hix', show (ofFn S v).shape = S from rfl, bidx_self hix', get_ofFn hix']

/-- nothing yet, or a tensor of partial results -/
def AccIs (up : Bool) (S : List Nat) (acc : Option (Tensor ℝ)) (A : List Nat → ℝ) : Prop :=
  (acc = none ∧ A = fun _ => msUnit up) ∨ acc = some (ofFn S A)

/-- a tensor that equals one built from its own entries -/
theorem meanKept_ofFn {x : Tensor ℝ} {S : List Nat} (h : onesAt axes x.shape = S) :
    meanKept x axes = ofFn S fun jx => (meanKept x axes).get jx := by
  subst h
  rw [meanKept]
  apply ofFn_congr
  intro ix hix
  rw [get_ofFn hix]

/-- the factors or summands of the levels before the last -/
noncomputable def csTerm (up : Bool) (eps k2 f : ℝ) (b : Tensor ℝ → Tensor ℝ) (axes : List Nat) (ws : List ℝ) (y1 y2 : Tensor ℝ) (jx : List Nat)
    (i : Nat) : ℝ :=
  msTerm up eps (ws.getD i 0) ((meanKept (csMap k2 f b (atLevel axes i y1) (atLevel axes i y2)) axes).get jx)

theorem atLevel_shape_congr : ∀ (n : Nat) {x y : Tensor ℝ}, y.shape = x.shape → (atLevel axes n y).shape = (atLevel axes n x).shape
  | 0, _, _, h => h
  | n + 1, _, _, h => atLevel_shape_congr n (halved_shape_congr h)

theorem levels_eq (h : MsOf ms g m k1 k2 sc cr up eps) (hm : g.isMany = true → axes.length = m)
    (hN : sc = true → windowSize g axes.length ≠ 1) (junk : List Nat → ℝ) {S : List Nat} : ∀ (ws : List ℝ) {y1 y2 : Tensor ℝ} {r : Nat}
    {p : Option (Padder ℝ)} {acc : Option (Tensor ℝ)} {A : List Nat → ℝ}, MsAt g gp cr (r + ws.length) y1 axes p → y2.shape = y1.shape →
    onesAt axes y1.shape = S → AccIs up S acc A → ∃ acc' q,
      ms.levels junk (castV axes) ws acc y1 y2 p = (q, .ok (acc', atLevel axes ws.length y1, atLevel axes ws.length y2)) ∧
      MsAt g gp cr r (atLevel axes ws.length y1) axes q ∧ onesAt axes (atLevel axes ws.length y1).shape = S ∧
      AccIs up S acc' (fun jx => msOp up (A jx) (msTotal up ((List.range ws.length).map
        (csTerm up eps k2 (covFactor sc (windowSize g axes.length)) (scoreBlur g gp cr axes) axes ws y1 y2 jx)))) ∧
      (ws ≠ [] → acc' ≠ none) ∧ (ws = [] → q = p ∧ acc' = acc)
  | [], y1, y2, r, p, acc, A, hat, h12, hS, hA => by
    refine ⟨acc, p, rfl, hat, hS, ?_, by simp, fun _ => ⟨rfl, rfl⟩⟩
    have : (fun jx => msOp up (A jx) (msTotal up ((List.range ([] : List ℝ).length).map
        (csTerm up eps k2 (covFactor sc (windowSize g axes.length)) (scoreBlur g gp cr axes) axes [] y1 y2 jx)))) = A := by
      funext jx
      simp [msTotal_nil, msOp_right]
    rw [this]
    exact hA
  | w :: ws, y1, y2, r, p, acc, A, hat, h12, hS, hA => by
    have hat1 : MsAt g gp cr (r + ws.length + 1) y1 axes p := hat
    set f := covFactor (α := ℝ) sc (windowSize g axes.length) with hf
    set b := scoreBlur g gp cr axes with hb
    set v := meanKept (csMap k2 f b y1 y2) axes with hv
    have hmap := hat1.map_shape (y2 := y2) (csIndex (k2 ^ 2) f)
    have hvS : v = ofFn S fun jx => v.get jx := meanKept_ofFn (hmap.2.trans hS)
    have hcs := csFull_call h.base hm hat1.blurCall hN h12 junk
    have hcrop : ms.base.cropBorder (csMap k2 f (blurred g gp axes) y1 y2) (castV axes) (padderAfter g gp y1.shape axes) =
        (padderAfter g gp y1.shape axes, .ok (csMap k2 f b y1 y2)) := hat1.crop h.base h12 (csIndex (k2 ^ 2) f)
    have hmean : (csMap k2 f b y1 y2).meanDims (castV axes) true = .ok v := hat1.mean (csIndex (k2 ^ 2) f)
    have hacc : (match acc with
        | none => (.ok (ms.term w v) : Except Err (Tensor ℝ))
        | some a => ms.accumulate (some a) (ms.term w v)) = .ok (ofFn S fun jx => msOp up (A jx) (msTerm up eps w (v.get jx))) := by
      have ht : ms.term w v = ofFn S fun jx => msTerm up eps w (v.get jx) := by
        conv_lhs => rw [hvS]
        exact term_ofFn h w S _
      rw [ht]
      rcases hA with ⟨rfl, rfl⟩ | rfl
      · simp only [msOp_unit]
      · simp only [MsSsim.accumulate, h.prod]
        cases up <;> simp [iop_ofFn, msOp]
    have hd1 := downsample_eq (x := y1) hat1.nodup hat1.lt hat1.two_le junk
    have hat2 := hat1.congr h12
    have hd2 := downsample_eq (x := y2) hat2.nodup hat2.lt hat2.two_le junk
    have hS' : onesAt axes (halved axes y1).shape = S := by
      rw [← hS]
      apply onesAt_congr (halved_ndim axes y1)
      intro k _ hk
      rw [halved_size hat1.nodup hat1.lt hat1.two_le, if_neg hk]
    obtain ⟨acc', q, e, i1, i2, i3, i4, i5⟩ := levels_eq h hm hN junk ws (hat1.after y1.shape).next (halved_shape_congr h12) hS'
      (Or.inr rfl : AccIs up S (some (ofFn S fun jx => msOp up (A jx) (msTerm up eps w (v.get jx)))) _)
    refine ⟨acc', q, ?_, i1, i2, ?_, ?_, by simp⟩
    · simp only [MsSsim.levels]
      rw [Run.bind_ok hcs, Run.bind_ok hcrop, hmean, Run.lift_bind]
      refine (Run.bind_ok (m := Run.lift _) (congrArg (Prod.mk _) hacc)).trans ?_
      rw [hd1, Run.lift_bind, hd2, Run.lift_bind]
      exact e
    · have : (fun jx => msOp up (A jx) (msTotal up ((List.range (w :: ws).length).map (csTerm up eps k2 f b axes (w :: ws) y1 y2 jx)))) =
          fun jx => msOp up (msOp up (A jx) (msTerm up eps w (v.get jx))) (msTotal up ((List.range ws.length).map
            (csTerm up eps k2 f b axes ws (halved axes y1) (halved axes y2) jx))) := by
        funext jx
        rw [List.length_cons, List.range_succ_eq_map, List.map_cons, List.map_map, msTotal_cons, msOp_assoc]
        rfl
      rw [this]
      exact i3
    · intro _
      rcases ws with _ | ⟨w', ws⟩
      · rw [(i5 rfl).2]; simp
      · exact i4 (by simp)

/-- the check of the sizes -/
theorem checkLarge_eq (h : SsimOf ms.base g m k1 k2 sc cr) (hm : g.isMany = true → axes.length = m) (L : Nat) (shape : List Nat) :
    ∀ (as : List Nat) (i : Nat), i + as.length = axes.length → (∀ a ∈ as, a < shape.length) →
    (∀ j < as.length, (g.entry [] (i + j)).length * 2 ^ L < 2 * shape.getD (as.getD j 0) 0) →
    ms.base.checkLarge L shape i (castV as) = .ok ()
  | [], _, _, _, _ => rfl
  | a :: as, i, hl, ha, hlarge => by
    have hsize : (ms.base.pool.kernelSize.get (i : Int)).bind SepPool.asSize = .ok (((g.entry [] i).length : Nat) : Int) :=
      kernelSize_get h hm (by simp at hl; omega)
    have ha' : a < shape.length := ha a (by simp)
    have hn : pyIndex shape (a : Int) = .ok (shape.getD a 0) := by rw [pyIndex_nat ha']; simp [ha']
    have h0 := hlarge 0 (by simp)
    simp only [Nat.add_zero, List.getD_cons_zero] at h0
    have ih := checkLarge_eq h hm L shape as (i + 1) (by simp at hl; omega) (fun b hb => ha b (by simp [hb])) (by
      intro j hj
      have := hlarge (j + 1) (by simpa using hj)
      rw [show i + (j + 1) = i + 1 + j by omega] at this
      simpa using this)
    have hc : castV (a :: as) = (a : Int) :: castV as := rfl
    rw [hc]
    simp only [SSIM.checkLarge, hn, ok_bind, hsize]
    rw [if_pos, ih]
    have h0' : ((g.entry [] i).length : Int) * 2 ^ L < 2 * (shape.getD a 0 : Int) := by exact_mod_cast h0
    linarith

end

end TI
