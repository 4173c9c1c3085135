import Verif.Proofs.SsimCall
import Verif.Proofs.PadQuiet

/-!
# SSIM with border cropping and padders that may leave entries unwritten
-/

namespace TI
open Tensor Spec

set_option linter.unusedSectionVars false

section
variable {α : Type} [Field α] [LinearOrder α] [IsStrictOrderedRing α]

/-- A padded pooling call in which all modes are known: on the widened axes either nothing is written (modes `"empty"` and `"zeros"`) or the
mode defines values; a widened `"zeros"` axis is not followed by one on which something is to be written (that is a TypeError). -/
structure Spec.KnownCall (g : PoolArgs α) (gp : PadArgs α) (x : Tensor α) (ax : Axes) (axes : List Nat) : Prop extends
    SameReq g gp x ax axes where
  known : ∀ o ∈ sameOps g gp x.shape axes, o.2.widened → o.2.quiet = true ∨ o.2.rule? ≠ none
  zerosLast : ZerosLast (sameOps g gp x.shape axes)

variable {g : PoolArgs α} {gp : PadArgs α} {x y : Tensor α} {ax : Axes} {axes : List Nat}

theorem Spec.SameReq.congr (h : SameReq g gp x ax axes) (hs : y.shape = x.shape) : SameReq g gp y ax axes where
  axes_eq := by rw [ndim, hs]; exact h.axes_eq
  ne := h.ne
  nodup := h.nodup
  fits := h.fits
  rest := h.rest
  stride := h.stride
  pos := by rw [hs]; exact h.pos

theorem Spec.SameReq.seq (h : SameReq g gp x ax axes) : SameReq g gp x (.seq (castV axes)) axes where
  axes_eq := normAxes_castV (checkAxes_spec h.axes_eq).2
  ne := h.ne
  nodup := h.nodup
  fits := h.fits
  rest := h.rest
  stride := h.stride
  pos := h.pos

theorem Spec.KnownCall.congr (h : KnownCall g gp x ax axes) (hs : y.shape = x.shape) : KnownCall g gp y ax axes where
  toSameReq := h.toSameReq.congr hs
  known := by rw [hs]; exact h.known
  zerosLast := by rw [hs]; exact h.zerosLast

theorem Spec.KnownCall.seq (h : KnownCall g gp x ax axes) : KnownCall g gp x (.seq (castV axes)) axes where
  toSameReq := h.toSameReq.seq
  known := h.known
  zerosLast := h.zerosLast

/-- calls in which all modes define values -/
theorem Spec.SameCall.knownCall (h : SameCall g gp x ax axes) : KnownCall g gp x ax axes where
  toSameReq := h.toSameReq
  known := fun o ho hw => Or.inr (h.valued o ho hw).1
  zerosLast := List.pairwise_of_forall_mem_list fun o ho _ _ hz hw => absurd hz (h.valued o ho hw).2

theorem Spec.SameReq.sameOps_nodup (h : SameReq g gp x ax axes) : ((sameOps g gp x.shape axes).map Prod.fst).Nodup := by
  rw [sameOps_fst]; exact h.nodup

theorem Spec.KnownCall.paddedShape (h : KnownCall g gp x ax axes) (junk : List Nat → α) :
    PaddedShape (sameOps g gp x.shape axes) x (quietPad junk x (sameOps g gp x.shape axes)) where
  ndim := by rw [ndim, ndim, quietPad_shape]; simp [paddedSizes]
  size := by
    intro k hk
    rw [quietPad_shape, paddedSizes, getD_map_range (show k < x.shape.length from hk)]
    rfl

/-- the padding of such a call -/
theorem Spec.KnownCall.pad (h : KnownCall g gp x ax axes) (junk : List Nat → α) :
    ((gp.withWidths (g.widths x.shape axes)).padder axes.length).forward junk x (.seq (castV axes)) =
      .ok (quietPad junk x (sameOps g gp x.shape axes)) := by
  have hr := req_args (g := gp.withWidths (g.widths x.shape axes)) (m := axes.length) (List.length_pos_iff.2 h.ne) (withWidths_fits h.rest)
    (x := x) h.ndim_ne (ax := .seq (castV axes)) (axes := axes) (normAxes_castV (checkAxes_spec h.axes_eq).2) h.nodup
  have hk : KnownReq ((gp.withWidths (g.widths x.shape axes)).padder axes.length) x (.seq (castV axes)) axes
      ((gp.withWidths (g.widths x.shape axes)).settings axes.length axes.length) := by
    refine ⟨hr, ?_⟩
    rw [sameOps_zipRight]
    intro o ho hw
    exact (h.known o ho hw).imp id fun hr => ⟨hr, h.pos o.1 (by rw [← sameOps_fst g gp x.shape axes]; exact List.mem_map_of_mem ho)⟩
  have := forward_quietPad hk (by rw [sameOps_zipRight]; exact h.zerosLast) junk
  rwa [sameOps_zipRight] at this

theorem Spec.KnownCall.cropOf (h : KnownCall g gp x ax axes) (junk : List Nat → α) :
    CropOf (sameOps g gp x.shape axes) x (quietPad junk x (sameOps g gp x.shape axes)) where
  ndim := (h.paddedShape junk).ndim
  size := by
    intro k hk
    rw [(h.paddedShape junk).size k hk, beforeAt]
    cases settingAt (sameOps g gp x.shape axes) k with
    | none => simp
    | some s => simp only; omega
  get := by
    intro ix hix
    refine (quietPad_crop ?_ h.sameOps_nodup junk h.lt hix).2
    intro o ho hw
    obtain ⟨h1, h2⟩ := mem_writingOps.1 ho
    rcases h.known o h1 hw with h3 | h3
    · rw [h2] at h3; cases h3
    · exact h3

end

section
variable {α : Type} [Field α] [LinearOrder α] [IsStrictOrderedRing α]
variable {s : SSIM α} {g : Given (List α)} {gp : PadArgs α} {m : Nat} {x y y1 y2 : Tensor α} {ax rax : Axes} {axes raxes : List Nat}
  {k1 k2 : α} {sc : Bool}

theorem poolOps_of_sizes (hc : SameReq (PoolArgs.filter g) gp y1 ax axes)
    (hk : ∀ i < axes.length, (g.entry [] i).length ≤ y1.shape.getD (axes.getD i 0) 0) : PoolOps y1 ((PoolArgs.filter g).ops axes) := by
  refine ⟨hc.ops_nodup, ?_, ?_, ?_⟩
  · intro o ho _
    obtain ⟨i, hi, rfl⟩ := List.mem_map.1 ho
    exact (checkAxes_spec hc.axes_eq).2 _ (by have := List.mem_range.1 hi; simp [PoolArgs.op, this])
  · intro o ho _
    obtain ⟨i, hi, rfl⟩ := List.mem_map.1 ho
    exact Nat.one_pos
  · intro o ho _
    obtain ⟨i, hi, rfl⟩ := List.mem_map.1 ho
    exact hk i (List.mem_range.1 hi)

theorem fitting_of_sizes (hc : SameReq (PoolArgs.filter g) gp y1 ax axes)
    (hk : ∀ i < axes.length, (g.entry [] i).length ≤ y1.shape.getD (axes.getD i 0) 0) : Fitting y1 ((PoolArgs.filter g).ops axes) :=
  (poolOps_of_sizes hc hk).fitting

/-- a filter of stride 1 on a tensor padded to the same size -/
theorem filter_shape_kept (hc : SameReq (PoolArgs.filter g) gp x ax axes)
    (hy : PaddedShape (sameOps (PoolArgs.filter g) gp x.shape axes) x y)
    (hper : ∀ i < axes.length, (gp.mode.entry .unknown i).isPeriodize = false ∨ x.shape.getD (axes.getD i 0) 0 % 2 = 0) :
    (poolSeq y ((PoolArgs.filter g).ops axes)).shape = x.shape := by
  have hn : y.shape.length = x.shape.length := hy.ndim
  apply list_ext_getD
  · exact (poolSeq_ndim _ _).trans hy.ndim
  · intro k hk
    rw [show (poolSeq y ((PoolArgs.filter g).ops axes)).shape.length = y.shape.length from poolSeq_ndim _ _, hn] at hk
    rw [poolSeq_shape (hc.poolOps_of hy)]
    by_cases hka : k ∈ axes
    · obtain ⟨i, hi, rfl⟩ := List.mem_iff_getElem.1 hka
      have e : axes[i] = axes.getD i 0 := by simp [hi]
      have hpos : 0 < x.shape.getD (axes.getD i 0) 0 := hc.pos _ (by simp [hi])
      rw [e, hc.padded_size_of hy hi (hper i hi), filter_stride, sameTotal_one]
      by_cases h0 : ((PoolArgs.filter g).op axes i).kernel = []
      · rw [find_ops_none]
        · simp [h0]
        · intro j hj hij
          have : j = i := by
            simp only [List.getD_eq_getElem?_getD, List.getElem?_eq_getElem hj, List.getElem?_eq_getElem hi, Option.getD_some] at hij
            exact (List.Nodup.getElem_inj_iff hc.nodup).1 hij
          rw [this]; exact h0
      · rw [find_ops hc.nodup hi h0]
        have h0' : ((PoolArgs.filter g).op axes i).kernel.length ≠ 0 := by simpa using h0
        simp only
        rw [filter_stride, windowCount_one h0' (by omega)]
        omega
    · rw [find_ops_none, hy.size k hk, settingAt_none (by rw [sameOps_fst]; exact hka)]
      intro j hj hjk
      exact absurd (hjk ▸ (by simp [hj])) hka

/-- the filter of a call in which all modes are known -/
def quietFiltered (g : Given (List α)) (gp : PadArgs α) (junk : List Nat → α) (axes : List Nat) (x : Tensor α) : Tensor α :=
  poolSeq (quietPad junk x (sameOps (PoolArgs.filter g) gp x.shape axes)) ((PoolArgs.filter g).ops axes)

theorem quietFiltered_shape (hc : KnownCall (PoolArgs.filter g) gp x ax axes) (junk : List Nat → α)
    (hper : ∀ i < axes.length, (gp.mode.entry .unknown i).isPeriodize = false ∨ x.shape.getD (axes.getD i 0) 0 % 2 = 0) :
    (quietFiltered g gp junk axes x).shape = x.shape := filter_shape_kept hc.toSameReq (hc.paddedShape junk) hper

theorem quietFiltered_cropOf (hc : KnownCall (PoolArgs.filter g) gp x ax axes) (junk : List Nat → α)
    (hf : Fitting x ((PoolArgs.filter g).ops axes)) :
    CropOf (sameOps (PoolArgs.filter g) gp x.shape axes) (valid g axes x) (quietFiltered g gp junk axes x) := by
  apply poolSeq_cropOf (hc.cropOf junk) hf
  intro o ho
  obtain ⟨i, _, rfl⟩ := List.mem_map.1 ho
  rfl

theorem quiet_steady {cr : Bool} (hs : SsimOf s g m k1 k2 sc cr) (hm : g.isMany = true → axes.length = m)
    (hc : KnownCall (PoolArgs.filter g) gp x ax axes) (junk : List Nat → α)
    (hper : ∀ i < axes.length, (gp.mode.entry .unknown i).isPeriodize = false ∨ x.shape.getD (axes.getD i 0) 0 % 2 = 0) :
    Steady s junk (castV axes) (fun p => ∃ p', p = some p' ∧ Holds p' gp) (padderAfter g (some gp) x.shape axes) x.shape x.shape
      (quietFiltered g gp junk axes) where
  run := by
    rintro _ ⟨p, rfl, hp⟩ y hy
    simp only [SSIM.blur, hs.exclude, Bool.false_eq_true, if_false]
    have hm' : (PoolArgs.filter g).isMany = true → axes.length = m := by rw [filter_isMany]; exact hm
    have h3 := (hc.congr hy).seq
    rw [hs.pool.forward_req h3.toSameReq hm' hp junk (h3.pad junk) (h3.paddedShape junk), hy]
    simp only [padderAfter, Option.map, quietFiltered, hy]
  post := ⟨_, rfl, holds_withWidths _ _ _⟩
  shape := fun y hy => by
    rw [← hy]
    exact quietFiltered_shape (hc.congr hy) junk (by rw [hy]; exact hper)

/-- a function of both blurred images, their squares and their product -/
def Spec.pointMap (F : α → α → α → α → α → α) (b : Tensor α → Tensor α) (y1 y2 : Tensor α) : Tensor α :=
  ofFn (b y1).shape fun ix => F ((b y1).get ix) ((b y2).get ix) ((b (times y1 y1)).get ix) ((b (times y2 y2)).get ix) ((b (times y1 y2)).get ix)

/-- `_crop_border` of such a map: the same function of the images blurred without padding -/
theorem crop_pointMap_of (hs : SsimOf s g m k1 k2 sc true) (hc : SameReq (PoolArgs.filter g) gp y1 ax axes)
    (hk : ∀ i < axes.length, (g.entry [] i).length ≤ y1.shape.getD (axes.getD i 0) 0) (h12 : y2.shape = y1.shape) {b : Tensor α → Tensor α}
    (hsh : (b y1).shape = y1.shape)
    (hcr : ∀ x : Tensor α, x.shape = y1.shape → CropOf (sameOps (PoolArgs.filter g) gp y1.shape axes) (valid g axes x) (b x))
    (F : α → α → α → α → α → α) :
    s.cropBorder (pointMap F b y1 y2) (castV axes) (padderAfter g (some gp) y1.shape axes) =
      (padderAfter g (some gp) y1.shape axes, .ok (pointMap F (valid g axes) y1 y2)) := by
  have hvs : ∀ x : Tensor α, x.shape = y1.shape → (valid g axes x).shape = (valid g axes y1).shape :=
    fun x hx => poolSeq_shape_congr hx
  apply cropBorder_eq (v := pointMap F (valid g axes) y1 y2) hs hc hk (show (pointMap F b y1 y2).shape = y1.shape from hsh) rfl
  have h1 := hcr y1 rfl
  refine ⟨h1.ndim, h1.size, ?_⟩
  intro ix hix
  have hix' : InB (valid g axes y1).shape ix := hix
  rw [pointMap, get_ofFn (h1.inB hix'), pointMap, get_ofFn hix',
    h1.get ix hix', (hcr y2 h12).get ix (by rw [hvs y2 h12]; exact hix'), (hcr (times y1 y1) rfl).get ix (by rw [hvs (times y1 y1) rfl]; exact hix'),
    (hcr (times y2 y2) h12).get ix (by rw [hvs (times y2 y2) h12]; exact hix'), (hcr (times y1 y2) rfl).get ix (by rw [hvs (times y1 y2) rfl]; exact hix')]

end

end TI
