import Verif.Proofs.Interior
import Verif.Props.Sharpen
import Verif.Props.EdgesGauss
import Verif.Props.PadQuiet

/-!
# Filters away from the border (C97), straight-line images (C98, C99)
-/

set_option linter.unusedSectionVars false

namespace TI
open Tensor Spec

section
variable {α : Type} [Field α] [LinearOrder α] [IsStrictOrderedRing α]
variable {pool : SepPool α} {g : Given (List α)} {m : Nat} {gp gp' : PadArgs α} {p p' : Padder α} {x x' : Tensor α} {ax : Axes} {axes : List Nat}

theorem valid_size (hc : SameReq (PoolArgs.filter g) gp x ax axes)
    (hk : ∀ i < axes.length, (g.entry [] i).length ≤ x.shape.getD (axes.getD i 0) 0) {i : Nat} (hi : i < axes.length) :
    (valid g axes x).shape.getD (axes.getD i 0) 0 =
      if g.entry [] i = [] then x.shape.getD (axes.getD i 0) 0 else x.shape.getD (axes.getD i 0) 0 - (g.entry [] i).length + 1 := by
  rw [valid, poolSeq_shape (poolOps_of_sizes hc hk)]
  split_ifs with h0
  · rw [find_ops_none]
    intro j hj hij
    have : j = i := by
      simp only [List.getD_eq_getElem?_getD, List.getElem?_eq_getElem hj, List.getElem?_eq_getElem hi, Option.getD_some] at hij
      exact (List.Nodup.getElem_inj_iff hc.nodup).1 hij
    rw [this]; exact h0
  · rw [find_ops (g := PoolArgs.filter g) hc.nodup hi h0]
    have h1 : ((PoolArgs.filter g).op axes i).kernel = g.entry [] i := rfl
    have h2 : ((PoolArgs.filter g).op axes i).stride = 1 := filter_stride _ _ _
    simp only [h1, h2]
    exact windowCount_one (by simpa using h0) (hk i hi)

theorem interior_inB (hc : SameReq (PoolArgs.filter g) gp x ax axes)
    (hk : ∀ i < axes.length, (g.entry [] i).length ≤ x.shape.getD (axes.getD i 0) 0) {ix jx : List Nat} (h : Interior g axes x.shape jx)
    (hm : Moved g axes ix jx) : InB (valid g axes x).shape ix := by
  have hn : (valid g axes x).shape.length = x.shape.length := poolSeq_ndim _ _
  rw [inB_iff]
  refine ⟨by rw [← hm.length, h.1.length_eq, hn], ?_⟩
  intro k hk'
  rw [hn] at hk'
  have hj := h.1.lt hk'
  by_cases hka : k ∈ axes
  · obtain ⟨i, hi, rfl⟩ := List.mem_iff_getElem.1 hka
    have e : axes[i] = axes.getD i 0 := by simp [hi]
    rw [e] at hj ⊢
    rw [valid_size hc hk hi]
    have h1 := hm.filtered i hi
    have h2 := h.2 i hi
    split_ifs with h0
    · rw [h0] at h1; simp only [List.length_nil, Nat.zero_div, Nat.add_zero] at h1; omega
    · have := hk i hi
      have : (g.entry [] i).length ≠ 0 := by simpa using h0
      omega
  · rw [← hm.other k hka, valid, poolSeq_shape (poolOps_of_sizes hc hk), find_ops_none]
    · exact hj
    · intro i hi hik
      exact absurd (hik ▸ (by simp [hi])) hka

/-- **C97**: away from the border a same-padded filter returns what the filter without padding returns, half a kernel further, whatever the padding
mode (also the modes that write nothing), the state of the padder and the content of fresh memory; and every position whose kernels do not
reach over the border is such a position. -/
theorem C97_interior (hb : Built pool (PoolArgs.filter g) m) (hm : g.isMany = true → axes.length = m) (hc : KnownCall (PoolArgs.filter g) gp x ax axes)
    (hp : Holds p gp) (hk : ∀ i < axes.length, (g.entry [] i).length ≤ x.shape.getD (axes.getD i 0) 0) (junk junk' : List Nat → α) :
    ∃ q z v, SepPool.forward pool (some p) junk x ax = (q, .ok z) ∧ SepPool.forward pool none junk' x ax = (none, .ok v) ∧
      (∀ ix jx, InB v.shape ix → Moved g axes ix jx → InB z.shape jx ∧ z.get jx = v.get ix) ∧
      ∀ jx, Interior g axes x.shape jx → ∃ ix, InB v.shape ix ∧ Moved g axes ix jx := by
  have hm' : (PoolArgs.filter g).isMany = true → axes.length = m := by rw [filter_isMany]; exact hm
  have hcr := quietFiltered_cropOf hc junk (fitting_of_sizes hc.toSameReq hk)
  refine ⟨_, quietFiltered g gp junk axes x, valid g axes x,
    hb.poolIs.1.forward_req hc.toSameReq hm' hp junk (hc.pad junk) (hc.paddedShape junk),
    hb.poolIs.1.forward_none hc.axes_eq hm' (fitting_of_sizes hc.toSameReq hk) junk', ?_, ?_⟩
  · intro ix jx hix hmv
    rw [hmv.embed (gp := gp) (shape := x.shape) hc.nodup]
    exact ⟨hcr.inB hix, hcr.get ix hix⟩
  · intro jx hj
    have hmv := movedBack_moved (g := g) (axes := axes) (jx := jx) hc.nodup fun i hi => (hj.2 i hi).1
    exact ⟨_, interior_inB hc.toSameReq hk hj hmv, hmv⟩

/-- **C97**: away from the border the filter is local: two images (and two padders, in any states and modes) give the same value at a position
if the images agree on the positions covered by the kernels centred there. -/
theorem C97_local (hb : Built pool (PoolArgs.filter g) m) (hm : g.isMany = true → axes.length = m) (hc : KnownCall (PoolArgs.filter g) gp x ax axes)
    (hc' : KnownCall (PoolArgs.filter g) gp' x' ax axes) (hs : x'.shape = x.shape) (hp : Holds p gp) (hp' : Holds p' gp')
    (hk : ∀ i < axes.length, (g.entry [] i).length ≤ x.shape.getD (axes.getD i 0) 0) (junk junk' : List Nat → α) :
    ∃ q q' z z', SepPool.forward pool (some p) junk x ax = (q, .ok z) ∧ SepPool.forward pool (some p') junk' x' ax = (q', .ok z') ∧
      ∀ jx, Interior g axes x.shape jx → (∀ kx, InB x.shape kx → Around g axes jx kx → x.get kx = x'.get kx) → z.get jx = z'.get jx := by
  have hk' : ∀ i < axes.length, (g.entry [] i).length ≤ x'.shape.getD (axes.getD i 0) 0 := by rw [hs]; exact hk
  obtain ⟨q, z, v, e1, e2, h1, h2⟩ := C97_interior hb hm hc hp hk junk junk
  obtain ⟨q', z', v', e1', e2', h1', _⟩ := C97_interior hb hm hc' hp' hk' junk' junk'
  refine ⟨q, q', z, z', e1, e1', ?_⟩
  intro jx hj hag
  obtain ⟨ix, hix, hmv⟩ := h2 jx hj
  have hm' : (PoolArgs.filter g).isMany = true → axes.length = m := by rw [filter_isMany]; exact hm
  have ev := hb.poolIs.1.forward_none hc.axes_eq hm' (fitting_of_sizes hc.toSameReq hk) junk
  have ev' := hb.poolIs.1.forward_none hc'.axes_eq hm' (fitting_of_sizes hc'.toSameReq hk') junk'
  rw [e2] at ev
  rw [e2'] at ev'
  obtain rfl : v = poolSeq x ((PoolArgs.filter g).ops axes) := by injection ev with _ h; injection h
  obtain rfl : v' = poolSeq x' ((PoolArgs.filter g).ops axes) := by injection ev' with _ h; injection h
  rw [(h1 ix jx hix hmv).2, (h1' ix jx (by rw [poolSeq_shape_congr hs]; exact hix) hmv).2]
  refine poolSeq_local (poolOps_of_sizes hc.toSameReq hk) hs hix ?_
  intro kx hkx hw
  refine hag kx hkx ⟨by rw [hw.length, hmv.length], ?_, ?_⟩
  · intro i hi hne
    have h3 := hw.pooled ((PoolArgs.filter g).op axes i) (mem_ops.2 ⟨i, hi, rfl⟩) hne
    rw [filter_stride, Nat.mul_one] at h3
    have h4 := hmv.filtered i hi
    have h3' : ix.getD (axes.getD i 0) 0 ≤ kx.getD (axes.getD i 0) 0 ∧ kx.getD (axes.getD i 0) 0 < ix.getD (axes.getD i 0) 0 + (g.entry [] i).length := h3
    omega
  · intro k hk0
    have e : ix.getD k 0 = jx.getD k 0 := by
      by_cases hka : k ∈ axes
      · obtain ⟨i, hi, rfl⟩ := List.mem_iff_getElem.1 hka
        have e : axes[i] = axes.getD i 0 := by simp [hi]
        rw [e] at hk0 ⊢
        have h0 : g.entry [] i = [] := by
          by_contra hne
          exact hk0 i hi hne rfl
        rw [hmv.filtered i hi, h0]
        simp
      · exact (hmv.other k hka).symm
    rw [← e]
    apply hw.other
    intro o ho hne
    obtain ⟨i, hi, rfl⟩ := mem_ops.1 ho
    exact hk0 i hi hne

/-- **C97**, written out for non-empty kernels: away from the border the value at `jx` (half a kernel beyond `ix`) is the sum over all
offsets `j` of `k₁[j₁]⋯kₘ[jₘ]` times the original sample at distance `j` from `ix`. -/
theorem C97_formula (hb : Built pool (PoolArgs.filter g) m) (hm : g.isMany = true → axes.length = m) (hc : KnownCall (PoolArgs.filter g) gp x ax axes)
    (hp : Holds p gp) (hk : ∀ i < axes.length, (g.entry [] i).length ≤ x.shape.getD (axes.getD i 0) 0)
    (hne : ∀ i < axes.length, g.entry [] i ≠ []) (junk : List Nat → α) :
    ∃ q z, SepPool.forward pool (some p) junk x ax = (q, .ok z) ∧ ∀ ix jx, Interior g axes x.shape jx → Moved g axes ix jx →
      z.get jx = ((indices ((List.range axes.length).map fun i => (g.entry [] i).length)).map fun j =>
        corrWeight ((PoolArgs.filter g).ops axes) j * x.get (corrSource ((PoolArgs.filter g).ops axes) ix j)).sum := by
  obtain ⟨q, z, v, e1, e2, h1, h2⟩ := C97_interior hb hm hc hp hk junk junk
  have hm' : (PoolArgs.filter g).isMany = true → axes.length = m := by rw [filter_isMany]; exact hm
  obtain ⟨v', e3, h3⟩ := C30_separable_entries hb hc.axes_eq hm' hc.nodup (by
      intro o ho
      obtain ⟨i, hi, rfl⟩ := mem_ops.1 ho
      exact hne i hi) (by
      intro o ho
      obtain ⟨i, hi, rfl⟩ := mem_ops.1 ho
      exact hk i hi) junk
  rw [e2] at e3
  obtain rfl : v = v' := by injection e3 with _ h; injection h
  refine ⟨q, z, e1, ?_⟩
  intro ix jx hj hmv
  have ev := hb.poolIs.1.forward_none hc.axes_eq hm' (fitting_of_sizes hc.toSameReq hk) junk
  rw [e2] at ev
  have hv : v = valid g axes x := by injection ev with _ h; injection h
  have hix : InB v.shape ix := by rw [hv]; exact interior_inB hc.toSameReq hk hj hmv
  rw [(h1 ix jx hix hmv).2, h3 ix hix]
  rw [PoolArgs.ops, List.map_map]
  rfl

/-! ## C98 -/

theorem valid_affine (hc : SameReq (PoolArgs.filter g) gp x ax axes) (hk : ∀ i < axes.length, (g.entry [] i).length ≤ x.shape.getD (axes.getD i 0) 0)
    (hw : ∀ i < axes.length, g.entry [] i ≠ [] → (g.entry [] i).sum = 1) {c : α} {s : Nat → α} (hx : Affine c s x) :
    Affine (c + (((PoolArgs.filter g).ops axes).map fun o => s o.axis * moment o.kernel).sum) s (valid g axes x) := by
  apply poolSeq_affine (poolOps_of_sizes hc hk) _ _ hx
  · intro o ho
    obtain ⟨i, hi, rfl⟩ := mem_ops.1 ho
    rfl
  · intro o ho
    obtain ⟨i, hi, rfl⟩ := mem_ops.1 ho
    exact hw i hi

/-- **C98**: a filter whose kernels have sum one turns a straight-line image, away from the border and with any padder, into the same
straight-line image plus the distance of the centres of the kernels from their middles times the slopes. -/
theorem C98_interior (hb : Built pool (PoolArgs.filter g) m) (hm : g.isMany = true → axes.length = m) (hc : KnownCall (PoolArgs.filter g) gp x ax axes)
    (hp : Holds p gp) (hk : ∀ i < axes.length, (g.entry [] i).length ≤ x.shape.getD (axes.getD i 0) 0)
    (hw : ∀ i < axes.length, g.entry [] i ≠ [] → (g.entry [] i).sum = 1) {c : α} {s : Nat → α} (hx : Affine c s x) (junk : List Nat → α) :
    ∃ q z, SepPool.forward pool (some p) junk x ax = (q, .ok z) ∧
      ∀ jx, Interior g axes x.shape jx → z.get jx = c + rise s jx + drift g axes s := by
  obtain ⟨q, z, v, e1, e2, h1, h2⟩ := C97_interior hb hm hc hp hk junk junk
  refine ⟨q, z, e1, ?_⟩
  intro jx hj
  obtain ⟨ix, hix, hmv⟩ := h2 jx hj
  have hm' : (PoolArgs.filter g).isMany = true → axes.length = m := by rw [filter_isMany]; exact hm
  have ev := hb.poolIs.1.forward_none hc.axes_eq hm' (fitting_of_sizes hc.toSameReq hk) junk
  rw [e2] at ev
  obtain rfl : v = valid g axes x := by injection ev with _ h; injection h
  have hlt : ∀ a ∈ axes, a < ix.length := by
    intro a ha
    rw [hix.length_eq]
    exact lt_of_lt_of_eq ((checkAxes_spec hc.axes_eq).2 a ha) (poolSeq_ndim _ _).symm
  rw [(h1 ix jx hix hmv).2, valid_affine hc.toSameReq hk hw hx ix hix, rise_moved hc.nodup hlt hmv s]
  have e3 : (((PoolArgs.filter g).ops axes).map fun o => s o.axis * moment o.kernel).sum =
      ((List.range axes.length).map fun i : Nat => s (axes.getD i 0) * moment (g.entry [] i)).sum := by
    rw [PoolArgs.ops, List.map_map]
    rfl
  have e4 : drift g axes s = ((List.range axes.length).map fun i : Nat => s (axes.getD i 0) * moment (g.entry [] i)).sum -
      ((List.range axes.length).map fun i : Nat => s (axes.getD i 0) * (((g.entry [] i).length / 2 : Nat) : α)).sum := by
    simp only [drift, list_sum_range, ← Finset.sum_sub_distrib]
    exact Finset.sum_congr rfl fun i _ => by ring
  rw [e3, e4]
  ring

theorem straight_ops {gs : PoolArgs α} (h : gp.Straight axes.length) :
    ∀ o ∈ sameOps gs gp x.shape axes, o.2.mode = .smooth ∨ o.2.mode = .oddReflect := by
  intro o ho
  obtain ⟨i, hi, rfl⟩ := sameOps_mem ho
  have h1 := h i hi
  change gp.mode.entry .unknown i = _ ∨ gp.mode.entry .unknown i = _
  cases hmode : gp.mode.entry .unknown i <;> rw [hmode] at h1 <;> first | exact absurd h1 id | simp

theorem filtered_straight_shape (hc : SameCall (PoolArgs.filter g) gp x ax axes) (hst : gp.Straight axes.length) :
    (filtered g gp x axes).shape = x.shape := by
  apply filter_shape_kept hc.toSameReq hc.paddedShape
  intro i hi
  have h1 := hst i hi
  left
  cases hmode : gp.mode.entry .unknown i <;> rw [hmode] at h1 <;> first | exact absurd h1 id | rfl

theorem filtered_straight (hc : SameCall (PoolArgs.filter g) gp x ax axes) (hst : gp.Straight axes.length) (h2 : ∀ a ∈ axes, 2 ≤ x.shape.getD a 0)
    (hw : ∀ i < axes.length, g.entry [] i ≠ [] → (g.entry [] i).sum = 1) {c : α} {s : Nat → α} (hx : Affine c s x) (jx : List Nat) (hj : InB x.shape jx) :
    (filtered g gp x axes).get jx = c + rise s jx + drift g axes s := by
  have h1 := padSeq_affine (ops := sameOps (PoolArgs.filter g) gp x.shape axes) (x := x) (by rw [sameOps_fst]; exact hc.nodup) hc.lt (straight_ops hst) (by
    intro o ho _
    obtain ⟨i, hi, rfl⟩ := sameOps_mem ho
    exact h2 _ (getD_mem_lt hi)) hx
  have h3 := poolSeq_affine hc.poolOps (by
      intro o ho
      obtain ⟨i, hi, rfl⟩ := mem_ops.1 ho
      rfl) (by
      intro o ho
      obtain ⟨i, hi, rfl⟩ := mem_ops.1 ho
      exact hw i hi) h1
  rw [same_drift] at h3
  have h4 := h3 jx (by
    change InB (filtered g gp x axes).shape jx
    rw [filtered_straight_shape hc hst]; exact hj)
  rw [show (filtered g gp x axes).get jx = _ from h4]
  ring

/-- **C98**: with `smooth` or `odd_reflect` padding and at least two samples along every filtered axis, this holds at every position. -/
theorem C98_straight (hb : Built pool (PoolArgs.filter g) m) (hm : g.isMany = true → axes.length = m) (hc : SameCall (PoolArgs.filter g) gp x ax axes)
    (hp : Holds p gp) (hst : gp.Straight axes.length) (h2 : ∀ a ∈ axes, 2 ≤ x.shape.getD a 0)
    (hw : ∀ i < axes.length, g.entry [] i ≠ [] → (g.entry [] i).sum = 1) {c : α} {s : Nat → α} (hx : Affine c s x) (junk : List Nat → α) :
    ∃ q z, SepPool.forward pool (some p) junk x ax = (q, .ok z) ∧ z.shape = x.shape ∧
      ∀ jx, InB x.shape jx → z.get jx = c + rise s jx + drift g axes s := by
  have hm' : (PoolArgs.filter g).isMany = true → axes.length = m := by rw [filter_isMany]; exact hm
  refine ⟨_, filtered g gp x axes, hb.poolIs.1.forward_same hc hm' hp junk, filtered_straight_shape hc hst, ?_⟩
  intro jx hj
  exact filtered_straight hc hst h2 hw hx jx hj

/-- **C98**: symmetric kernels of odd length and sum one (box, Gaussian) keep straight-line images: away from the border with any padder. -/
theorem C98_symmetric_interior (hb : Built pool (PoolArgs.filter g) m) (hm : g.isMany = true → axes.length = m)
    (hc : KnownCall (PoolArgs.filter g) gp x ax axes) (hp : Holds p gp) (hk : ∀ i < axes.length, (g.entry [] i).length ≤ x.shape.getD (axes.getD i 0) 0)
    (hw : ∀ i < axes.length, g.entry [] i = [] ∨ (g.entry [] i).reverse = g.entry [] i ∧ (g.entry [] i).length % 2 = 1 ∧ (g.entry [] i).sum = 1)
    {c : α} {s : Nat → α} (hx : Affine c s x) (junk : List Nat → α) :
    ∃ q z, SepPool.forward pool (some p) junk x ax = (q, .ok z) ∧ ∀ jx, Interior g axes x.shape jx → z.get jx = x.get jx := by
  obtain ⟨q, z, e, h⟩ := C98_interior hb hm hc hp hk (fun i hi hne => ((hw i hi).resolve_left hne).2.2) hx junk
  refine ⟨q, z, e, ?_⟩
  intro jx hj
  rw [h jx hj, drift_symmetric s hw, add_zero, hx jx hj.1]

/-- **C98**: everywhere with `smooth` or `odd_reflect`: the filter returns the image. -/
theorem C98_symmetric_straight (hb : Built pool (PoolArgs.filter g) m) (hm : g.isMany = true → axes.length = m)
    (hc : SameCall (PoolArgs.filter g) gp x ax axes) (hp : Holds p gp) (hst : gp.Straight axes.length) (h2 : ∀ a ∈ axes, 2 ≤ x.shape.getD a 0)
    (hw : ∀ i < axes.length, g.entry [] i = [] ∨ (g.entry [] i).reverse = g.entry [] i ∧ (g.entry [] i).length % 2 = 1 ∧ (g.entry [] i).sum = 1)
    {c : α} {s : Nat → α} (hx : Affine c s x) (junk : List Nat → α) :
    ∃ q, SepPool.forward pool (some p) junk x ax = (q, .ok x) := by
  obtain ⟨q, z, e, hsh, h⟩ := C98_straight hb hm hc hp hst h2 (fun i hi hne => ((hw i hi).resolve_left hne).2.2) hx junk
  refine ⟨q, ?_⟩
  rw [e]
  congr 2
  apply ext_get hsh
  intro jx hj
  rw [hsh] at hj
  rw [h jx hj, drift_symmetric s hw, add_zero, hx jx hj]

end

end TI
