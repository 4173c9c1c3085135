import Verif.Spec.Batch
import Verif.Proofs.FlipMetrics

/-!
# Selecting positions of an axis: padding, pooling, maps, reductions
-/

set_option linter.unusedSectionVars false

namespace TI
open Tensor Spec

/-! ## positions -/

section
variable {α : Type} [Zero α] {b : Nat} {index : List Nat} {x : Tensor α}

theorem selected_shape : (selected b index x).shape = x.shape.set b index.length := rfl

theorem selected_ndim : (selected b index x).ndim = x.ndim := by simp [ndim, selected_shape]

theorem selected_get {ix : List Nat} (h : InB (x.shape.set b index.length) ix) :
    (selected b index x).get ix = x.get (ix.set b (index.getD (ix.getD b 0) 0)) := by
  rw [selected, get_ofFn h]

theorem selected_size {k : Nat} (h : k ≠ b) : (selected b index x).shape.getD k 0 = x.shape.getD k 0 := by
  rw [selected_shape, getD_set_ne _ _ _ _ _ h]

theorem Spec.Selects.of_size {s t : List Nat} (h : Selects b index s) (hl : t.length = s.length) (hb : t.getD b 0 = s.getD b 0) :
    Selects b index t := ⟨by rw [hl]; exact h.axis, by rw [hb]; exact h.lt⟩

theorem Spec.Selects.index_lt {s ix : List Nat} (h : Selects b index s) (hix : InB (s.set b index.length) ix) :
    index.getD (ix.getD b 0) 0 < s.getD b 0 := by
  have hlt := hix.lt (k := b) (by rw [List.length_set]; exact h.axis)
  rw [getD_set_self _ _ _ _ h.axis] at hlt
  exact h.lt _ (getD_mem_lt hlt)

theorem Spec.Selects.inB {s ix : List Nat} (h : Selects b index s) (hix : InB (s.set b index.length) ix) :
    InB s (ix.set b (index.getD (ix.getD b 0) 0)) := by
  have := hix.set (i := index.getD (ix.getD b 0) 0) (m := s.getD b 0) (h.index_lt hix)
  rwa [set_getD_self] at this

end

/-! ## padding -/

section
variable {α : Type} [Field α] [LinearOrder α] [IsStrictOrderedRing α] {b : Nat} {index : List Nat}

theorem padStep_selected {x : Tensor α} {o : Nat × AxisPad α} (hs : Selects b index x.shape) (hne : o.1 ≠ b)
    (hn : ¬ (o.2.before = 0 ∧ o.2.after = 0) → 0 < x.shape.getD o.1 0) :
    padStep (selected b index x) o = selected b index (padStep x o) := by
  by_cases hz : o.2.before = 0 ∧ o.2.after = 0
  · simp only [padStep, if_pos hz]
  cases hr : o.2.rule? with
  | none => simp only [padStep, if_neg hz, hr]
  | some E =>
    simp only [padStep, if_neg hz, hr, selected_size hne]
    have hsh : (extendAxis E o.1 o.2.before (o.2.total (x.shape.getD o.1 0)) (selected b index x)).shape =
        (selected b index (extendAxis E o.1 o.2.before (o.2.total (x.shape.getD o.1 0)) x)).shape := by
      rw [extended_shape, selected_shape, selected_shape, extended_shape, getD_set_ne _ _ _ _ _ hne, List.set_comm _ _ hne]
    apply ext_get hsh
    intro ix hix
    have hs' : Selects b index (extendAxis E o.1 o.2.before (o.2.total (x.shape.getD o.1 0)) x).shape :=
      hs.of_size (by simp [extended_shape]) (by rw [extended_shape, getD_set_ne _ _ _ _ _ (Ne.symm hne)])
    have hix1 : InB ((extendAxis E o.1 o.2.before (o.2.total (x.shape.getD o.1 0)) x).shape.set b index.length) ix := by
      rw [hsh] at hix; exact hix
    rw [selected_get hix1, extended_get hix, extended_get (hs'.inB hix1)]
    rw [getD_set_ne _ _ _ _ _ hne, selected_size hne]
    apply rule_local hr (hn hz)
    intro j hj
    have hin : InB (x.shape.set b index.length) (ix.set o.1 j) := by
      have := hix1.set' (d := o.1) hj
      rwa [extended_shape, List.set_comm _ _ (Ne.symm hne), List.set_set, set_getD_self] at this
    rw [selected_get hin, getD_set_ne _ _ _ _ _ (Ne.symm hne), List.set_comm _ _ hne]

theorem padSeq_selected : ∀ {ops : List (Nat × AxisPad α)} {x : Tensor α}, Selects b index x.shape → OpsOK ops → (ops.map Prod.fst).Nodup →
    (∀ o ∈ ops, o.1 < x.ndim) → (∀ o ∈ ops, o.1 ≠ b) → (∀ o ∈ ops, ¬ (o.2.before = 0 ∧ o.2.after = 0) → 0 < x.shape.getD o.1 0) →
    padSeq (selected b index x) ops = selected b index (padSeq x ops)
  | [], _, _, _, _, _, _, _ => rfl
  | o :: ops, x, hs, hok, hnd, hlt, hne, hn => by
    have hnd' := List.nodup_cons.1 (show (o.1 :: ops.map Prod.fst).Nodup from hnd)
    have hsh := padStep_shape (x := x) (hok o (by simp))
    show padSeq (padStep (selected b index x) o) ops = selected b index (padSeq (padStep x o) ops)
    rw [padStep_selected hs (hne o (by simp)) (hn o (by simp))]
    apply padSeq_selected (hs.of_size (by rw [hsh]; simp) (by rw [hsh, getD_set_ne _ _ _ _ _ (Ne.symm (hne o (by simp)))]))
      (fun q hq => hok q (by simp [hq])) hnd'.2
    · intro q hq
      have := hlt q (by simp [hq])
      simpa [Tensor.ndim, hsh] using this
    · exact fun q hq => hne q (by simp [hq])
    · intro q hq hz
      have hq' : q.1 ≠ o.1 := fun e => hnd'.1 (List.mem_map.2 ⟨q, hq, e⟩)
      rw [hsh, getD_set_ne _ _ _ _ _ hq']
      exact hn q (by simp [hq]) hz

end

/-! ## pooling -/

section
variable {α : Type} [Field α] {b : Nat} {index : List Nat}

theorem slide_size_ne {x : Tensor α} {o : PoolOp α} {k : Nat} (h : k ≠ o.axis) : (slide x o).shape.getD k 0 = x.shape.getD k 0 := by
  rw [slide_shape]
  split_ifs
  · rfl
  · exact getD_set_ne _ _ _ _ _ h

theorem slide_length {x : Tensor α} {o : PoolOp α} : (slide x o).shape.length = x.shape.length := by
  rw [slide_shape]
  split_ifs <;> simp

theorem slide_selected {x : Tensor α} {o : PoolOp α} (hs : Selects b index x.shape) (ho : o.kernel ≠ [] → o.axis < x.ndim)
    (hst : o.kernel ≠ [] → 0 < o.stride) (hne : o.axis ≠ b) : slide (selected b index x) o = selected b index (slide x o) := by
  by_cases hk : o.kernel = []
  · simp [slide, hk]
  have hsh : (slide (selected b index x) o).shape = (selected b index (slide x o)).shape := by
    rw [selected_shape, slide_shape, slide_shape, if_neg hk, if_neg hk, selected_size hne, selected_shape, List.set_comm _ _ hne]
  apply ext_get hsh
  intro ix hix
  have hix1 : InB ((slide x o).shape.set b index.length) ix := by rw [hsh] at hix; exact hix
  have hs' : Selects b index (slide x o).shape := hs.of_size slide_length (slide_size_ne (Ne.symm hne))
  rw [selected_get hix1, slide_get hk hix, slide_get hk (hs'.inB hix1)]
  congr 1
  apply List.map_congr_left
  intro j hj
  have hj := List.mem_range.1 hj
  have hin := slide_inB (x := selected b index x) (hst hk) (by rw [selected_ndim]; exact ho hk) hk hix hj
  rw [selected_get hin, getD_set_ne _ _ _ _ _ hne, getD_set_ne _ _ _ _ _ (Ne.symm hne), List.set_comm _ _ hne]

theorem Fitting_selected : ∀ {ops : List (PoolOp α)} {x : Tensor α}, Selects b index x.shape → Fitting x ops → (∀ o ∈ ops, o.axis ≠ b) →
    Fitting (selected b index x) ops ∧ poolSeq (selected b index x) ops = selected b index (poolSeq x ops)
  | [], _, _, _, _ => ⟨trivial, rfl⟩
  | o :: ops, x, hs, h, hne => by
    have h' : _ ∧ _ := h
    have e := slide_selected hs (fun hk => (h'.1 hk).1) (fun hk => (h'.1 hk).2.1) (hne o (by simp))
    obtain ⟨h1, h2⟩ := Fitting_selected (hs.of_size (t := (slide x o).shape) slide_length (slide_size_ne (Ne.symm (hne o (by simp))))) h'.2
      fun q hq => hne q (by simp [hq])
    refine ⟨⟨?_, by rw [e]; exact h1⟩, ?_⟩
    · intro hk
      rw [selected_ndim, selected_size (hne o (by simp))]
      exact h'.1 hk
    · show poolSeq (slide (selected b index x) o) ops = selected b index (poolSeq (slide x o) ops)
      rw [e, h2]

end

section
variable {α : Type} [Field α] [LinearOrder α] [IsStrictOrderedRing α] {b : Nat} {index : List Nat}
variable {g : PoolArgs α} {gp : PadArgs α} {x : Tensor α} {ax : Axes} {axes : List Nat}

theorem widths_set {shape : List Nat} {m : Nat} (hb : b ∉ axes) : g.widths (shape.set b m) axes = g.widths shape axes := by
  rw [PoolArgs.widths, PoolArgs.widths]
  apply List.map_congr_left
  intro i hi
  have : axes.getD i 0 ≠ b := fun e => hb (e ▸ getD_mem_lt (List.mem_range.1 hi))
  rw [getD_set_ne _ _ _ _ _ this]

theorem sameOps_set {shape : List Nat} {m : Nat} (hb : b ∉ axes) : sameOps g gp (shape.set b m) axes = sameOps g gp shape axes := by
  rw [sameOps, sameOps, widths_set hb]

theorem Spec.SameCall.selected (h : SameCall g gp x ax axes) (hb : b ∉ axes) : SameCall g gp (selected b index x) ax axes where
  axes_eq := by rw [selected_ndim]; exact h.axes_eq
  ne := h.ne
  nodup := h.nodup
  fits := h.fits
  rest := h.rest
  stride := h.stride
  pos := by
    intro a ha
    rw [selected_size (by rintro rfl; exact hb ha)]
    exact h.pos a ha
  valued := by rw [selected_shape, sameOps_set hb]; exact h.valued

theorem ops_axis_ne (hb : b ∉ axes) : ∀ o ∈ g.ops axes, o.axis ≠ b := by
  intro o ho e
  obtain ⟨i, hi, rfl⟩ := mem_ops.1 ho
  exact hb (e ▸ getD_mem_lt (l := axes) hi)

theorem same_selected (h : SameCall g gp x ax axes) (hs : Selects b index x.shape) (hb : b ∉ axes) :
    poolSeq (padSeq (Spec.selected b index x) (sameOps g gp (Spec.selected b index x).shape axes)) (g.ops axes) =
      Spec.selected b index (poolSeq (padSeq x (sameOps g gp x.shape axes)) (g.ops axes)) := by
  have hne : ∀ o ∈ sameOps g gp x.shape axes, o.1 ≠ b := by
    intro o ho e
    obtain ⟨i, hi, rfl⟩ := sameOps_mem ho
    exact hb (e ▸ getD_mem_lt (l := axes) hi)
  have hpos : ∀ o ∈ sameOps g gp x.shape axes, ¬ (o.2.before = 0 ∧ o.2.after = 0) → 0 < x.shape.getD o.1 0 := by
    intro o ho _
    obtain ⟨i, hi, rfl⟩ := sameOps_mem ho
    exact h.pos _ (getD_mem_lt hi)
  have hsz : (padSeq x (sameOps g gp x.shape axes)).shape.getD b 0 = x.shape.getD b 0 := by
    rw [h.paddedShape.size b hs.axis, settingAt_none (by rw [sameOps_fst]; exact hb)]
  rw [selected_shape, sameOps_set hb, padSeq_selected hs h.opsOK (by rw [sameOps_fst]; exact h.nodup) h.lt hne hpos]
  refine (Fitting_selected ?_ h.poolOps.fitting (ops_axis_ne hb)).2
  exact hs.of_size (by have := padSeq_ndim (x := x) h.opsOK; simpa [ndim] using this) hsz

end

/-! ## maps -/

section
variable {α : Type} [Field α] {b : Nat} {index : List Nat}

theorem times_selected {x y : Tensor α} (hs : Selects b index x.shape) (h : y.shape = x.shape) :
    times (selected b index x) (selected b index y) = selected b index (times x y) := by
  apply ext_get (show (times (selected b index x) (selected b index y)).shape = (selected b index (times x y)).shape from rfl)
  intro ix hix
  have hix' : InB (x.shape.set b index.length) ix := hix
  rw [selected_get (x := times x y) hix', times, times, get_ofFn (show InB (selected b index x).shape ix from hix'), selected_get hix',
    selected_get (show InB (y.shape.set b index.length) ix by rw [h]; exact hix'), get_ofFn (hs.inB hix')]

/-- a map made of blurred images is selected with the images -/
theorem pointMap_selected {β : Tensor α → Tensor α} {y1 y2 : Tensor α} (F : α → α → α → α → α → α) (h12 : y2.shape = y1.shape)
    (hs : Selects b index y1.shape) (hs' : Selects b index (β y1).shape)
    (hsh : ∀ x, x.shape = y1.shape → (β x).shape = (β y1).shape)
    (hb : ∀ x, x.shape = y1.shape → β (selected b index x) = selected b index (β x)) :
    pointMap F β (selected b index y1) (selected b index y2) = selected b index (pointMap F β y1 y2) := by
  have e1 := hb y1 rfl
  have e2 := hb y2 h12
  have e3 := hb (times y1 y1) rfl
  have e4 := hb (times y2 y2) h12
  have e5 := hb (times y1 y2) rfl
  rw [pointMap, e1, e2, times_selected hs rfl, times_selected (by rw [h12]; exact hs) rfl, times_selected hs h12, e3, e4, e5]
  have e : (pointMap F β y1 y2).shape = (β y1).shape := rfl
  rw [selected_shape, show selected b index (pointMap F β y1 y2) = ofFn ((pointMap F β y1 y2).shape.set b index.length) _ from rfl, e]
  apply ofFn_congr
  intro ix hix'
  have s2 := hsh y2 h12
  have s3 := hsh (times y1 y1) rfl
  have s4 := hsh (times y2 y2) h12
  have s5 := hsh (times y1 y2) rfl
  rw [selected_get hix', selected_get (x := β y2) (by rw [s2]; exact hix'), selected_get (x := β (times y1 y1)) (by rw [s3]; exact hix'),
    selected_get (x := β (times y2 y2)) (by rw [s4]; exact hix'), selected_get (x := β (times y1 y2)) (by rw [s5]; exact hix'),
    pointMap, get_ofFn (hs'.inB hix')]

/-! ## reductions -/

theorem keptPos_lt {n b : Nat} {ds : List Nat} (hb : b < n) (hd : b ∉ ds) : keptPos n ds b < (keptAxes n ds).length :=
  List.idxOf_lt_length_of_mem (mem_keptAxes.2 ⟨hb, hd⟩)

theorem onKept_getD {ds ix : List Nat} {b : Nat} (hb : b < ix.length) (hd : b ∉ ds) :
    (onKept ds ix).getD (keptPos ix.length ds b) 0 = ix.getD b 0 := by
  have hlt := keptPos_lt hb hd
  have : (keptAxes ix.length ds)[keptPos ix.length ds b] = b := List.getElem_idxOf hlt
  rw [onKept, List.getD_eq_getElem?_getD, List.getElem?_map, List.getElem?_eq_getElem hlt, Option.map_some, Option.getD_some, this]

theorem onKept_set_kept {ds ix : List Nat} {b v : Nat} (hb : b < ix.length) (hd : b ∉ ds) :
    onKept ds (ix.set b v) = (onKept ds ix).set (keptPos ix.length ds b) v := by
  have hlt := keptPos_lt hb hd
  apply List.ext_getElem (by simp [onKept])
  intro k h1 h2
  have hk : k < (keptAxes ix.length ds).length := by simpa [onKept] using h1
  simp only [onKept, List.getElem_map, List.length_set, List.getElem_set]
  rw [getD_set _ _ _ _ _ hb]
  by_cases e : keptPos ix.length ds b = k
  · have : (keptAxes ix.length ds)[k] = b := by subst e; exact List.getElem_idxOf hlt
    rw [if_pos e, if_pos this]
  · have : (keptAxes ix.length ds)[k] ≠ b := by
      intro hh
      apply e
      rw [keptPos, ← hh]
      exact (keptAxes_nodup _ _).idxOf_getElem k hk
    rw [if_neg e, if_neg this]

/-- selecting positions of a kept axis: what is collected for a position of the selection -/
theorem collected_selected {s ds jx : List Nat} (hs : Selects b index s) (hd : b ∉ ds) (hjx : InB (onKept ds (s.set b index.length)) jx) :
    ((collected (s.set b index.length) ds jx).map fun ix => ix.set b (index.getD (ix.getD b 0) 0)).Perm
      (collected s ds (jx.set (keptPos s.length ds b) (index.getD (jx.getD (keptPos s.length ds b) 0) 0))) := by
  set k := keptPos s.length ds b with hk
  have hjl : jx.length = (keptAxes s.length ds).length := by rw [hjx.length_eq, onKept_length, List.length_set]
  have hkl : k < jx.length := by rw [hjl]; exact keptPos_lt hs.axis hd
  have hcoord : ∀ ix, InB (s.set b index.length) ix → onKept ds ix = jx → ix.getD b 0 = jx.getD k 0 := by
    intro ix h1 h2
    have hl : ix.length = s.length := by rw [h1.length_eq, List.length_set]
    rw [← h2, hk, ← hl, onKept_getD (by rw [hl]; exact hs.axis) hd]
  refine (List.perm_ext_iff_of_nodup ?_ ((indices_nodup s).filter _)).2 ?_
  · apply List.Nodup.map_on _ ((indices_nodup _).filter _)
    intro u hu v hv e
    obtain ⟨hu1, hu2⟩ := mem_collected.1 hu
    obtain ⟨hv1, hv2⟩ := mem_collected.1 hv
    have hc := (hcoord u hu1 hu2).trans (hcoord v hv1 hv2).symm
    have := congrArg (fun ix : List Nat => ix.set b (u.getD b 0)) e
    simp only [List.set_set, set_getD_self] at this
    rw [this, hc, set_getD_self]
  · intro ix
    rw [List.mem_map]
    constructor
    · rintro ⟨ux, hu, rfl⟩
      obtain ⟨h1, h2⟩ := mem_collected.1 hu
      have hl : ux.length = s.length := by rw [h1.length_eq, List.length_set]
      refine mem_collected.2 ⟨hs.inB h1, ?_⟩
      rw [onKept_set_kept (by rw [hl]; exact hs.axis) hd, h2, hcoord ux h1 h2, hl]
    · intro h
      obtain ⟨h1, h2⟩ := mem_collected.1 h
      have hl : ix.length = s.length := h1.length_eq
      have hjk : jx.getD k 0 < index.length := by
        have := hjx.lt (k := k) (by rw [← hjx.length_eq]; exact hkl)
        have e := onKept_getD (ds := ds) (ix := s.set b index.length) (b := b) (by rw [List.length_set]; exact hs.axis) hd
        rw [List.length_set, ← hk, getD_set_self _ _ _ _ hs.axis] at e
        rwa [e] at this
      have hin : InB (s.set b index.length) (ix.set b (jx.getD k 0)) := h1.set' hjk
      have hix : ix.getD b 0 = index.getD (jx.getD k 0) 0 := by
        rw [← onKept_getD (ds := ds) (ix := ix) (b := b) (by rw [hl]; exact hs.axis) hd, h2, hl, ← hk, getD_set_self _ _ _ _ hkl]
      refine ⟨ix.set b (jx.getD k 0), mem_collected.2 ⟨hin, ?_⟩, ?_⟩
      · rw [onKept_set_kept (by rw [hl]; exact hs.axis) hd, h2, hl, ← hk, List.set_set, set_getD_self]
      · rw [List.set_set, getD_set_self _ _ _ _ (by rw [hl]; exact hs.axis), ← hix, set_getD_self]

theorem selected_collected {x : Tensor α} {ds jx : List Nat} (hs : Selects b index x.shape) (hd : b ∉ ds)
    (hjx : InB (onKept ds (x.shape.set b index.length)) jx) :
    ((collected (x.shape.set b index.length) ds jx).map (selected b index x).get).Perm
      ((collected x.shape ds (jx.set (keptPos x.ndim ds b) (index.getD (jx.getD (keptPos x.ndim ds b) 0) 0))).map x.get) := by
  have e : (collected (x.shape.set b index.length) ds jx).map (selected b index x).get =
      ((collected (x.shape.set b index.length) ds jx).map fun ix => ix.set b (index.getD (ix.getD b 0) 0)).map x.get := by
    rw [List.map_map]
    apply List.map_congr_left
    intro ix hix
    exact selected_get (mem_collected.1 hix).1
  rw [e]
  exact (collected_selected hs hd hjx).map _

/-- reducing other axes commutes with the selection -/
theorem reduced_selected {x : Tensor α} {ds : List Nat} (f : List α → α) (hf : ∀ l l', l.Perm l' → f l = f l') (hs : Selects b index x.shape)
    (hd : b ∉ ds) :
    (ofFn (onKept ds (selected b index x).shape) fun jx => f ((collected (selected b index x).shape ds jx).map (selected b index x).get)) =
      selected (keptPos x.ndim ds b) index (ofFn (onKept ds x.shape) fun jx => f ((collected x.shape ds jx).map x.get)) := by
  have e : onKept ds (x.shape.set b index.length) = (onKept ds x.shape).set (keptPos x.ndim ds b) index.length := onKept_set_kept hs.axis hd
  have hk : keptPos x.ndim ds b < (onKept ds x.shape).length := by rw [onKept_length]; exact keptPos_lt hs.axis hd
  have hs' : Selects (keptPos x.ndim ds b) index (onKept ds x.shape) :=
    ⟨hk, by rw [show x.ndim = x.shape.length from rfl, onKept_getD hs.axis hd]; exact hs.lt⟩
  rw [selected_shape, e]
  conv_rhs => rw [selected]
  apply ofFn_congr
  intro jx hjx
  have hjx' : InB ((onKept ds x.shape).set (keptPos x.ndim ds b) index.length) jx := hjx
  rw [get_ofFn (hs'.inB hjx')]
  exact hf _ _ (selected_collected hs hd (by rw [e]; exact hjx'))

theorem meanOver_selected {x : Tensor α} {raxes : List Nat} (hs : Selects b index x.shape) (hd : b ∉ reducedAxes x.ndim raxes) :
    meanOver (selected b index x) raxes = selected (keptPos x.ndim (reducedAxes x.ndim raxes) b) index (meanOver x raxes) := by
  rw [meanOver, meanOver, selected_ndim]
  exact reduced_selected mean (fun _ _ h => mean_perm h) hs hd

theorem onesAt_set {axes s : List Nat} {m : Nat} (hb : b ∉ axes) : onesAt axes (s.set b m) = (onesAt axes s).set b m := by
  apply List.ext_getElem (by simp [onesAt])
  intro k h1 h2
  have hk : k < s.length := by simpa [onesAt] using h1
  simp only [onesAt, List.getElem_map, List.getElem_range, List.getElem_set]
  by_cases e : b = k
  · subst e
    rw [if_neg hb, if_pos rfl, getD_set_self _ _ _ _ hk]
  · rw [if_neg e, getD_set_ne _ _ _ _ _ (Ne.symm e)]

theorem onesAt_size {axes s : List Nat} {k : Nat} (hk : k < s.length) (hb : k ∉ axes) : (onesAt axes s).getD k 0 = s.getD k 0 := by
  rw [onesAt_getD hk, if_neg hb]

theorem onKept_onesAt (axes s : List Nat) : onKept axes (onesAt axes s) = onKept axes s := by
  rw [onKept, onKept, onesAt_length]
  apply List.map_congr_left
  intro k hk
  exact onesAt_size (mem_keptAxes.1 hk).1 (mem_keptAxes.1 hk).2

theorem meanKept_selected {x : Tensor α} {axes : List Nat} (hs : Selects b index x.shape) (hd : b ∉ axes) :
    meanKept (selected b index x) axes = selected b index (meanKept x axes) := by
  have hs' : Selects b index (onesAt axes x.shape) := hs.of_size (onesAt_length _ _) (onesAt_size hs.axis hd)
  rw [meanKept, selected_shape, onesAt_set hd, show selected b index (meanKept x axes) = ofFn ((onesAt axes x.shape).set b index.length) _ from rfl]
  apply ofFn_congr
  intro jx hjx
  have hjl : jx.length = x.shape.length := by rw [hjx.length_eq, List.length_set, onesAt_length]
  have hbl : b < jx.length := by rw [hjl]; exact hs.axis
  rw [meanKept, get_ofFn (hs'.inB hjx), onKept_set_kept hbl hd]
  have hin : InB (onKept axes (x.shape.set b index.length)) (onKept axes jx) := by
    have := onKept_inB (ds := axes) hjx
    rwa [← onesAt_set hd, onKept_onesAt] at this
  have := mean_perm (selected_collected hs hd hin)
  rw [this, show x.ndim = jx.length from hjl.symm, onKept_getD hbl hd]

end

/-! ## blurs -/

section
variable {α : Type} [Field α] [LinearOrder α] [IsStrictOrderedRing α] {b : Nat} {index : List Nat}
variable {g : Given (List α)} {gp : Option (PadArgs α)} {x y1 y2 : Tensor α} {ax : Axes} {axes : List Nat} {p : Option (Padder α)}

theorem Spec.BlurCall.selected (h : BlurCall g gp x ax axes p) (hs : Selects b index x.shape) (hb : b ∉ axes) :
    BlurCall g gp (selected b index x) ax axes p := by
  cases gp with
  | none => exact ⟨h.1, by rw [selected_ndim]; exact h.2.1, (Fitting_selected hs h.2.2 (ops_axis_ne hb)).1⟩
  | some gp => exact ⟨h.1, h.2.selected hb⟩

theorem blurred_selected (h : BlurCall g gp x ax axes p) (hs : Selects b index x.shape) (hb : b ∉ axes) :
    blurred g gp axes (Spec.selected b index x) = Spec.selected b index (blurred g gp axes x) := by
  cases gp with
  | none => exact (Fitting_selected hs h.2.2 (ops_axis_ne hb)).2
  | some gp => exact same_selected h.2 hs hb

theorem poolSeq_size_ne {b : Nat} : ∀ {ops : List (PoolOp α)} {x : Tensor α}, (∀ o ∈ ops, o.axis ≠ b) →
    (poolSeq x ops).shape.getD b 0 = x.shape.getD b 0
  | [], _, _ => rfl
  | o :: ops, x, h => by
    show (poolSeq (slide x o) ops).shape.getD b 0 = _
    rw [poolSeq_size_ne fun q hq => h q (by simp [hq]), slide_size_ne (Ne.symm (h o (by simp)))]

theorem blurred_ndim (h : BlurCall g gp x ax axes p) : (blurred g gp axes x).ndim = x.ndim := by
  cases gp with
  | none => exact poolSeq_ndim _ _
  | some gp => rw [blurred, filtered, poolSeq_ndim, padSeq_ndim h.2.opsOK]

theorem blurred_selects (h : BlurCall g gp x ax axes p) (hs : Selects b index x.shape) (hb : b ∉ axes) :
    Selects b index (blurred g gp axes x).shape := by
  refine hs.of_size (blurred_ndim h) ?_
  cases gp with
  | none => exact poolSeq_size_ne (ops_axis_ne hb)
  | some gp =>
    rw [blurred, filtered, poolSeq_size_ne (ops_axis_ne hb), h.2.paddedShape.size b hs.axis, settingAt_none (by rw [sameOps_fst]; exact hb)]

theorem pointMap_blur_selected (F : α → α → α → α → α → α) (h : BlurCall g gp y1 ax axes p) (h12 : y2.shape = y1.shape)
    (hs : Selects b index y1.shape) (hb : b ∉ axes) :
    pointMap F (blurred g gp axes) (Spec.selected b index y1) (Spec.selected b index y2) =
      Spec.selected b index (pointMap F (blurred g gp axes) y1 y2) := by
  apply pointMap_selected F h12 hs (blurred_selects h hs hb)
  · exact fun z hz => blurred_congr h hz
  · intro z hz
    have hz' : BlurCall g gp z ax axes p := by
      cases gp with
      | none => exact ⟨h.1, by rw [ndim, hz]; exact h.2.1, Fitting_congr hz.symm h.2.2⟩
      | some gp => exact ⟨h.1, h.2.congr hz⟩
    exact blurred_selected hz' (by rw [hz]; exact hs) hb

/-! ## levels -/

theorem halved_selected (hnd : axes.Nodup) (hlt : ∀ a ∈ axes, a < x.ndim) (hsz : ∀ a ∈ axes, 2 ≤ x.shape.getD a 0)
    (hs : Selects b index x.shape) (hb : b ∉ axes) : halved axes (Spec.selected b index x) = Spec.selected b index (halved axes x) :=
  (Fitting_selected hs (halver_poolOps (α := α) hnd hlt hsz).fitting (ops_axis_ne hb)).2

theorem halved_selects (hs : Selects b index x.shape) (hb : b ∉ axes) : Selects b index (halved axes x).shape :=
  hs.of_size (poolSeq_ndim _ _) (poolSeq_size_ne (ops_axis_ne (g := halver) hb))

theorem MsAt.selected {cr : Bool} {r : Nat} (h : MsAt g gp cr r x axes p) (hb : b ∉ axes) : MsAt g gp cr r (Spec.selected b index x) axes p where
  lt := by rw [selected_ndim]; exact h.lt
  ne := h.ne
  nodup := h.nodup
  fits := h.fits
  kernel := h.kernel
  large := by
    intro i hi
    rw [selected_size (by rintro rfl; exact hb (getD_mem_lt hi))]
    exact h.large i hi
  padder := h.padder

theorem atLevel_selected {cr : Bool} : ∀ (n : Nat) {r : Nat} {x : Tensor α}, MsAt g gp cr (r + n) x axes p → Selects b index x.shape → b ∉ axes →
    atLevel axes n (Spec.selected b index x) = Spec.selected b index (atLevel axes n x)
  | 0, _, _, _, _, _ => rfl
  | n + 1, r, x, h, hs, hb => by
    have h' : MsAt g gp cr (r + n + 1) x axes p := h
    rw [atLevel, atLevel, halved_selected h'.nodup h'.lt h'.two_le hs hb]
    exact atLevel_selected n h'.next (halved_selects hs hb) hb

theorem atLevel_selects : ∀ (n : Nat) {x : Tensor α}, Selects b index x.shape → b ∉ axes → Selects b index (atLevel axes n x).shape
  | 0, _, hs, _ => hs
  | n + 1, _, hs, hb => atLevel_selects n (halved_selects hs hb) hb

theorem levelScore_selected {cr : Bool} {r : Nat} {k1 k2 f : α} (h : MsAt g gp cr r y1 axes p) (h12 : y2.shape = y1.shape)
    (hs : Selects b index y1.shape) (hb : b ∉ axes) (last : Bool) :
    levelScore k1 k2 f (scoreBlur g gp cr axes) axes last (Spec.selected b index y1) (Spec.selected b index y2) =
      Spec.selected b index (levelScore k1 k2 f (scoreBlur g gp cr axes) axes last y1 y2) := by
  obtain ⟨gp', p', e, hc, -, -⟩ := h.scoreCall
  rw [e, levelScore, levelScore]
  have key : ∀ F : α → α → α → α → α → α,
      meanKept (pointMap F (blurred g gp' axes) (Spec.selected b index y1) (Spec.selected b index y2)) axes =
      Spec.selected b index (meanKept (pointMap F (blurred g gp' axes) y1 y2) axes) := by
    intro F
    rw [pointMap_blur_selected F hc h12 hs hb]
    exact meanKept_selected (show Selects b index (pointMap F (blurred g gp' axes) y1 y2).shape from blurred_selects hc hs hb) hb
  cases last with
  | true => exact key (ssimIndex (k1 ^ 2) (k2 ^ 2) f)
  | false => exact key (csIndex (k2 ^ 2) f)

theorem levelScore_shape {cr : Bool} {r : Nat} {k1 k2 f : α} (h : MsAt g gp cr r y1 axes p) (last : Bool) :
    (levelScore k1 k2 f (scoreBlur g gp cr axes) axes last y1 y2).shape = onesAt axes y1.shape := by
  obtain ⟨gp', p', e, hc, -, -⟩ := h.scoreCall
  have h1 : (levelScore k1 k2 f (scoreBlur g gp cr axes) axes last y1 y2).shape = onesAt axes (blurred g gp' axes y1).shape := by
    rw [e]
    cases last <;> rfl
  rw [h1]
  apply onesAt_congr (blurred_ndim hc)
  intro k hk hka
  have hk' : k < y1.ndim := by rw [← blurred_ndim hc]; exact hk
  cases gp' with
  | none => exact poolSeq_size_ne (ops_axis_ne hka)
  | some gp =>
    rw [blurred, filtered, poolSeq_size_ne (ops_axis_ne hka), hc.2.paddedShape.size k hk', settingAt_none (by rw [sameOps_fst]; exact hka)]

theorem atLevel_onesAt : ∀ (n : Nat) (x : Tensor α), onesAt axes (atLevel axes n x).shape = onesAt axes x.shape
  | 0, _ => rfl
  | n + 1, x => by
    rw [atLevel, atLevel_onesAt n]
    exact onesAt_congr (poolSeq_ndim _ _) fun k _ hk => poolSeq_size_ne (ops_axis_ne (g := halver) hk)

end

end TI
