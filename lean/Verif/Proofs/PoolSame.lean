import Verif.Proofs.PoolCall
import Verif.Proofs.PadLaws
import Verif.Proofs.SameWidth

/-!
# Pooling with a same padder
-/

set_option linter.unusedSectionVars false

namespace TI
open Tensor Spec

variable {α : Type}

/-- the padder holds the settings `gp`, whatever its widths are -/
structure Holds (p : Padder α) (gp : PadArgs α) : Prop where
  mode : p.mode = specOf [] .leaf gp.mode
  cv : p.constantValues = specOf [2] pyPair gp.cv
  ev : p.endValues = specOf [2] pyPair gp.ev
  sl : p.statLength = specOf [2] pyPair gp.sl

theorem holds_padder (gp : PadArgs α) (m : Nat) : Holds (gp.padder m) gp := ⟨rfl, rfl, rfl, rfl⟩

theorem holds_withWidths (gp : PadArgs α) (ws : List (Nat × Nat)) (m : Nat) : Holds ((gp.withWidths ws).padder m) gp :=
  ⟨rfl, rfl, rfl, rfl⟩

theorem ofIndex_shape {index : List Int} {d : Py α} {s : NdSpec α} (h : NdSpec.ofIndex index d = .ok s) :
    s.shape = (getRagged true s.data).2 := by
  simp only [NdSpec.ofIndex] at h
  split at h
  · cases h
  · cases h
  · cases h
    rw [getRagged_data]

theorem applyCore_shape {shapes : List (List Int)} {whole : Except Err (Py α)} {row : List Int → Except Err (Py α)} {s : NdSpec α}
    (h : NdSpec.applyCore shapes whole row = .ok s) : s.shape = (getRagged true s.data).2 := by
  simp only [NdSpec.applyCore] at h
  split at h
  · cases h
  · split at h
    · cases h
    · exact ofIndex_shape h
  · split at h
    · cases h
    · split at h
      · cases h
      · exact ofIndex_shape h

theorem samePaddingWidth_pair {k s n : Nat} (hs : 0 < s) :
    samePaddingWidth k (some (s : Int)) (some (n : Int)) =
      .ok (((PoolArgs.samePair k s n).1 : Int), ((PoolArgs.samePair k s n).2 : Int)) := by
  obtain ⟨t, h1, h2⟩ := samePaddingWidth_eq (k := k) (s := s) (n := n) hs
  have : PoolArgs.sameTotal k s n = t := by rw [PoolArgs.sameTotal]; omega
  rw [h1, PoolArgs.samePair, this]

/-- `to_same` replaces the widths and keeps everything else -/
theorem toSame_padder {p : Padder α} {gp : PadArgs α} {m : Nat} (hm : 0 < m) (hp : Holds p gp) (hf : gp.FitsRest m)
    {ks st ns : NdSpec (Option Int)} {gk gs gn : Given (Option Nat)}
    (hk : IsSpec ks PoolArgs.pyStride gk) (hs : IsSpec st PoolArgs.pyStride gs) (hn : IsSpec ns PoolArgs.pyStride gn)
    (fk : gk.Fits m) (fs : gs.Fits m) (fn : gn.Fits m) (hmany : gn.isMany = true)
    (K S N : Nat → Nat) (eK : ∀ i < m, gk.entry none i = some (K i)) (eS : ∀ i < m, gs.entry none i = some (S i))
    (eN : ∀ i < m, gn.entry none i = some (N i)) (hS : ∀ i < m, 0 < S i) :
    p.toSame ks st ns = ((gp.withWidths ((List.range m).map fun i => PoolArgs.samePair (K i) (S i) (N i))).padder m, .ok ()) := by
  obtain ⟨w, e, h⟩ := apply3_spec hk hs hn fk fs fn (func := Padder.sameItem) (f' := PadArgs.pyWidth) none none none
    (fun i => PoolArgs.samePair (K i) (S i) (N i)) (by
      intro i hi
      have hi' : i < m := hi (by simp [hmany])
      rw [eK i hi', eS i hi', eN i hi']
      simp only [PoolArgs.pyStride, Option.map_some, Padder.sameItem, samePaddingWidth_pair (hS i hi'), bind, Except.bind]
      rfl)
  simp only [hmany, Bool.or_true, if_true] at h
  have hw : w = specOf [2] PadArgs.pyWidth (.many ((List.range m).map fun i => PoolArgs.samePair (K i) (S i) (N i))) := by
    obtain ⟨h1, h2, _⟩ := h
    have h3 := applyCore_shape e
    rw [h1] at h3
    obtain ⟨c, hc⟩ : ∃ c, (List.range m).map (fun i => PoolArgs.samePair (K i) (S i) (N i)) = c := ⟨_, rfl⟩
    have hne : c ≠ [] := by
      rw [← hc]
      intro h0
      have := congrArg List.length h0
      simp at this
      omega
    rw [hc] at h1 h3 ⊢
    rw [getRagged_uniform (s := [2]) (by simpa using hne)] at h3
    · obtain ⟨d, s, i⟩ := w
      simp only at h1 h2 h3
      subst h1 h2 h3
      simp [specOf]
    · intro a ha
      obtain ⟨b, _, rfl⟩ := List.mem_map.1 ha
      rw [PadArgs.pyWidth, getRagged_pair]
  obtain ⟨f1, f2, f3, f4⟩ := hf
  have hal : Padder.alignParams w p.mode p.constantValues p.endValues p.statLength = .ok (m : Int) := by
    rw [hp.mode, hp.cv, hp.ev, hp.sl, hw]
    have fw : (Given.many ((List.range m).map fun i => PoolArgs.samePair (K i) (S i) (N i))).Fits m := by simp [Given.Fits]
    rw [Padder.alignParams, aggIndexLen_two (m := (m : Int)) (by simp)]
    · rw [indexShape_specOf _ _ _ fw]
      simp [Given.isMany]
    · intro s hs
      simp only [List.mem_cons, List.not_mem_nil, or_false] at hs
      rcases hs with rfl | rfl | rfl | rfl | rfl
      · rw [indexShape_specOf _ _ _ fw]; split_ifs <;> simp
      · rw [indexShape_specOf _ _ _ f1]; split_ifs <;> simp
      · rw [indexShape_specOf _ _ _ f2]; split_ifs <;> simp
      · rw [indexShape_specOf _ _ _ f3]; split_ifs <;> simp
      · rw [indexShape_specOf _ _ _ f4]; split_ifs <;> simp
  simp only [Padder.toSame, e, hal]
  rw [hw]
  obtain ⟨pw, mo, cv, ev, sl, nd⟩ := p
  obtain ⟨h1, h2, h3, h4⟩ := hp
  simp only at h1 h2 h3 h4
  subst h1 h2 h3 h4
  simp only [PadArgs.padder, PadArgs.withWidths, PadArgs.isMany, Given.isMany, Bool.true_or, if_true]

variable [Field α] [LinearOrder α] [IsStrictOrderedRing α]
variable {pool : SepPool α} {g : PoolArgs α} {m : Nat}

theorem normAxes_castV {n : Nat} : ∀ {axes : List Nat}, (∀ k ∈ axes, k < n) → normAxes n (castV axes) = some axes
  | [], _ => rfl
  | a :: axes, h => by
    have ha := h a (by simp)
    have ih := normAxes_castV (n := n) (axes := axes) (fun k hk => h k (by simp [hk]))
    have e : normAxis n (a : Int) = some a := by
      rw [normAxis, if_pos (by omega), if_neg (by omega)]
      simp
    rw [castV] at ih ⊢
    rw [List.map_cons, normAxes, e, ih]

theorem ofItem_sizes {l : List Nat} (hne : l ≠ []) :
    ∃ s, NdSpec.ofItem [] (.seq (l.map fun (n : Nat) => Py.leaf (some (n : Int)))) = .ok s ∧
      IsSpec s PoolArgs.pyStride (.many (l.map some)) := by
  obtain ⟨s, h1, h2⟩ := ofItem_strides (g := .many (l.map some)) (m := l.length) (List.length_pos_iff.2 hne) (by simp [Given.Fits])
  refine ⟨s, ?_, h2⟩
  rw [← h1, Given.toPy, List.map_map]
  rfl

theorem sequence_sizes {x : Tensor α} {axes : List Nat} (h : ∀ k ∈ axes, k < x.ndim) :
    NdSpec.sequence ((castV axes).map fun a => pyIndex x.shape a) = .ok (axes.map fun a => x.shape.getD a 0) := by
  rw [castV, List.map_map]
  apply sequence_map
  intro a ha
  have : a < x.shape.length := h a ha
  simp only [Function.comp, pyIndex_nat this]
  simp [this]

/-- what is assumed of a padded pooling call: distinct existing non-empty axes, settings for every axis, positive strides -/
structure Spec.SameReq (g : PoolArgs α) (gp : PadArgs α) (x : Tensor α) (ax : Axes) (axes : List Nat) : Prop where
  axes_eq : axesOf x.ndim ax = some axes
  ne : axes ≠ []
  nodup : axes.Nodup
  fits : g.isMany = true → g.Fits axes.length
  rest : gp.FitsRest axes.length
  stride : ∀ i < axes.length, 0 < (g.op axes i).stride
  pos : ∀ a ∈ axes, 0 < x.shape.getD a 0

/-- moreover on the axes that are widened the mode defines values -/
structure Spec.SameCall (g : PoolArgs α) (gp : PadArgs α) (x : Tensor α) (ax : Axes) (axes : List Nat) : Prop extends
    SameReq g gp x ax axes where
  valued : ∀ o ∈ sameOps g gp x.shape axes, ¬ (o.2.before = 0 ∧ o.2.after = 0) → o.2.rule? ≠ none ∧ o.2.mode ≠ .zeros

theorem fits_of_not_many {g : PoolArgs α} (h : g.isMany = false) (m : Nat) : g.Fits m := by
  obtain ⟨k, s⟩ := g
  simp only [PoolArgs.isMany, Bool.or_eq_false_iff] at h
  obtain ⟨h1, h2⟩ := h
  cases k <;> cases s <;> simp [Given.isMany] at h1 h2
  exact ⟨trivial, trivial⟩

theorem Spec.SameReq.ndim_ne {gp : PadArgs α} {x : Tensor α} {ax : Axes} {axes : List Nat} (h : SameReq g gp x ax axes) : x.ndim ≠ 0 := by
  obtain ⟨_, hlt⟩ := checkAxes_spec h.axes_eq
  obtain ⟨a, ha⟩ := List.exists_mem_of_ne_nil _ h.ne
  have := hlt a ha
  omega

theorem zipRight_eq {axes : List Nat} {ss : List (AxisPad α)} (h : ss.length = axes.length) : zipRight axes ss = axes.zip ss := by
  simp [zipRight, h]

/-- `pad` pads with the widths set by `to_same` -/
theorem PoolIs.pad_req (h : PoolIs pool g m) {gp : PadArgs α} {x : Tensor α} {ax : Axes} {axes : List Nat}
    (hc : SameReq g gp x ax axes) (hm : g.isMany = true → axes.length = m) {p : Padder α} (hp : Holds p gp) (junk : List Nat → α) :
    SepPool.pad pool (some p) junk x (.seq (castV axes)) =
      (some ((gp.withWidths (g.widths x.shape axes)).padder axes.length), ((gp.withWidths (g.widths x.shape axes)).padder axes.length).forward junk x (.seq (castV axes))) := by
  obtain ⟨_, hlt⟩ := checkAxes_spec hc.axes_eq
  have hpos : 0 < axes.length := List.length_pos_iff.2 hc.ne
  simp only [SepPool.pad, checkAxes_castV hlt, sequence_sizes hlt]
  obtain ⟨ns, e1, h1⟩ := ofItem_sizes (l := axes.map fun a => x.shape.getD a 0) (by simpa using hc.ne)
  simp only [e1]
  have hfit : g.Fits axes.length := by
    cases hh : g.isMany with
    | true => exact hc.fits hh
    | false => exact fits_of_not_many hh _
  obtain ⟨gs, q1, q2, q3, q4⟩ := h.stride
  have q2' : gs.Fits axes.length := by
    cases gs with
    | one b => trivial
    | many l => rw [hm (q3 rfl)]; exact q2
  have hts := toSame_padder (m := axes.length) (gs := gs) hpos hp hc.rest h.size q1 h1 (given_fits_map _ hfit.1) q2'
    (by simp [Given.Fits]) rfl (fun i => (g.op axes i).kernel.length) (fun i => (g.op axes i).stride)
    (fun i => x.shape.getD (axes.getD i 0) 0)
    (by
      intro i hi
      have := given_entry_map (fun k : List α => some k.length) g.kernel [] i
      cases hk : g.kernel with
      | one k => simp [Given.map, Given.entry, PoolArgs.op, hk]
      | many l =>
        have hl : l.length = axes.length := by have := hfit.1; rw [hk] at this; exact this
        have hi' : i < l.length := by omega
        simp [Given.map, Given.entry, PoolArgs.op, hk, hi'])
    (by
      intro i hi
      exact q4 i (fun hh => by rw [← hm hh]; exact hi) axes)
    (by
      intro i hi
      simp [Given.entry, hi])
    hc.stride
  rw [hts]
  simp only
  refine Prod.ext rfl ?_
  simp only
  have hw : (List.range axes.length).map (fun i => PoolArgs.samePair (g.op axes i).kernel.length (g.op axes i).stride
      (x.shape.getD (axes.getD i 0) 0)) = g.widths x.shape axes := rfl
  rw [hw]

theorem sameOps_zipRight (g : PoolArgs α) (gp : PadArgs α) (shape axes : List Nat) :
    zipRight axes ((gp.withWidths (g.widths shape axes)).settings axes.length axes.length) = sameOps g gp shape axes := by
  have hset : (gp.withWidths (g.widths shape axes)).settings axes.length axes.length =
      (List.range axes.length).map (gp.withWidths (g.widths shape axes)).entry := by
    simp [PadArgs.settings, PadArgs.isMany, PadArgs.withWidths, Given.isMany]
  rw [hset, zipRight_eq (by simp), sameOps]

theorem withWidths_fits {gp : PadArgs α} {shape axes : List Nat} (h : gp.FitsRest axes.length) :
    (gp.withWidths (g.widths shape axes)).Fits axes.length :=
  ⟨by simp [PadArgs.withWidths, PoolArgs.widths, Given.Fits], h.1, h.2.1, h.2.2.1, h.2.2.2⟩

/-- the padded call of `pad` -/
theorem PoolIs.pad_same (h : PoolIs pool g m) {gp : PadArgs α} {x : Tensor α} {ax : Axes} {axes : List Nat}
    (hc : SameCall g gp x ax axes) (hm : g.isMany = true → axes.length = m) {p : Padder α} (hp : Holds p gp) (junk : List Nat → α) :
    SepPool.pad pool (some p) junk x (.seq (castV axes)) =
      (some ((gp.withWidths (g.widths x.shape axes)).padder axes.length), .ok (padSeq x (sameOps g gp x.shape axes))) := by
  obtain ⟨_, hlt⟩ := checkAxes_spec hc.axes_eq
  have hcall := call_args (g := gp.withWidths (g.widths x.shape axes)) (m := axes.length) (List.length_pos_iff.2 hc.ne) (withWidths_fits hc.rest)
    (x := x) hc.ndim_ne (ax := .seq (castV axes)) (axes := axes) (normAxes_castV hlt) hc.nodup (by
      rw [sameOps_zipRight]
      intro o ho hw
      have := hc.valued o ho hw
      exact ⟨this.1, this.2, hc.pos o.1 (List.of_mem_zip (show (o.1, o.2) ∈ axes.zip _ from ho)).1⟩)
  rw [h.pad_req hc.toSameReq hm hp junk, forward_call hcall junk, sameOps_zipRight]

/-! ### the windows fit -/

theorem sameTotal_fits {k s n : Nat} (hs : 0 < s) (hn : 0 < n) : k ≤ n + PoolArgs.sameTotal k s n := by
  obtain ⟨c1, c2, c3⟩ := ceilDiv_bounds hs hn
  rw [PoolArgs.sameTotal]
  obtain ⟨c, hc⟩ : ∃ c, ceilDiv n s = c + 1 := ⟨ceilDiv n s - 1, by omega⟩
  rw [hc] at c2 c3 ⊢
  simp only [Nat.add_sub_cancel] at c2 c3
  push_cast
  have : ((c : Int) + 1) * s - s + k - n = ((c * s : Nat) : Int) + k - n := by push_cast; ring
  rw [this]
  generalize c * s = q at *
  omega

theorem sameOps_length (g : PoolArgs α) (gp : PadArgs α) (shape axes : List Nat) : (sameOps g gp shape axes).length = axes.length := by
  simp [sameOps]

theorem sameOps_fst (g : PoolArgs α) (gp : PadArgs α) (shape axes : List Nat) : (sameOps g gp shape axes).map Prod.fst = axes := by
  rw [sameOps, List.map_fst_zip (by simp)]

/-- the setting of the `i`-th axis -/
def sameSetting (g : PoolArgs α) (gp : PadArgs α) (shape axes : List Nat) (i : Nat) : AxisPad α where
  before := (PoolArgs.samePair (g.op axes i).kernel.length (g.op axes i).stride (shape.getD (axes.getD i 0) 0)).1
  after := (PoolArgs.samePair (g.op axes i).kernel.length (g.op axes i).stride (shape.getD (axes.getD i 0) 0)).2
  mode := gp.mode.entry .unknown i
  cv := gp.cv.entry (0, 0) i
  ev := gp.ev.entry (0, 0) i
  sl := gp.sl.entry (none, none) i

theorem withWidths_entry (g : PoolArgs α) (gp : PadArgs α) (shape axes : List Nat) {i : Nat} (hi : i < axes.length) :
    (gp.withWidths (g.widths shape axes)).entry i = sameSetting g gp shape axes i := by
  simp [PadArgs.entry, PadArgs.withWidths, Given.entry, PoolArgs.widths, hi, sameSetting]

theorem sameOps_mem {g : PoolArgs α} {gp : PadArgs α} {shape axes : List Nat} {o : Nat × AxisPad α}
    (h : o ∈ sameOps g gp shape axes) : ∃ i < axes.length, o = (axes.getD i 0, sameSetting g gp shape axes i) := by
  rw [sameOps] at h
  obtain ⟨i, hi, rfl⟩ := List.mem_iff_getElem.1 h
  have hi' : i < axes.length := by simpa using hi
  refine ⟨i, hi', ?_⟩
  rw [List.getElem_zip, List.getElem_map, List.getElem_range, withWidths_entry _ _ _ _ hi']
  simp [hi']

theorem mem_sameOps {g : PoolArgs α} {gp : PadArgs α} {shape axes : List Nat} {i : Nat} (hi : i < axes.length) :
    (axes.getD i 0, sameSetting g gp shape axes i) ∈ sameOps g gp shape axes := by
  rw [sameOps, List.mem_iff_getElem]
  refine ⟨i, by simpa using hi, ?_⟩
  rw [List.getElem_zip, List.getElem_map, List.getElem_range, withWidths_entry _ _ _ _ hi]
  simp [hi]

theorem Spec.SameCall.opsOK {gp : PadArgs α} {x : Tensor α} {ax : Axes} {axes : List Nat} (h : SameCall g gp x ax axes) :
    OpsOK (sameOps g gp x.shape axes) := fun o ho hw => (h.valued o ho hw).1

theorem Spec.SameReq.lt {gp : PadArgs α} {x : Tensor α} {ax : Axes} {axes : List Nat} (h : SameReq g gp x ax axes) :
    ∀ o ∈ sameOps g gp x.shape axes, o.1 < x.ndim := by
  obtain ⟨_, hlt⟩ := checkAxes_spec h.axes_eq
  intro o ho
  exact hlt o.1 (List.of_mem_zip (show (o.1, o.2) ∈ axes.zip _ from ho)).1

theorem sameSetting_total_ge (g : PoolArgs α) (gp : PadArgs α) (shape axes : List Nat) (i n : Nat) :
    (sameSetting g gp shape axes i).after ≤ (sameSetting g gp shape axes i).total n := by
  rw [AxisPad.total]
  split_ifs with h h'
  · rw [h.2]
  · omega
  · omega

/-- `y` has the shape of `x` padded by `ops` -/
structure PaddedShape (ops : List (Nat × AxisPad α)) (x y : Tensor α) : Prop where
  ndim : y.ndim = x.ndim
  size : ∀ k < x.ndim, y.shape.getD k 0 = match settingAt ops k with
    | some s => s.before + x.shape.getD k 0 + s.total (x.shape.getD k 0)
    | none => x.shape.getD k 0

theorem Spec.SameCall.paddedShape {gp : PadArgs α} {x : Tensor α} {ax : Axes} {axes : List Nat} (h : SameCall g gp x ax axes) :
    PaddedShape (sameOps g gp x.shape axes) x (padSeq x (sameOps g gp x.shape axes)) where
  ndim := padSeq_ndim h.opsOK x
  size := fun k _ => padSeq_shape h.opsOK (by rw [sameOps_fst]; exact h.nodup) x h.lt k

theorem Spec.SameReq.padded_of {gp : PadArgs α} {x y : Tensor α} {ax : Axes} {axes : List Nat} (h : SameReq g gp x ax axes)
    (hy : PaddedShape (sameOps g gp x.shape axes) x y) {i : Nat} (hi : i < axes.length) : y.shape.getD (axes.getD i 0) 0 =
      (sameSetting g gp x.shape axes i).before + x.shape.getD (axes.getD i 0) 0 +
        (sameSetting g gp x.shape axes i).total (x.shape.getD (axes.getD i 0) 0) := by
  have hnd : ((sameOps g gp x.shape axes).map Prod.fst).Nodup := by rw [sameOps_fst]; exact h.nodup
  rw [hy.size _ (h.lt _ (mem_sameOps hi))]
  have := settingAt_some hnd (mem_sameOps (g := g) (gp := gp) (shape := x.shape) hi)
  simp only at this
  rw [this]

/-- size of a padded axis -/
theorem Spec.SameCall.padded {gp : PadArgs α} {x : Tensor α} {ax : Axes} {axes : List Nat} (h : SameCall g gp x ax axes) {i : Nat}
    (hi : i < axes.length) : (padSeq x (sameOps g gp x.shape axes)).shape.getD (axes.getD i 0) 0 =
      (sameSetting g gp x.shape axes i).before + x.shape.getD (axes.getD i 0) 0 +
        (sameSetting g gp x.shape axes i).total (x.shape.getD (axes.getD i 0) 0) := h.padded_of h.paddedShape hi

theorem Spec.SameReq.ops_nodup {gp : PadArgs α} {x : Tensor α} {ax : Axes} {axes : List Nat} (h : SameReq g gp x ax axes) :
    ((g.ops axes).map (·.axis)).Nodup := by
  have : (g.ops axes).map (·.axis) = axes := by
    rw [PoolArgs.ops, List.map_map]
    apply List.ext_getElem (by simp)
    intro i h1 h2
    simp [PoolArgs.op, h2]
  rw [this]
  exact h.nodup

theorem Spec.SameReq.poolOps_of {gp : PadArgs α} {x y : Tensor α} {ax : Axes} {axes : List Nat} (h : SameReq g gp x ax axes)
    (hy : PaddedShape (sameOps g gp x.shape axes) x y) : PoolOps y (g.ops axes) where
  nodup := h.ops_nodup
  axis := by
    intro o ho _
    obtain ⟨i, hi, rfl⟩ := List.mem_map.1 ho
    rw [List.mem_range] at hi
    rw [hy.ndim]
    exact h.lt _ (mem_sameOps hi)
  stride := by
    intro o ho _
    obtain ⟨i, hi, rfl⟩ := List.mem_map.1 ho
    exact h.stride i (List.mem_range.1 hi)
  fits := by
    intro o ho _
    obtain ⟨i, hi, rfl⟩ := List.mem_map.1 ho
    rw [List.mem_range] at hi
    change _ ≤ y.shape.getD (axes.getD i 0) 0
    rw [h.padded_of hy hi]
    have h1 := sameTotal_fits (k := (g.op axes i).kernel.length) (h.stride i hi)
      (h.pos (axes.getD i 0) (by simp [hi]))
    have h2 := sameSetting_total_ge g gp x.shape axes i (x.shape.getD (axes.getD i 0) 0)
    simp only [sameSetting, PoolArgs.samePair] at h2 ⊢
    generalize AxisPad.total _ _ = T at *
    omega

theorem Spec.SameCall.poolOps {gp : PadArgs α} {x : Tensor α} {ax : Axes} {axes : List Nat} (h : SameCall g gp x ax axes) :
    PoolOps (padSeq x (sameOps g gp x.shape axes)) (g.ops axes) := h.poolOps_of h.paddedShape

/-- the padded call of `forward`, given the outcome of the padding -/
theorem PoolIs.forward_req (h : PoolIs pool g m) {gp : PadArgs α} {x y : Tensor α} {ax : Axes} {axes : List Nat}
    (hc : SameReq g gp x ax axes) (hm : g.isMany = true → axes.length = m) {p : Padder α} (hp : Holds p gp) (junk : List Nat → α)
    (hy : ((gp.withWidths (g.widths x.shape axes)).padder axes.length).forward junk x (.seq (castV axes)) = .ok y)
    (hs : PaddedShape (sameOps g gp x.shape axes) x y) :
    SepPool.forward pool (some p) junk x ax =
      (some ((gp.withWidths (g.widths x.shape axes)).padder axes.length), .ok (poolSeq y (g.ops axes))) := by
  obtain ⟨hca, _⟩ := checkAxes_spec hc.axes_eq
  have hnd : pool.ndim = 0 ∨ pool.ndim = ((castV axes).length : Int) := by
    rw [h.ndim]
    split_ifs with hh
    · right; simp [castV, hm hh]
    · left; rfl
  simp only [SepPool.forward, hca, if_pos hnd, h.pad_req hc hm hp junk, hy]
  rw [h.loop_all (fun hh => by rw [hm hh]) (hc.poolOps_of hs).fitting]

/-- the padded call of `forward` -/
theorem PoolIs.forward_same (h : PoolIs pool g m) {gp : PadArgs α} {x : Tensor α} {ax : Axes} {axes : List Nat}
    (hc : SameCall g gp x ax axes) (hm : g.isMany = true → axes.length = m) {p : Padder α} (hp : Holds p gp) (junk : List Nat → α) :
    SepPool.forward pool (some p) junk x ax =
      (some ((gp.withWidths (g.widths x.shape axes)).padder axes.length),
        .ok (poolSeq (padSeq x (sameOps g gp x.shape axes)) (g.ops axes))) := by
  obtain ⟨hca, _⟩ := checkAxes_spec hc.axes_eq
  have hnd : pool.ndim = 0 ∨ pool.ndim = ((castV axes).length : Int) := by
    rw [h.ndim]
    split_ifs with hh
    · right; simp [castV, hm hh]
    · left; rfl
  simp only [SepPool.forward, hca, if_pos hnd, h.pad_same hc hm hp junk]
  rw [h.loop_all (fun hh => by rw [hm hh]) hc.poolOps.fitting]

end TI
