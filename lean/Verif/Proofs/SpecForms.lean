import Verif.Spec.Given
import Verif.Proofs.PadCall

/-!
# `NdSpec` on the common ways to write a specification
-/

namespace TI
open Spec

variable {α β : Type}

/-! ### uniform lists -/

theorem getRaggedList_eq (strict : Bool) (l : List (Py α)) :
    getRaggedList strict l = l.map (getRagged strict) := by
  induction l with
  | nil => simp [getRaggedList]
  | cons a l ih => simp [getRaggedList, ih]

theorem commonLen_const {l : List Int} {a : Int} (hne : l ≠ []) (h : ∀ b ∈ l, b = a) : commonLen l = a := by
  cases l with
  | nil => exact absurd rfl hne
  | cons b l =>
    have hb := h b (by simp)
    subst hb
    rw [commonLen, if_pos]
    rw [List.all_eq_true]
    intro c hc
    simp [h c (by simp [hc])]

theorem levelShapes_const {shapes : List (List Int)} {s : List Int} (hne : shapes ≠ [])
    (h : ∀ t ∈ shapes, t = s) : levelShapes s.length shapes = s := by
  apply List.ext_getElem (by simp [levelShapes])
  intro i h1 h2
  simp only [levelShapes, List.getElem_map, List.getElem_range]
  rw [commonLen_const (a := s[i]) (by simpa using hne)]
  intro b hb
  obtain ⟨t, ht, rfl⟩ := List.mem_map.1 hb
  rw [h t ht]
  simp [h2]

theorem sameLength_const {shapes : List (List Int)} {s : List Int} (h : ∀ t ∈ shapes, t = s) :
    sameLength shapes = true := by
  cases shapes with
  | nil => rfl
  | cons t l =>
    rw [sameLength, List.all_eq_true]
    intro u hu
    simp [h t (by simp), h u (by simp [hu])]

theorem getRagged_uniform {l : List (Py α)} {s : List Int} (hne : l ≠ [])
    (h : ∀ a ∈ l, (getRagged true a).2 = s) :
    getRagged true (.seq l) = (.seq l, (l.length : Int) :: s) := by
  cases l with
  | nil => exact absurd rfl hne
  | cons b bs =>
    have hs : ∀ t ∈ ((b :: bs).map (getRagged true)).map Prod.snd, t = s := by
      intro t ht
      simp only [List.map_map, List.mem_map, Function.comp] at ht
      obtain ⟨a, ha, rfl⟩ := ht
      exact h a ha
    have hh : (((b :: bs).map (getRagged true)).map Prod.snd).headD [] = s := by
      simp [h b (by simp)]
    rw [getRagged]
    simp only [getRaggedList_eq, sameLength_const hs, if_true, hh]
    rw [levelShapes_const (by simp) hs]
    simp

theorem recExpandList_same {ts : List Int} {l : List (Py α)} {s : List Int}
    (h : ∀ a ∈ l, recExpand ts a = .ok (a, s, false)) :
    recExpandList ts l = .ok (l.map fun a => (a, s, false)) := by
  induction l with
  | nil => simp [recExpandList]
  | cons a l ih =>
    rw [recExpandList, h a (by simp), ih (fun b hb => h b (by simp [hb]))]
    rfl

theorem recExpand_uniform {t : Int} {ts : List Int} {l : List (Py α)} {s : List Int} (hne : l ≠ [])
    (h : ∀ a ∈ l, recExpand ts a = .ok (a, s, false)) (ht : t = -1 ∨ t = l.length) :
    recExpand (t :: ts) (.seq l) = .ok (.seq l, (l.length : Int) :: s, false) := by
  cases l with
  | nil => exact absurd rfl hne
  | cons b bs =>
    have hs : ∀ t ∈ ((b :: bs).map fun a => (a, s, false)).map (fun r : Py α × List Int × Bool => r.2.1), t = s := by
      intro t ht
      simp only [List.map_map, List.mem_map, Function.comp] at ht
      obtain ⟨a, _, rfl⟩ := ht
      rfl
    have hm : ((b :: bs).map fun a => ((a, s, false) : Py α × List Int × Bool)).any (fun r => r.2.2) = false := by
      simp
    have hh : (((b :: bs).map fun a => ((a, s, false) : Py α × List Int × Bool)).map
        (fun r : Py α × List Int × Bool => r.2.1)).headD [] = s := by simp
    rw [recExpand, recExpandList_same h]
    simp only [sameLength_const hs, if_true, hh, hm]
    rw [levelShapes_const (by simp) hs, if_pos (by simpa using ht)]
    simp

theorem recApplyList_eq {f : Py α → Except Err (Py β)} {g : Py α → Py β} {l : List (Py α)}
    (h : ∀ a ∈ l, f a = .ok (g a)) : recApplyList f 0 l = .ok (l.map g) := by
  induction l with
  | nil => simp [recApplyList]
  | cons a l ih =>
    rw [recApplyList, recApply, h a (by simp), ih (fun b hb => h b (by simp [hb]))]
    rfl

theorem recApplyList_error {f : Py α → Except Err (Py β)} {l l' : List (Py α)} {a : Py α} {e : Err}
    {g : Py α → Py β} (h : ∀ a ∈ l, f a = .ok (g a)) (ha : f a = .error e) :
    recApplyList f 0 (l ++ a :: l') = .error e := by
  induction l with
  | nil => rw [List.nil_append, recApplyList, recApply, ha]
  | cons b l ih =>
    rw [List.cons_append, recApplyList, recApply, h b (by simp), ih (fun b hb => h b (by simp [hb]))]

/-! ### items that are pairs -/

/-- the item shape inferred for a pair -/
theorem getRagged_pair (a b : α) : getRagged true (.seq [.leaf a, .leaf b]) =
    (.seq [.leaf a, .leaf b], [2]) := by
  rw [getRagged_uniform (s := []) (by simp)]
  · rfl
  · intro c hc
    rcases List.mem_pair.1 hc with rfl | rfl <;> rw [getRagged]

theorem recExpand_pair (a b : α) : recExpand [2] (.seq [.leaf a, .leaf b]) =
    .ok (.seq [.leaf a, .leaf b], [2], false) := by
  rw [recExpand_uniform (t := 2) (ts := []) (l := [.leaf a, .leaf b]) (s := []) (by simp) _ (Or.inr rfl)]
  · rfl
  · intro c hc
    rcases List.mem_pair.1 hc with rfl | rfl <;> rw [recExpand]

theorem ofItem_leaf2 (c : α) : NdSpec.ofItem [2] (.leaf c) = .ok ⟨.seq [.leaf c, .leaf c], [2], 0⟩ := by
  simp [NdSpec.ofItem, getRagged, expandRagged, zeroLengthBad, recExpand, wrapLeading]

theorem ofItem_pair (a b : α) : NdSpec.ofItem [2] (.seq [.leaf a, .leaf b]) =
    .ok ⟨.seq [.leaf a, .leaf b], [2], 0⟩ := by
  simp [NdSpec.ofItem, getRagged_pair, expandRagged]

/-- `f` turns values into pairs -/
def Pairing (f : β → Py α) : Prop := ∀ b, ∃ u v, f b = .seq [.leaf u, .leaf v]

theorem ofItem_pairs {f : β → Py α} (hf : Pairing f) {l : List β} (hne : l ≠ []) :
    NdSpec.ofItem [2] (.seq (l.map f)) = .ok ⟨.seq (l.map f), [(l.length : Int), 2], 1⟩ := by
  have hg : getRagged true (.seq (l.map f)) = (.seq (l.map f), [(l.length : Int), 2]) := by
    rw [getRagged_uniform (s := [2]) (by simpa using hne)]
    · simp
    · intro a ha
      obtain ⟨b, _, rfl⟩ := List.mem_map.1 ha
      obtain ⟨u, v, h⟩ := hf b
      rw [h, getRagged_pair]
  have hr : recExpand [-1, 2] (.seq (l.map f)) = .ok (.seq (l.map f), [(l.length : Int), 2], false) := by
    rw [recExpand_uniform (s := [2]) (by simpa using hne) _ (Or.inl rfl)]
    · simp
    · intro a ha
      obtain ⟨b, _, rfl⟩ := List.mem_map.1 ha
      obtain ⟨u, v, h⟩ := hf b
      rw [h, recExpand_pair]
  simp [NdSpec.ofItem, hg, expandRagged, zeroLengthBad, hr]

/-- an empty list is rejected where pairs are expected -/
theorem ofItem_nil : NdSpec.ofItem [2] (.seq ([] : List (Py α))) = .error .value := by
  simp [NdSpec.ofItem, getRagged, expandRagged, zeroLengthBad]

theorem getRagged_leaves {f : β → Py α} (hf : ∀ b, ∃ u, f b = .leaf u) {l : List β} (hne : l ≠ []) :
    getRagged true (.seq (l.map f)) = (.seq (l.map f), [(l.length : Int)]) := by
  rw [getRagged_uniform (s := []) (by simpa using hne)]
  · simp
  · intro a ha
    obtain ⟨b, _, rfl⟩ := List.mem_map.1 ha
    obtain ⟨u, h⟩ := hf b
    rw [h, getRagged]

theorem ofItem_leaf0 (c : α) : NdSpec.ofItem [] (.leaf c) = .ok ⟨.leaf c, [], 0⟩ := by
  simp [NdSpec.ofItem, getRagged, expandRagged]

theorem ofItem_leaves {l : List α} (hne : l ≠ []) :
    NdSpec.ofItem [] (.seq (l.map .leaf)) = .ok ⟨.seq (l.map .leaf), [(l.length : Int)], 1⟩ := by
  have hr : recExpand [-1] (.seq (l.map .leaf)) = .ok (.seq (l.map .leaf), [(l.length : Int)], false) := by
    rw [recExpand_uniform (s := []) (by simpa using hne) _ (Or.inl rfl)]
    · simp
    · intro a ha
      obtain ⟨b, _, rfl⟩ := List.mem_map.1 ha
      rw [recExpand]
  rw [NdSpec.ofItem, getRagged_leaves (fun b => ⟨b, rfl⟩) hne]
  simp [expandRagged, zeroLengthBad, hr]

/-! ### the settings of a padder -/

/-- what `NdSpec` stores for a setting whose items have shape `item` -/
def specOf (item : List Int) (f : β → Py α) : Given β → NdSpec α
  | .one b => ⟨f b, item, 0⟩
  | .many l => ⟨.seq (l.map f), (l.length : Int) :: item, 1⟩

theorem ofItem_given {f : β → Py α} (hf : Pairing f) {g : Given β} {m : Nat} (hm : 0 < m) (hg : g.Fits m) :
    NdSpec.ofItem [2] (g.toPy f) = .ok (specOf [2] f g) := by
  cases g with
  | one b =>
    obtain ⟨u, v, h⟩ := hf b
    simp only [Given.toPy, specOf, h]
    exact ofItem_pair u v
  | many l =>
    have : l ≠ [] := by rintro rfl; simp [Given.Fits] at hg; omega
    exact ofItem_pairs hf this

theorem ofItem_given_leaf {g : Given α} {m : Nat} (hm : 0 < m) (hg : g.Fits m) :
    NdSpec.ofItem [] (g.toPy .leaf) = .ok (specOf [] .leaf g) := by
  cases g with
  | one b => exact ofItem_leaf0 b
  | many l =>
    have : l ≠ [] := by rintro rfl; simp [Given.Fits] at hg; omega
    exact ofItem_leaves this

theorem indexShape_specOf (item : List Int) (f : β → Py α) (g : Given β) {m : Nat} (hg : g.Fits m) :
    (specOf item f g).indexShape = if g.isMany then [(m : Int)] else [] := by
  cases g with
  | one b => rfl
  | many l =>
    have : l.length = m := hg
    simp [specOf, NdSpec.indexShape, Given.isMany, this]

theorem map_checkPadWidth {g : Given (Nat × Nat)} {m : Nat} (hm : 0 < m) (hg : g.Fits m) :
    (specOf [2] PadArgs.pyWidth g).map checkPadWidth = .ok (specOf [2] PadArgs.pyWidth g) := by
  have hc : ∀ w, checkPadWidth (PadArgs.pyWidth w) = .ok (PadArgs.pyWidth w) := by
    intro w
    rw [PadArgs.pyWidth, checkPadWidth, if_neg (by omega)]
  cases g with
  | one w =>
    simp only [specOf, NdSpec.map, NdSpec.itemShape, List.drop_zero, Nat.sub_self, recApply, hc,
      NdSpec.indexShape, List.take_zero, NdSpec.ofIndex]
    rw [PadArgs.pyWidth, getRagged_pair]
    simp [NdSpec.indexShapeOK]
  | many l =>
    have hne : l ≠ [] := by rintro rfl; simp [Given.Fits] at hg; omega
    have h1 : recApplyList checkPadWidth 0 (l.map PadArgs.pyWidth) = .ok (l.map PadArgs.pyWidth) := by
      rw [recApplyList_eq (g := id)]
      · simp
      · intro a ha
        obtain ⟨b, _, rfl⟩ := List.mem_map.1 ha
        exact hc b
    have hgr : getRagged true (.seq (l.map PadArgs.pyWidth)) =
        (.seq (l.map PadArgs.pyWidth), [(l.length : Int), 2]) := by
      rw [getRagged_uniform (s := [2]) (by simpa using hne)]
      · simp
      · intro a ha
        obtain ⟨b, _, rfl⟩ := List.mem_map.1 ha
        rw [PadArgs.pyWidth, getRagged_pair]
    simp [specOf, NdSpec.map, NdSpec.itemShape, recApply, h1, NdSpec.indexShape, NdSpec.ofIndex, hgr,
      NdSpec.indexShapeOK]

theorem map_checkMode {g : Given (Mode α)} {m : Nat} (hm : 0 < m) (hg : g.Fits m) :
    ∃ r, (specOf [] .leaf g).map Padder.checkMode = .ok r := by
  cases g with
  | one w =>
    simp [specOf, NdSpec.map, NdSpec.itemShape, recApply, Padder.checkMode, NdSpec.indexShape, NdSpec.ofIndex,
      getRagged, NdSpec.indexShapeOK]
  | many l =>
    have hne : l ≠ [] := by rintro rfl; simp [Given.Fits] at hg; omega
    have h1 : recApplyList Padder.checkMode 0 (l.map Py.leaf) = .ok (l.map fun _ => Py.leaf ()) := by
      rw [recApplyList_eq (g := fun _ => Py.leaf ())]
      · rw [List.map_map]; rfl
      · intro a ha
        obtain ⟨b, _, rfl⟩ := List.mem_map.1 ha
        rfl
    have hgr := getRagged_leaves (f := fun _ : Mode α => Py.leaf ()) (fun b => ⟨(), rfl⟩) hne
    simp only [specOf, NdSpec.map, NdSpec.itemShape, NdSpec.indexShape, List.drop_succ_cons, List.drop_zero,
      List.length_cons, List.length_nil, recApply, h1, List.take_succ_cons, List.take_zero, NdSpec.ofIndex, hgr,
      NdSpec.indexShapeOK]
    simp

theorem aggIndexShape_two {shapes : List (List Int)} {m : Int} (hne : shapes ≠ [])
    (h : ∀ s ∈ shapes, s = [] ∨ s = [m]) :
    NdSpec.aggIndexShape shapes = .ok (if shapes.all (· == []) then [] else [m]) := by
  cases shapes with
  | nil => exact absurd rfl hne
  | cons s l =>
    rw [NdSpec.aggIndexShape]
    split_ifs with h1 h2 h2
    · simp only [List.all_cons, Bool.and_eq_true, beq_iff_eq] at h2
      rw [h2.1]
    · rcases h s (by simp) with rfl | rfl
      · exfalso; apply h2; simpa using h1
      · rfl
    · exfalso
      simp only [List.all_cons, Bool.and_eq_true, beq_iff_eq] at h2
      apply h1
      rw [h2.1]; exact h2.2
    · have hf : ∀ t ∈ (s :: l).filter (· ≠ []), t = [m] := by
        intro t ht
        rw [List.mem_filter] at ht
        rcases h t ht.1 with rfl | h
        · simp at ht
        · exact h
      have hn : (s :: l).filter (· ≠ []) ≠ [] := by
        intro h0
        apply h2
        rw [List.all_eq_true]
        intro t ht
        by_contra hc
        have : t ∈ (s :: l).filter (· ≠ []) := List.mem_filter.2 ⟨ht, by simpa using hc⟩
        rw [h0] at this
        cases this
      generalize (s :: l).filter (· ≠ []) = F at hf hn
      cases F with
      | nil => exact absurd rfl hn
      | cons t ts =>
        have : ts.all (· == t) = true := by
          rw [List.all_eq_true]
          intro u hu
          simp [hf t (by simp), hf u (by simp [hu])]
        simp only [this, if_true]
        rw [hf t (by simp)]

theorem aggIndexLen_two {shapes : List (List Int)} {m : Int} (hne : shapes ≠ [])
    (h : ∀ s ∈ shapes, s = [] ∨ s = [m]) :
    NdSpec.aggIndexLen shapes = .ok (if shapes.all (· == []) then 0 else m) := by
  rw [NdSpec.aggIndexLen, if_pos, aggIndexShape_two hne h]
  · simp only
    split_ifs <;> rfl
  · rw [List.all_eq_true]
    intro s hs
    rcases h s hs with rfl | rfl <;> simp

/-! ### construction -/

/-- the object built from the arguments -/
def Spec.PadArgs.padder (g : PadArgs α) (m : Nat) : Padder α where
  padWidth := specOf [2] PadArgs.pyWidth g.width
  mode := specOf [] .leaf g.mode
  constantValues := specOf [2] pyPair g.cv
  endValues := specOf [2] pyPair g.ev
  statLength := specOf [2] pyPair g.sl
  ndim := if g.isMany then m else 0

theorem pairing_width : Pairing PadArgs.pyWidth := fun b => ⟨b.1, b.2, rfl⟩
theorem pairing_pair : Pairing (pyPair (α := α)) := fun b => ⟨b.1, b.2, rfl⟩

theorem init_args {g : PadArgs α} {m : Nat} (hm : 0 < m) (hg : g.Fits m) :
    Padder.init (g.width.toPy PadArgs.pyWidth) (g.mode.toPy .leaf) (g.cv.toPy pyPair) (g.ev.toPy pyPair)
      (g.sl.toPy pyPair) = .ok (g.padder m) := by
  obtain ⟨h1, h2, h3, h4, h5⟩ := hg
  obtain ⟨r, hr⟩ := map_checkMode hm h2
  have hal : Padder.alignParams (specOf [2] PadArgs.pyWidth g.width) (specOf [] .leaf g.mode)
      (specOf [2] pyPair g.cv) (specOf [2] pyPair g.ev) (specOf [2] pyPair g.sl) =
      .ok (if g.isMany then (m : Int) else 0) := by
    rw [Padder.alignParams, aggIndexLen_two (m := (m : Int)) (by simp)]
    · rw [indexShape_specOf _ _ _ h1, indexShape_specOf _ _ _ h2, indexShape_specOf _ _ _ h3,
        indexShape_specOf _ _ _ h4, indexShape_specOf _ _ _ h5]
      have hb : ∀ b1 b2 b3 b4 b5 : Bool, [if b1 then [(m : Int)] else [], if b2 then [(m : Int)] else [],
          if b3 then [(m : Int)] else [], if b4 then [(m : Int)] else [],
          if b5 then [(m : Int)] else []].all (· == []) = !(b1 || b2 || b3 || b4 || b5) := by
        intro b1 b2 b3 b4 b5
        cases b1 <;> cases b2 <;> cases b3 <;> cases b4 <;> cases b5 <;> simp
      rw [hb]
      change Except.ok (if (!g.isMany) = true then (0 : Int) else m) = _
      by_cases h : g.isMany = true <;> simp [h]
    · intro s hs
      simp only [List.mem_cons, List.not_mem_nil, or_false] at hs
      rcases hs with rfl | rfl | rfl | rfl | rfl
      · rw [indexShape_specOf _ _ _ h1]; split_ifs <;> simp
      · rw [indexShape_specOf _ _ _ h2]; split_ifs <;> simp
      · rw [indexShape_specOf _ _ _ h3]; split_ifs <;> simp
      · rw [indexShape_specOf _ _ _ h4]; split_ifs <;> simp
      · rw [indexShape_specOf _ _ _ h5]; split_ifs <;> simp
  simp only [Padder.init, ofItem_given pairing_width hm h1, map_checkPadWidth hm h1, ofItem_given_leaf hm h2, hr,
    ofItem_given pairing_pair hm h3, ofItem_given pairing_pair hm h4, ofItem_given pairing_pair hm h5, hal,
    bind, Except.bind]
  rfl

/-! ### reading -/

theorem get_specOf {item : List Int} {f : β → Py α} {g : Given β} {m : Nat} (hg : g.Fits m) (d : β) {j k : Nat}
    (hk : g.isMany = true → k ≤ m) (hj : j < k) :
    (specOf item f g).get ((j : Int) - k) = .ok (f (g.entry d (m - k + j))) := by
  cases g with
  | one b => rfl
  | many l =>
    have hl : l.length = m := hg
    have hk := hk rfl
    have e : (specOf item f (.many l)).get ((j : Int) - k) = pyIndex (l.map f) ((j : Int) - k) := rfl
    rw [e, pyIndex_neg (by simpa [hl] using hk) hj]
    simp only [Given.entry]
    simp [hl, List.getD_eq_getElem?_getD, List.getElem?_eq_getElem (show m - k + j < l.length by omega)]

theorem pairAt_of_get {s : NdSpec α} {i : Int} {a b : α} (h : s.get i = .ok (.seq [.leaf a, .leaf b])) :
    Padder.pairAt s i = .ok (a, b) := by
  simp [Padder.pairAt, h, bind, Except.bind, Py.index, pyIndex]

/-- reading entry `-k + j` of the object built from lists of length `m` -/
theorem reads_args [Zero α] {g : PadArgs α} {m : Nat} (hg : g.Fits m) {j k : Nat} (hk : g.isMany = true → k ≤ m)
    (hj : j < k) : Reads (g.padder m) ((j : Int) - k) (g.entry (m - k + j)) := by
  obtain ⟨h1, h2, h3, h4, h5⟩ := hg
  have hk1 : g.width.isMany = true → k ≤ m := fun h => hk (by simp [PadArgs.isMany, h])
  have hk2 : g.mode.isMany = true → k ≤ m := fun h => hk (by simp [PadArgs.isMany, h])
  have hk3 : g.cv.isMany = true → k ≤ m := fun h => hk (by simp [PadArgs.isMany, h])
  have hk4 : g.ev.isMany = true → k ≤ m := fun h => hk (by simp [PadArgs.isMany, h])
  have hk5 : g.sl.isMany = true → k ≤ m := fun h => hk (by simp [PadArgs.isMany, h])
  refine ⟨?_, ?_, ?_, ?_, ?_⟩
  · exact pairAt_of_get (get_specOf h1 (0, 0) hk1 hj)
  · simp only [Padder.modeAt, PadArgs.padder, get_specOf h2 Mode.unknown hk2 hj, bind, Except.bind]
    rfl
  · exact pairAt_of_get (get_specOf h3 (0, 0) hk3 hj)
  · exact pairAt_of_get (get_specOf h4 (0, 0) hk4 hj)
  · exact pairAt_of_get (get_specOf h5 (none, none) hk5 hj)

theorem entry_one [Zero α] {g : PadArgs α} (h : g.isMany = false) (j : Nat) : g.entry j = g.entry 0 := by
  obtain ⟨w, mo, c, e, s⟩ := g
  simp only [PadArgs.isMany, Bool.or_eq_false_iff] at h
  obtain ⟨⟨⟨⟨h1, h2⟩, h3⟩, h4⟩, h5⟩ := h
  cases w <;> cases mo <;> cases c <;> cases e <;> cases s <;> simp [Given.isMany] at h1 h2 h3 h4 h5
  rfl

theorem req_args [Zero α] {g : PadArgs α} {m : Nat} (hm : 0 < m) (hg : g.Fits m)
    {x : Tensor α} (hx : x.ndim ≠ 0) {ax : Axes} {axes : List Nat} (hax : axesOf x.ndim ax = some axes)
    (hnd : axes.Nodup) : PadReq (g.padder m) x ax axes (g.settings m axes.length) where
  ndim_ne := hx
  axes_eq := hax
  nodup := hnd
  len := by
    by_cases h : g.isMany
    · simp only [PadArgs.settings, PadArgs.padder, h, if_true]
      rw [if_pos (by omega)]
      simp
      omega
    · simp [PadArgs.settings, PadArgs.padder, h]
  reads := by
    intro j hj
    by_cases h : g.isMany
    · have e : g.settings m axes.length = ((List.range m).map g.entry).drop (m - axes.length) := by
        simp [PadArgs.settings, h]
      have hl : (g.settings m axes.length).length = m - (m - axes.length) := by rw [e]; simp
      have hr := reads_args hg (k := (g.settings m axes.length).length) (fun _ => by omega) hj
      convert hr using 1
      simp only [e, List.getElem_drop, List.getElem_map, List.getElem_range]
      congr 1
      simp
      omega
    · have e : g.settings m axes.length = List.replicate axes.length (g.entry 0) := by
        simp [PadArgs.settings, h]
      have hr := reads_args hg (k := (g.settings m axes.length).length) (fun h' => absurd h' h) hj
      convert hr using 1
      rw [entry_one (by simpa using h)]
      simp [e]

theorem call_args [Field α] [LinearOrder α] {g : PadArgs α} {m : Nat} (hm : 0 < m) (hg : g.Fits m)
    {x : Tensor α} (hx : x.ndim ≠ 0) {ax : Axes} {axes : List Nat} (hax : axesOf x.ndim ax = some axes)
    (hnd : axes.Nodup)
    (hv : ∀ o ∈ zipRight axes (g.settings m axes.length), ¬ (o.2.before = 0 ∧ o.2.after = 0) →
      o.2.rule? ≠ none ∧ o.2.mode ≠ .zeros ∧ 0 < x.shape.getD o.1 0) :
    PadCall (g.padder m) x ax axes (g.settings m axes.length) where
  ndim_ne := hx
  axes_eq := hax
  nodup := hnd
  len := (req_args hm hg hx hax hnd).len
  reads := (req_args hm hg hx hax hnd).reads
  valued := hv

/-! ### other spellings of widths -/

theorem ofItem_singletons {l : List α} (hne : l ≠ []) :
    NdSpec.ofItem [2] (.seq (l.map fun c => .seq [.leaf c])) =
      .ok ⟨.seq (l.map fun c => .seq [.leaf c, .leaf c]), [(l.length : Int), 2], 1⟩ := by
  have hg : getRagged true (.seq (l.map fun c => .seq [.leaf c])) =
      (.seq (l.map fun c => Py.seq [.leaf c]), [(l.length : Int), 1]) := by
    rw [getRagged_uniform (s := [1]) (by simpa using hne)]
    · simp
    · intro a ha
      obtain ⟨b, _, rfl⟩ := List.mem_map.1 ha
      rw [getRagged_uniform (s := []) (by simp)]
      · rfl
      · intro c hc
        rw [List.mem_singleton.1 hc, getRagged]
  have h1 : ∀ c : α, recExpand [2] (.seq [.leaf c]) = .ok (.seq [.leaf c, .leaf c], [2], true) := by
    intro c
    simp [recExpand, recExpandList, sameLength, levelShapes]
  have hl : recExpandList [2] (l.map fun c => Py.seq [.leaf c]) =
      .ok (l.map fun c => (Py.seq [.leaf c, .leaf c], [2], true)) := by
    clear hne hg
    induction l with
    | nil => simp [recExpandList]
    | cons a l ih => simp only [List.map_cons, recExpandList, h1, ih]
  have hr : recExpand [-1, 2] (.seq (l.map fun c => Py.seq [.leaf c])) =
      .ok (.seq (l.map fun c => .seq [.leaf c, .leaf c]), [(l.length : Int), 2], true) := by
    cases l with
    | nil => exact absurd rfl hne
    | cons b bs =>
      have hs : ∀ t ∈ ((b :: bs).map fun c => ((Py.seq [.leaf c, .leaf c], [2], true) : Py α × List Int × Bool)).map
          (fun r : Py α × List Int × Bool => r.2.1), t = [2] := by
        intro t ht
        simp only [List.map_map, List.mem_map, Function.comp] at ht
        obtain ⟨a, _, rfl⟩ := ht
        rfl
      have hh : (((b :: bs).map fun c => ((Py.seq [.leaf c, .leaf c], [2], true) : Py α × List Int × Bool)).map
          (fun r : Py α × List Int × Bool => r.2.1)).headD [] = [2] := by simp
      rw [List.map_cons] at hl ⊢
      rw [recExpand, hl]
      simp only [sameLength_const hs, if_true, hh]
      rw [levelShapes_const (by simp) hs]
      simp
  simp [NdSpec.ofItem, hg, expandRagged, zeroLengthBad, hr]

theorem recApply_negative {l : List (Int × Int)} (h : ∃ w ∈ l, w.1 < 0 ∨ w.2 < 0) :
    recApplyList checkPadWidth 0 (l.map fun w => .seq [.leaf w.1, .leaf w.2]) = .error .value := by
  induction l with
  | nil => simp at h
  | cons w l ih =>
    rw [List.map_cons, recApplyList, recApply, checkPadWidth]
    by_cases hw : w.1 < 0 ∨ w.2 < 0
    · rw [if_pos hw]
    · rw [if_neg hw]
      obtain ⟨v, hv, hn⟩ := h
      rcases List.mem_cons.1 hv with rfl | hv
      · exact absurd hn hw
      · rw [ih ⟨v, hv, hn⟩]

/-- results of `check_pad_width` are pairs of non-negative numbers -/
theorem checkPadWidth_ok {a r : Py Int} (h : checkPadWidth a = .ok r) :
    ∃ u v : Int, r = .seq [.leaf u, .leaf v] ∧ 0 ≤ u ∧ 0 ≤ v := by
  unfold checkPadWidth at h
  split at h
  · cases h
  · rename_i u v
    split_ifs at h with hn
    · cases h
      exact ⟨u, v, rfl, by omega, by omega⟩
  · cases h
  · cases h

theorem recApplyList_mem {f : Py α → Except Err (Py β)} {depth : Nat} {l : List (Py α)} {l' : List (Py β)}
    (h : recApplyList f depth l = .ok l') : ∀ r ∈ l', ∃ a ∈ l, recApply f depth a = .ok r := by
  induction l generalizing l' with
  | nil => simp only [recApplyList, Except.ok.injEq] at h; subst h; simp
  | cons a l ih =>
    rw [recApplyList] at h
    cases h1 : recApply f depth a with
    | error e => simp [h1] at h
    | ok b =>
      cases h2 : recApplyList f depth l with
      | error e => simp [h1, h2] at h
      | ok bs =>
        simp only [h1, h2, Except.ok.injEq] at h
        subst h
        intro r hr
        rcases List.mem_cons.1 hr with rfl | hr
        · exact ⟨a, by simp, h1⟩
        · obtain ⟨a', ha', h'⟩ := ih h2 r hr
          exact ⟨a', by simp [ha'], h'⟩

theorem recApply_check_seq {depth : Nat} {a r : Py Int} (h : recApply checkPadWidth depth a = .ok r) :
    ∃ l, r = .seq l := by
  cases depth with
  | zero =>
    rw [recApply] at h
    obtain ⟨u, v, rfl, _⟩ := checkPadWidth_ok h
    exact ⟨_, rfl⟩
  | succ depth =>
    cases a with
    | leaf a => rw [recApply] at h; cases h
    | seq l =>
      rw [recApply] at h
      split at h
      · cases h
      · cases h; exact ⟨_, rfl⟩

theorem pyIndex_mem {l : List β} {i : Int} {b : β} (h : pyIndex l i = .ok b) : b ∈ l := by
  simp only [pyIndex] at h
  generalize (if i < 0 then i + (l.length : Int) else i) = j at h
  split_ifs at h
  split at h
  · rename_i c hc
    cases h
    exact List.mem_of_getElem? hc
  · cases h

theorem getRagged_data (a : Py α) : (getRagged true a).1 = a := by
  cases a with
  | leaf a => rw [getRagged]
  | seq l =>
    cases l with
    | nil => rw [getRagged]
    | cons b bs =>
      rw [getRagged]
      simp only
      split_ifs <;> rfl

theorem pairAt_checked {w w' : NdSpec Int} (h : w.map checkPadWidth = .ok w') {i b a : Int}
    (hp : Padder.pairAt w' i = .ok (b, a)) : 0 ≤ b ∧ 0 ≤ a := by
  simp only [NdSpec.map] at h
  split at h
  · cases h
  rename_i d hd
  simp only [NdSpec.ofIndex] at h
  split at h
  · cases h
  · cases h
  have hw : w'.data = d ∧ w'.indexPos = w.indexShape.length := by
    cases h; exact ⟨getRagged_data d, rfl⟩
  have hdep : w.shape.length - w.itemShape.length = w'.indexPos := by
    rw [hw.2]
    simp [NdSpec.itemShape, NdSpec.indexShape]
    omega
  rw [hdep] at hd
  -- the item read
  simp only [Padder.pairAt, bind, Except.bind] at hp
  split at hp
  · cases hp
  rename_i q hq
  split at hp
  · cases hp
  rename_i q0 hq0
  split at hp
  · cases hp
  rename_i q1 hq1
  have key : ∀ e : Nat × Py Int, recApply checkPadWidth e.1 e.2 = .ok q → 0 ≤ b ∧ 0 ≤ a := by
    rintro ⟨depth, e⟩ he
    simp only at he
    cases depth with
    | zero =>
      rw [recApply] at he
      obtain ⟨u, v, rfl, hu, hv⟩ := checkPadWidth_ok he
      simp only [Py.index, pyIndex] at hq0 hq1
      simp at hq0 hq1
      subst hq0; subst hq1
      simp only [Except.ok.injEq, Prod.mk.injEq] at hp
      omega
    | succ depth =>
      obtain ⟨l, rfl⟩ := recApply_check_seq he
      cases e with
      | leaf e => rw [recApply] at he; cases he
      | seq l' =>
        rw [recApply] at he
        split at he
        · cases he
        rename_i l'' hl
        cases he
        rw [Py.index] at hq0
        obtain ⟨a', _, ha'⟩ := recApplyList_mem hl q0 (pyIndex_mem hq0)
        obtain ⟨l3, rfl⟩ := recApply_check_seq ha'
        cases hp
  rw [NdSpec.get] at hq
  by_cases hi : w'.isItem = true
  · rw [if_pos hi, hw.1] at hq
    cases hq
    have : w'.indexPos = 0 := by simpa [NdSpec.isItem] using hi
    rw [this] at hd
    exact key (0, _) hd
  · rw [if_neg hi, hw.1] at hq
    obtain ⟨n, hn⟩ : ∃ n, w'.indexPos = n + 1 :=
      Nat.exists_eq_succ_of_ne_zero (by simpa [NdSpec.isItem] using hi)
    rw [hn] at hd
    cases hwd : w.data with
    | leaf c => rw [hwd, recApply] at hd; cases hd
    | seq l =>
      rw [hwd, recApply] at hd
      split at hd
      · cases hd
      rename_i l' hl
      cases hd
      rw [Py.index] at hq
      obtain ⟨e, _, he⟩ := recApplyList_mem hl q (pyIndex_mem hq)
      exact key (n, e) he

end TI
