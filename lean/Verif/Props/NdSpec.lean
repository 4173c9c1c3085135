import Verif.Proofs.Nested
import Verif.Proofs.NdSpecLaws

/-!
# Specifications, ragged arrays and axis arguments: C69 – C74
-/

namespace TI
open Spec

variable {α β γ : Type}

/-! ## C71: ragged shapes -/

/-- **C71** (for trees whose leaves all have the same depth, which is what the documentation calls a ragged array).
The shape has one entry per level: the common length of all lists at that level, or `-1`.  The data is returned
unchanged, in both modes.

Missing for the full claim: arrays with leaves of different depths, where the code does not follow the documentation
(`C71_min_depth_false`, `C71_nonstrict_false`). -/
theorem C71_ragged_shape_partial (strict : Bool) {D : Nat} {a : Py α} (h : UniformDepth D a) :
    getRagged strict a = (a, raggedShape D a) :=
  getRagged_uniformDepth strict h

/-- `[[1, 2], [3], []]` has shape `(3, -1)` -/
example : UniformDepth 2 (Py.seq [.seq [.leaf 1, .leaf 2], .seq [.leaf 3], .seq []] : Py Int) ∧
    raggedShape 2 (Py.seq [.seq [.leaf 1, .leaf 2], .seq [.leaf 3], .seq []] : Py Int) = [3, -1] := by
  constructor
  · simp [UniformDepth]
  · decide

/-- **C71**, strict mode never changes the data, whatever it is -/
theorem C71_strict_data (a : Py α) : (getRagged true a).1 = a := getRagged_data a

/-- **C71** is false for mixed depths: in `[[1], [[2]]]` all leaves have depth at least two, and "the minimum depth is
regarded as ground truth", but only one level is counted. -/
theorem C71_min_depth_false :
    getRagged true (Py.seq [.seq [.leaf 1], .seq [.seq [.leaf 2]]] : Py Int) =
      (.seq [.seq [.leaf 1], .seq [.seq [.leaf 2]]], [2]) := by
  simp [getRagged, getRaggedList, sameLength, levelShapes]

/-- **C71** is false in the non-strict mode: the items of `[[1, [2]], [3, [4]]]` are lifted to depth two, but the lifted
items are thrown away; the shape `(2, 2, 1)` does not describe the data that is returned. -/
theorem C71_nonstrict_false :
    ∃ (a : Py Int), (getRagged false a).1 = a ∧ (getRagged false a).2 = [2, 2, 1] ∧ ¬ UniformDepth 3 a := by
  refine ⟨.seq [.seq [.leaf 1, .seq [.leaf 2]], .seq [.leaf 3, .seq [.leaf 4]]], ?_, ?_, ?_⟩
  · simp [getRagged, getRaggedList, sameLength, levelShapes, maxNdim, commonLen]
  · simp [getRagged, getRaggedList, sameLength, levelShapes, maxNdim, commonLen, List.range_succ]
  · simp [UniformDepth]

/-- **C71**, non-strict mode, when only the items themselves differ in depth: the result has uniform depth, the shape
describes it, and the leaves are the same.

Missing: items that were themselves lifted (`C71_nonstrict_false`). -/
theorem C71_nonstrict_partial {b : Py α} {bs : List (Py α)} {depth : Py α → Nat}
    (h : ∀ c ∈ b :: bs, UniformDepth (depth c) c) (hmix : ∃ c ∈ bs, depth c ≠ depth b) :
    UniformDepth (getRagged false (.seq (b :: bs))).2.length (getRagged false (.seq (b :: bs))).1 ∧
      (getRagged false (.seq (b :: bs))).2 =
        raggedShape (getRagged false (.seq (b :: bs))).2.length (getRagged false (.seq (b :: bs))).1 ∧
      leaves (getRagged false (.seq (b :: bs))).1 = leaves (.seq (b :: bs)) :=
  have := getRagged_lift h hmix
  ⟨this.1.1, this.1.2, this.2⟩

/-- `[a, [b]] -> [[a], [b]]` -/
example : getRagged false (Py.seq [.leaf 1, .seq [.leaf 2]] : Py Int) =
    (.seq [.seq [.leaf 1], .seq [.leaf 2]], [2, 1]) := by
  simp [getRagged, getRaggedList, sameLength, levelShapes, maxNdim, commonLen, List.range_succ, wrapN]

/-! ## C72: expansion -/

theorem expandedShape_self : ∀ s : List Nat, List.zipWith expandedLen s (s.map fun n : Nat => (n : Int)) = s
  | [] => rfl
  | n :: s => by
    rw [List.map_cons, List.zipWith_cons_cons, expandedShape_self s, expandedLen]
    split_ifs <;> simp

theorem collapse_self : ∀ {s ix : List Nat}, InB s ix → collapse s ix = ix
  | [], [], _ => rfl
  | n :: s, i :: ix, h => by
    rw [collapse, collapse_self h.2]
    split_ifs with h1
    · have := h.1
      rw [show i = 0 by omega]
    · rfl

theorem expandable_self : ∀ s : List Nat, List.Forall₂ Expandable s (s.map fun n : Nat => (n : Int))
  | [] => .nil
  | n :: s => .cons (Or.inr (Or.inl rfl)) (expandable_self s)

/-- **C72.** Rectangular data of shape `s` expanded to the target `lead ++ ts`, `ts` aligned with `s`: every axis gets the
requested length (its own length for `-1`, one for an additional axis), the shape is reported, and every entry is
the entry of the input with singleton coordinates set to zero and additional coordinates dropped. -/
theorem C72_expand {s : List Nat} {a : Py α} {lead ts : List Int} (hp : ∀ n ∈ s, 0 < n) (h : HasShape s a)
    (hlead : ∀ t ∈ lead, -1 ≤ t) (hts : ∀ t ∈ ts, -1 ≤ t) (he : List.Forall₂ Expandable s ts) :
    ∃ r, expandRagged a (s.map fun n : Nat => (n : Int)) (lead ++ ts) =
        .ok (r, (lead.map (expandedLen 1) ++ List.zipWith expandedLen s ts).map fun n : Nat => (n : Int)) ∧
      HasShape (lead.map (expandedLen 1) ++ List.zipWith expandedLen s ts) r ∧
      ∀ px ix, InB (lead.map (expandedLen 1)) px → InB (List.zipWith expandedLen s ts) ix →
        entryAt r (px ++ ix) = entryAt a (collapse s ix) := by
  have hl := he.length_eq
  by_cases heq : s.map (fun n : Nat => (n : Int)) = lead ++ ts
  · have hl0 : lead = [] := by
      have := congrArg List.length heq
      simp only [List.length_map, List.length_append] at this
      exact List.eq_nil_of_length_eq_zero (by omega)
    subst hl0
    rw [List.nil_append] at heq
    subst heq
    refine ⟨a, ?_, ?_, ?_⟩
    · rw [List.nil_append, expandRagged, if_pos rfl, expandedShape_self]; rfl
    · rw [expandedShape_self]; exact h
    · intro px ix hpx hix
      rw [expandedShape_self] at hix
      cases px with
      | nil => rw [collapse_self hix]; rfl
      | cons _ _ => exact hpx.elim
  · obtain ⟨m, hm, _⟩ := recExpand_rect hp h hts he
    have hsh := expandP_shape hp h hts he
    have hen := fun ix hix => expandP_entry (ix := ix) hp h hts he hix
    rw [expandRagged, if_neg heq, no_zeroLength hp]
    simp only [Bool.false_eq_true, if_false, List.length_map, List.length_append]
    by_cases h0 : lead = []
    · subst h0
      simp only [List.length_nil, Nat.zero_add, ← hl, lt_irrefl, if_false, if_true, List.nil_append, List.map_nil]
      rw [hm]
      refine ⟨expandP ts a, rfl, hsh, ?_⟩
      intro px ix hpx hix
      cases px with
      | nil => exact hen ix hix
      | cons _ _ => exact hpx.elim
    · have hpos : 0 < lead.length := List.length_pos_iff.2 h0
      rw [if_pos (by omega), show lead.length + ts.length - s.length = lead.length by omega, List.drop_left, hm,
        List.take_left]
      obtain ⟨r, r1, r2, r3⟩ := wrapLeading_spec lead (expandP ts a) (expandedShape s ts) hlead hsh
      refine ⟨r, by simp only; rw [r1]; rfl, r2, ?_⟩
      intro px ix hpx hix
      rw [r3 px ix hpx, hen ix hix]

/-- **C72**, targets with fewer axes than the data: the leading axes are kept -/
theorem C72_expand_shorter {s : List Nat} {a : Py α} {ts : List Int} (hp : ∀ n ∈ s, 0 < n) (h : HasShape s a)
    (hts : ∀ t ∈ ts, -1 ≤ t) (hlt : ts.length < s.length)
    (he : List.Forall₂ Expandable s (List.replicate (s.length - ts.length) (-1) ++ ts)) :
    ∃ r, expandRagged a (s.map fun n : Nat => (n : Int)) ts =
        .ok (r, (List.zipWith expandedLen s (List.replicate (s.length - ts.length) (-1) ++ ts)).map fun n : Nat => (n : Int)) ∧
      HasShape (List.zipWith expandedLen s (List.replicate (s.length - ts.length) (-1) ++ ts)) r ∧
      ∀ ix, InB (List.zipWith expandedLen s (List.replicate (s.length - ts.length) (-1) ++ ts)) ix →
        entryAt r ix = entryAt a (collapse s ix) := by
  have hts' : ∀ t ∈ List.replicate (s.length - ts.length) (-1) ++ ts, -1 ≤ t := by
    intro t ht
    rcases List.mem_append.1 ht with ht | ht
    · rw [List.eq_of_mem_replicate ht]
    · exact hts t ht
  obtain ⟨m, hm, _⟩ := recExpand_rect hp h hts' he
  have heq : s.map (fun n : Nat => (n : Int)) ≠ ts := by
    intro h0
    have := congrArg List.length h0
    rw [List.length_map] at this
    omega
  refine ⟨_, ?_, expandP_shape hp h hts' he, fun ix hix => expandP_entry hp h hts' he hix⟩
  rw [expandRagged, if_neg heq, no_zeroLength hp]
  simp only [Bool.false_eq_true, if_false, List.length_map]
  rw [if_neg (by omega), if_neg (by omega), hm]
  rfl

/-- **C72**: a length that is neither the target, nor one, nor to be kept, is a ValueError -/
theorem C72_incompatible {s : List Nat} {a : Py α} {lead ts : List Int} (hp : ∀ n ∈ s, 0 < n) (h : HasShape s a)
    (hts : ∀ t ∈ ts, -1 ≤ t) (hl : s.length = ts.length) (he : ¬ List.Forall₂ Expandable s ts) :
    expandRagged a (s.map fun n : Nat => (n : Int)) (lead ++ ts) = .error .value := by
  have heq : s.map (fun n : Nat => (n : Int)) ≠ lead ++ ts := by
    intro h0
    apply he
    have hl0 : lead = [] := by
      have := congrArg List.length h0
      simp only [List.length_map, List.length_append] at this
      exact List.eq_nil_of_length_eq_zero (by omega)
    subst hl0
    rw [List.nil_append] at h0
    rw [← h0]
    exact expandable_self s
  have herr := recExpand_error hp h hts hl he
  rw [expandRagged, if_neg heq, no_zeroLength hp]
  simp only [Bool.false_eq_true, if_false, List.length_map, List.length_append]
  by_cases h0 : lead = []
  · subst h0
    simp only [List.length_nil, Nat.zero_add, hl, lt_irrefl, if_false, if_true, List.nil_append]
    rw [herr]
  · have hpos : 0 < lead.length := List.length_pos_iff.2 h0
    rw [if_pos (by omega), show lead.length + ts.length - s.length = lead.length by omega, List.drop_left, herr]

/-- `[[1], [2]]` of shape `(2, 1)` expands to `(2, 2, 3)` but not to `(3, 3)` -/
example : HasShape [2, 1] (Py.seq [.seq [.leaf 1], .seq [.leaf 2]] : Py Int) ∧
    List.Forall₂ Expandable [2, 1] [-1, 3] ∧ ¬ List.Forall₂ Expandable [2, 1] [3, 3] := by
  refine ⟨by simp [HasShape], ?_, ?_⟩
  · simp [Expandable]
  · simp [Expandable]

/-! ## C69, C70: single items and lists of items -/

theorem recExpand_len : ∀ {ts : List Int} {a r : Py α} {s : List Int} {m : Bool}, recExpand ts a = .ok (r, s, m) →
    s.length ≤ ts.length
  | [], a, r, s, m, h => by
    rw [recExpand] at h
    simp only [Except.ok.injEq, Prod.mk.injEq] at h
    rw [← h.2.1]
  | t :: ts, .leaf a, r, s, m, h => by
    rw [recExpand] at h
    simp only [Except.ok.injEq, Prod.mk.injEq] at h
    rw [← h.2.1]; simp
  | t :: ts, .seq [], r, s, m, h => by
    rw [recExpand] at h
    simp only [Except.ok.injEq, Prod.mk.injEq] at h
    rw [← h.2.1]; simp
  | t :: ts, .seq (b :: bs), r, s, m, h => by
    rw [recExpand] at h
    cases hl : recExpandList ts (b :: bs) with
    | error e => rw [hl] at h; cases h
    | ok rs =>
      rw [hl] at h
      simp only at h
      have hb : ((rs.map fun r => r.2.1).headD []).length ≤ ts.length := by
        rw [recExpandList] at hl
        cases hb : recExpand ts b with
        | error e => rw [hb] at hl; cases hl
        | ok q =>
          rw [hb] at hl
          simp only at hl
          cases hbs : recExpandList ts bs with
          | error e => rw [hbs] at hl; cases hl
          | ok qs =>
            rw [hbs] at hl
            simp only [Except.ok.injEq] at hl
            rw [← hl, List.map_cons, List.headD_cons]
            obtain ⟨q1, q2, q3⟩ := q
            exact recExpand_len hb
      have hlen : (levelShapes ((rs.map fun r => r.2.1).headD []).length (rs.map fun r => r.2.1)).length ≤ ts.length := by
        simpa [levelShapes] using hb
      split_ifs at h <;> simp only [Except.ok.injEq, Prod.mk.injEq] at h <;> rw [← h.2.1] <;> simpa using hlen

theorem wrapLeading_len (lead : List Int) (r : Py α × List Int) :
    (wrapLeading lead r).2.length = lead.length + r.2.length := by
  induction lead with
  | nil => simp [wrapLeading]
  | cons t lead ih =>
    rw [wrapLeading]
    split_ifs <;> simp only [List.length_cons, ih] <;> omega

/-- **C69.** If the data is not nested deeper than the item shape, it is a single item: every integer index returns it
(after broadcasting), the length is zero, and iteration yields it once. -/
theorem C69_single_item {item : List Int} {d : Py α} {s : NdSpec α} (hd : (getRagged true d).2.length ≤ item.length)
    (h : NdSpec.ofItem item d = .ok s) :
    (∀ i, s.get i = .ok s.data) ∧ s.len = 0 ∧ s.toList = .ok [s.data] := by
  have hpos : s.indexPos = 0 := by
    rw [NdSpec.ofItem] at h
    cases he : expandRagged (getRagged true d).1 (getRagged true d).2 item with
    | error e => rw [he] at h; cases h
    | ok q =>
      obtain ⟨q1, q2⟩ := q
      rw [he] at h
      simp only [Except.ok.injEq] at h
      rw [← h]
      simp only
      have : q2.length ≤ item.length := by
        generalize (getRagged true d).2 = old at hd he
        generalize (getRagged true d).1 = d' at he
        rw [expandRagged] at he
        split_ifs at he with h1 h2 h3 h4
        · simp only [Except.ok.injEq, Prod.mk.injEq] at he
          rw [← he.2]; exact hd
        · cases hr : recExpand (item.drop (item.length - old.length)) d' with
          | error e => rw [hr] at he; cases he
          | ok q =>
            obtain ⟨p1, p2, p3⟩ := q
            rw [hr] at he
            simp only [Except.ok.injEq] at he
            have := recExpand_len hr
            have hw := wrapLeading_len (item.take (item.length - old.length)) (p1, p2)
            rw [he] at hw
            simp only [List.length_take, List.length_drop] at hw this
            omega
        · cases hr : recExpand item d' with
          | error e => rw [hr] at he; cases he
          | ok q =>
            obtain ⟨p1, p2, p3⟩ := q
            rw [hr] at he
            simp only [Except.ok.injEq, Prod.mk.injEq] at he
            rw [← he.2]
            exact recExpand_len hr
        · omega
      omega
  have hi : s.isItem = true := by simp [NdSpec.isItem, hpos]
  refine ⟨fun i => by rw [NdSpec.get, if_pos hi], by rw [NdSpec.len, if_pos hi], by rw [NdSpec.toList, if_pos hi]⟩

/-- **C69** for pairs: a scalar is broadcast to both entries -/
theorem C69_scalar_pair (c : α) (i : Int) :
    (NdSpec.ofItem [2] (.leaf c)).bind (fun s => s.get i) = .ok (.seq [.leaf c, .leaf c]) := by
  rw [ofItem_leaf2]; rfl

/-- **C69** for scalars -/
theorem C69_scalar (c : α) (i : Int) : (NdSpec.ofItem [] (.leaf c)).bind (fun s => s.get i) = .ok (.leaf c) := by
  rw [ofItem_leaf0]; rfl

/-- the hypotheses are met by the scalar 7 for item shape `(2, )` -/
example : NdSpec.ofItem [2] (.leaf (7 : Int)) = .ok ⟨.seq [.leaf 7, .leaf 7], [2], 0⟩ ∧
    (getRagged true (.leaf (7 : Int))).2.length ≤ [2].length :=
  ⟨ofItem_leaf2 _, by simp [getRagged]⟩

theorem recExpand_id : ∀ {s : List Nat} {a : Py α}, (∀ n ∈ s, 0 < n) → HasShape s a →
    recExpand (s.map fun n : Nat => (n : Int)) a = .ok (a, s.map fun n : Nat => (n : Int), false)
  | [], .leaf a, _, _ => by rw [List.map_nil, recExpand]
  | n :: s, .seq l, hp, h => by
    have hne : l ≠ [] := by
      intro hl
      have := hp n (by simp)
      have h1 := h.1
      rw [hl, List.length_nil] at h1
      omega
    rw [List.map_cons, recExpand_uniform hne (fun b hb => recExpand_id (fun m hm => hp m (by simp [hm])) (h.2 b hb))
      (Or.inr (by rw [h.1])), h.1]

/-- **C70.** A list of `m` items of the item shape is stored as it is; -/
theorem ofItem_items {s : List Nat} {l : List (Py α)} (hp : ∀ n ∈ s, 0 < n) (hne : l ≠ []) (h : ∀ b ∈ l, HasShape s b) :
    NdSpec.ofItem (s.map fun n : Nat => (n : Int)) (.seq l) =
      .ok ⟨.seq l, (l.length : Int) :: s.map fun n : Nat => (n : Int), 1⟩ := by
  have hpos : 0 < l.length := List.length_pos_iff.2 hne
  have hs : HasShape (l.length :: s) (.seq l) := ⟨rfl, h⟩
  have hp' : ∀ n ∈ l.length :: s, 0 < n := by
    intro n hn
    rcases List.mem_cons.1 hn with rfl | hn
    · exact hpos
    · exact hp n hn
  have hneq : (l.length :: s).map (fun n : Nat => (n : Int)) ≠ s.map fun n : Nat => (n : Int) := by
    intro h0
    have := congrArg List.length h0
    simp at this
  rw [NdSpec.ofItem, getRagged_rect true hp' hs]
  simp only
  rw [expandRagged, if_neg hneq, no_zeroLength hp']
  simp only [Bool.false_eq_true, if_false, List.length_map, List.length_cons]
  rw [if_neg (by omega), if_neg (by omega), show s.length + 1 - s.length = 1 by omega]
  have := recExpand_uniform (t := -1) hne (fun b hb => recExpand_id hp (h b hb)) (Or.inl rfl)
  rw [List.replicate_one, List.singleton_append, this]
  simp

/-- **C70.** A list of `m` items is indexed like a Python list: item `i` for `0 ≤ i < m`, item `m + i` for
`-m ≤ i < 0`, IndexError otherwise; the length is `m` and iteration yields the items in order. -/
theorem C70_list_of_items {s : List Nat} {l : List (Py α)} (hp : ∀ n ∈ s, 0 < n) (hne : l ≠ [])
    (h : ∀ b ∈ l, HasShape s b) :
    ∃ sp, NdSpec.ofItem (s.map fun n : Nat => (n : Int)) (.seq l) = .ok sp ∧
      (∀ i (hi : i < l.length), sp.get (i : Int) = .ok l[i] ∧ sp.get ((i : Int) - l.length) = .ok l[i]) ∧
      (∀ i : Int, i < -l.length ∨ (l.length : Int) ≤ i → sp.get i = .error .index) ∧
      sp.len = l.length ∧ sp.toList = .ok l := by
  refine ⟨_, ofItem_items hp hne h, ?_, ?_, by simp [NdSpec.len, NdSpec.isItem], ?_⟩
  · intro i hi
    simp only [NdSpec.get, NdSpec.isItem, Py.index]
    refine ⟨pyIndex_nat hi, ?_⟩
    simp only [pyIndex, beq_iff_eq, one_ne_zero, if_false]
    rw [if_pos (show (i : Int) - l.length < 0 by omega), if_neg (by omega), show ((i : Int) - l.length + l.length).toNat = i by omega]
    simp [hi]
  · intro i hi
    simp only [NdSpec.get, NdSpec.isItem, Py.index, pyIndex, beq_iff_eq, one_ne_zero, if_false]
    rcases hi with hi | hi
    · rw [if_pos (show i < 0 by omega), if_pos (by omega)]
    · rw [if_neg (show ¬ i < 0 by omega), if_neg (by omega), List.getElem?_eq_none (by omega)]
  · have hs : IsSpec (⟨.seq l, (l.length : Int) :: s.map fun n : Nat => (n : Int), 1⟩ : NdSpec α) id (.many l) :=
      ⟨by simp, rfl, _, rfl⟩
    rw [hs.toList]
    simp [Given.values]

/-- three pairs -/
example : ∀ b ∈ [Py.seq [.leaf 1, .leaf 2], .seq [.leaf 3, .leaf 4], .seq [.leaf 5, .leaf (6 : Int)]], HasShape [2] b := by
  simp [HasShape]

/-! ## C73: item-wise application -/

/-- a stored specification with one item for all indices, or `m` items -/
def Indexed (m : Nat) (s : NdSpec α) : Prop :=
  s.indexPos = 0 ∨ ∃ l r, s.data = .seq l ∧ s.indexPos = 1 ∧ s.shape = (l.length : Int) :: r ∧ l.length = m

theorem Indexed.isSpec {m : Nat} {s : NdSpec α} (h : Indexed m s) : ∃ g : Given (Py α), IsSpec s id g ∧ g.Fits m := by
  rcases h with h | ⟨l, r, h1, h2, h3, h4⟩
  · exact ⟨.one s.data, ⟨rfl, h⟩, trivial⟩
  · exact ⟨.many l, ⟨by simpa using h1, h2, r, h3⟩, h4⟩

theorem Indexed.of_isSpec {δ : Type} {m : Nat} {s : NdSpec α} {f : δ → Py α} {g : Given δ} (h : IsSpec s f g) (hg : g.Fits m) :
    Indexed m s := by
  cases g with
  | one b => exact Or.inl h.2
  | many l =>
    obtain ⟨h1, h2, r, h3⟩ := h
    have : l.length = m := hg
    exact Or.inr ⟨l.map f, r, h1, h2, by simpa using h3, by simpa using this⟩

/-- **C73.** `map` applies the function to every item. -/
theorem C73_map {m : Nat} {s : NdSpec α} (hs : Indexed m s) (F : Py α → Py β) :
    ∃ r, s.map (fun p => .ok (F p)) = .ok r ∧ Indexed m r ∧ r.len = s.len ∧
      ∀ i : Nat, i < m → r.get i = (s.get i).map F := by
  obtain ⟨g, hg, hf⟩ := hs.isSpec
  obtain ⟨r, h1, h2⟩ := hg.map (func := fun p => .ok (F p)) (f' := id) (F := F) (fun _ _ => rfl)
  have hf' : (g.map F).Fits m := by
    cases g with
    | one b => trivial
    | many l => simpa [Given.map, Given.Fits] using hf
  have hm : (g.map F).isMany = g.isMany := by cases g <;> rfl
  refine ⟨r, h1, .of_isSpec h2 hf', by rw [h2.len hf', hg.len hf, hm], ?_⟩
  intro i hi
  rw [h2.get hf' (F (.seq [])) (fun _ => hi), hg.get hf (.seq []) (fun _ => hi)]
  cases g with
  | one b => rfl
  | many l =>
    have : l.length = m := hf
    simp [Given.map, Given.entry, Except.map, List.getD_eq_getElem?_getD, this, hi]

theorem entry_zip {m : Nat} {γ δ ε : Type} {F : γ → δ → ε} {da : γ} {db : δ} {ga : Given γ} {gb : Given δ} {i : Nat} (hi : i < m)
    (d : ε) : (Given.zip m F da db ga gb).entry d i = F (ga.entry da i) (gb.entry db i) := by
  rw [Given.zip]
  split_ifs with h
  · simp [Given.entry, List.getD_eq_getElem?_getD, hi]
  · cases ga with
    | many l => simp [Given.isMany] at h
    | one a =>
      cases gb with
      | many l => simp [Given.isMany] at h
      | one b => rfl

theorem fits_zip {m : Nat} {γ δ ε : Type} {F : γ → δ → ε} {da : γ} {db : δ} {ga : Given γ} {gb : Given δ} :
    (Given.zip m F da db ga gb).Fits m := by
  rw [Given.zip]
  split_ifs with h
  · simp [Given.Fits]
  · trivial

/-- **C73.** `apply` of a function of two items: item `i` of the result is the function of the items `i`. -/
theorem C73_apply {m : Nat} {a : NdSpec α} {b : NdSpec β} (ha : Indexed m a) (hb : Indexed m b)
    (F : Py α → Py β → Py γ) :
    ∃ r, NdSpec.apply2 (fun p q => .ok (F p q)) a b = .ok r ∧ Indexed m r ∧
      ∀ i : Nat, i < m → ∃ p q, a.get i = .ok p ∧ b.get i = .ok q ∧ r.get i = .ok (F p q) := by
  obtain ⟨ga, ga1, ga2⟩ := ha.isSpec
  obtain ⟨gb, gb1, gb2⟩ := hb.isSpec
  obtain ⟨r, h1, h2⟩ := apply2_spec ga1 gb1 ga2 gb2 (func := fun p q => .ok (F p q)) (f' := id) (F := F) (.seq []) (.seq [])
    (fun _ _ => rfl)
  refine ⟨r, h1, .of_isSpec h2 fits_zip, ?_⟩
  intro i hi
  refine ⟨_, _, ga1.get ga2 (.seq []) (fun _ => hi), gb1.get gb2 (.seq []) (fun _ => hi), ?_⟩
  rw [h2.get fits_zip (F (.seq []) (.seq [])) (fun _ => hi), entry_zip hi]
  rfl

/-- **C73.** An exception raised for one of the items is raised by `apply`. -/
theorem C73_apply_raises {m : Nat} {a : NdSpec α} {b : NdSpec β} (ha : Indexed m a) (hb : Indexed m b)
    {func : Py α → Py β → Except Err (Py γ)} {e : Err} {i : Nat} (hi : i < m) {p : Py α} {q : Py β}
    (hp : a.get i = .ok p) (hq : b.get i = .ok q) (hraise : func p q = .error e)
    (hall : ∀ p q e', func p q = .error e' → e' = e) : NdSpec.apply2 func a b = .error e := by
  obtain ⟨ga, ga1, ga2⟩ := ha.isSpec
  obtain ⟨gb, gb1, gb2⟩ := hb.isSpec
  rw [ga1.get ga2 (.seq []) (fun _ => hi)] at hp
  rw [gb1.get gb2 (.seq []) (fun _ => hi)] at hq
  simp only [id, Except.ok.injEq] at hp hq
  have hagg := aggIndexShape_two (shapes := [a.indexShape, b.indexShape]) (m := (m : Int)) (by simp) (by
    intro s hs
    simp only [List.mem_cons, List.not_mem_nil, or_false] at hs
    rcases hs with rfl | rfl
    · exact fits_shape ga1 ga2
    · exact fits_shape gb1 gb2)
  simp only [NdSpec.apply2, NdSpec.applyCore, hagg, List.all_cons, List.all_nil, indexShape_beq ga1 ga2, indexShape_beq gb1 gb2, Bool.and_true]
  cases hma : ga.isMany <;> cases hmb : gb.isMany
  · have d1 := ga1.data_one hma (.seq [])
    have d2 := gb1.data_one hmb (.seq [])
    have e1 : ga.entry (.seq []) 0 = p := by
      rw [← hp]; cases ga with
      | one b => rfl
      | many l => cases hma
    have e2 : gb.entry (.seq []) 0 = q := by
      rw [← hq]; cases gb with
      | one b => rfl
      | many l => cases hmb
    simp only [Bool.not_false, Bool.and_self, if_true]
    rw [d1, d2, e1, e2, id, id, hraise]
  all_goals
    simp only [Bool.not_false, Bool.not_true, Bool.and_true, Bool.true_and, Bool.and_self, Bool.false_eq_true, if_false,
      any_neg_one, grid_one]
    rw [sequence_error (l := List.range m) (b := i) (e := e) (List.mem_range.2 hi)]
    · rw [ga1.getMany ga2 (.seq []) (fun _ => hi), gb1.getMany gb2 (.seq []) (fun _ => hi)]
      simp only [bind, Except.bind, id, hp, hq, hraise]
    · intro j hj e' he'
      rw [List.mem_range] at hj
      rw [ga1.getMany ga2 (.seq []) (fun _ => hj), gb1.getMany gb2 (.seq []) (fun _ => hj)] at he'
      exact hall _ _ _ he'

/-- **C73.** `zip` pairs the items. -/
theorem C73_zip {m : Nat} {a b : NdSpec α} (ha : Indexed m a) (hb : Indexed m b) :
    ∃ r, NdSpec.zip2 a b = .ok r ∧
      ∀ i : Nat, i < m → ∃ p q, a.get i = .ok p ∧ b.get i = .ok q ∧ r.get i = .ok (.seq [p, q]) := by
  obtain ⟨r, h1, _, h3⟩ := C73_apply ha hb (fun p q => .seq [p, q])
  exact ⟨r, h1, h3⟩

/-- **C73.** Lists of different length are rejected with ValueError, whatever the function. -/
theorem C73_incompatible {m n : Nat} (hmn : m ≠ n) {a : NdSpec α} {b : NdSpec β} (ha : Indexed m a) (hb : Indexed n b)
    (ha' : a.indexPos = 1) (hb' : b.indexPos = 1) (func : Py α → Py β → Except Err (Py γ)) :
    NdSpec.apply2 func a b = .error .value := by
  have e1 : a.indexShape = [(m : Int)] := by
    rcases ha with h | ⟨l, r, _, h2, h3, h4⟩
    · omega
    · rw [NdSpec.indexShape, h2, h3, h4]; rfl
  have e2 : b.indexShape = [(n : Int)] := by
    rcases hb with h | ⟨l, r, _, h2, h3, h4⟩
    · omega
    · rw [NdSpec.indexShape, h2, h3, h4]; rfl
  have h1 : ([(n : Int)] == [(m : Int)]) = false := by
    simp; omega
  have h2 : NdSpec.aggIndexShape [[(m : Int)], [(n : Int)]] = .error .value := by
    simp [NdSpec.aggIndexShape, h1]
  simp only [NdSpec.apply2, NdSpec.applyCore, e1, e2, h2]

/-- **C73**, any number of arguments: one list of length `m` and one of another length are enough for a ValueError -/
theorem C73_agg_incompatible {shapes : List (List Int)} {s t : List Int} (hs : s ∈ shapes) (ht : t ∈ shapes)
    (hs0 : s ≠ []) (ht0 : t ≠ []) (hne : s ≠ t) : NdSpec.aggIndexShape shapes = .error .value := by
  cases shapes with
  | nil => cases hs
  | cons u l =>
    rw [NdSpec.aggIndexShape, if_neg]
    · have hs' : s ∈ (u :: l).filter (· ≠ []) := List.mem_filter.2 ⟨hs, by simpa using hs0⟩
      have ht' : t ∈ (u :: l).filter (· ≠ []) := List.mem_filter.2 ⟨ht, by simpa using ht0⟩
      generalize (u :: l).filter (· ≠ []) = F at hs' ht'
      cases F with
      | nil => cases hs'
      | cons v F =>
        simp only
        rw [if_neg]
        intro hall
        rw [List.all_eq_true] at hall
        apply hne
        have key : ∀ w ∈ v :: F, w = v := by
          intro w hw
          rcases List.mem_cons.1 hw with rfl | hw
          · rfl
          · simpa using hall w hw
        rw [key s hs', key t ht']
    · intro hall
      rw [List.all_eq_true] at hall
      apply hne
      have key : ∀ w ∈ u :: l, w = u := by
        intro w hw
        rcases List.mem_cons.1 hw with rfl | hw
        · rfl
        · simpa using hall w hw
      rw [key s hs, key t ht]

/-- one item and a list of three -/
example : Indexed 3 (⟨.leaf (2 : Int), [], 0⟩ : NdSpec Int) ∧
    Indexed 3 (⟨.seq [.leaf 1, .leaf 5, .leaf (7 : Int)], [3], 1⟩ : NdSpec Int) :=
  ⟨Or.inl rfl, Or.inr ⟨_, [], rfl, rfl, rfl, rfl⟩⟩

/-! ## C74: axis arguments -/

/-- **C74** (valid arguments). `check_axes` returns the axes that are meant, all of them existing.

Missing for the full claim: invalid integers are not always rejected (`C74_int_false`, `C74_sequence_false`). -/
theorem C74_valid_partial {n : Nat} {ax : Axes} {axes : List Nat} (h : axesOf n ax = some axes) :
    checkAxes n ax = .ok (axes.map fun k : Nat => (k : Int)) ∧ ∀ k ∈ axes, k < n :=
  checkAxes_spec h

/-- **C74**: `None` and slices always give existing axes -/
theorem C74_slice (n : Nat) (s : PySlice) (hs : s.step ≠ 0) :
    ∃ axes : List Nat, checkAxes n (.slice s) = .ok (axes.map fun k : Nat => (k : Int)) ∧ ∀ k ∈ axes, k < n := by
  have : ∃ axes, axesOf n (.slice s) = some axes := by
    simp only [axesOf, if_neg hs]
    exact ⟨_, rfl⟩
  obtain ⟨axes, h⟩ := this
  exact ⟨axes, C74_valid_partial h⟩

/-- **C74**: sequences with an entry outside `[-ndim, ndim]` are rejected -/
theorem C74_sequence_rejects_partial {n : Nat} {l : List Int} {a : Int} (ha : a ∈ l) (hbad : a < -n ∨ (n : Int) < a) :
    checkAxes n (.seq l) = .error .assertion := by
  rw [checkAxes, if_neg]
  intro hall
  rw [List.all_eq_true] at hall
  have := hall _ (List.mem_map.2 ⟨a, ha, rfl⟩)
  simp only [ge_iff_le, decide_eq_true_eq] at this
  split_ifs at this <;> omega

/-- **C74** is false: an integer is never validated -/
theorem C74_int_false : checkAxes 2 (.int 5) = .ok [5] ∧ checkAxes 2 (.int (-7)) = .ok [-5] := by decide

/-- **C74** is false: `ndim` itself is accepted in a sequence -/
theorem C74_sequence_false : checkAxes 2 (.seq [0, 2]) = .ok [0, 2] := by decide

/-- the last two axes of a rank 4 tensor -/
example : axesOf 4 (.seq [-2, 3]) = some [2, 3] := by decide

end TI
