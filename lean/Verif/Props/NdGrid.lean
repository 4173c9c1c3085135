import Verif.Props.NdSpec

/-!
# C125: specifications with several index axes

`NdSpec` allows items to be arranged along any number of index axes.  `map`, `apply` and `zip` act on the item at every
index tuple.
-/

namespace TI
open Spec

variable {α β γ : Type}

/-! ## specification: nested lists with several outer levels -/

/-- the outer levels of `a` are lists of the lengths `ms`; nothing is said about what they contain -/
def Spec.Levels : List Nat → Py α → Prop
  | [], _ => True
  | _ :: _, .leaf _ => False
  | m :: ms, .seq l => l.length = m ∧ ∀ b ∈ l, Spec.Levels ms b

/-- what is found by going down the lists along `key` -/
def Spec.itemAt : Py α → List Nat → Option (Py α)
  | p, [] => some p
  | .leaf _, _ :: _ => none
  | .seq l, i :: key => match l[i]? with
    | some b => Spec.itemAt b key
    | none => none

/-- a stored specification: one item for all index tuples, or one item for every index tuple of the shape `ms` -/
def Spec.Grid (ms : List Nat) (s : NdSpec α) : Prop :=
  s.indexPos = 0 ∨
    (Levels ms s.data ∧ s.indexPos = ms.length ∧ ∃ r, s.shape = ms.map (fun n : Nat => (n : Int)) ++ r)

/-- an index tuple as Python integers -/
abbrev ikey (key : List Nat) : List Int := key.map fun n : Nat => (n : Int)

/-! ## proofs -/

theorem Spec.Levels.item : ∀ {ms : List Nat} {a : Py α} {key : List Nat}, Levels ms a → InB ms key → ∃ p, itemAt a key = some p
  | [], a, [], _, _ => ⟨a, by cases a <;> rfl⟩
  | m :: ms, .seq l, i :: key, h, hk => by
    have hi : i < l.length := by rw [h.1]; exact hk.1
    obtain ⟨p, hp⟩ := Levels.item (h.2 l[i] (List.getElem_mem hi)) hk.2
    exact ⟨p, by rw [itemAt, List.getElem?_eq_getElem hi]; exact hp⟩
  | m :: ms, .leaf _, _ :: _, h, _ => h.elim
  | [], _, _ :: _, _, hk => hk.elim
  | _ :: _, _, [], _, hk => hk.elim

theorem indexMany_item : ∀ {a p : Py α} {key : List Nat}, itemAt a key = some p → NdSpec.indexMany a (ikey key) = .ok p
  | a, p, [], h => by
    have : a = p := by cases a <;> simpa [itemAt] using h
    rw [this]; rfl
  | .leaf _, _, _ :: _, h => by cases h
  | .seq l, p, i :: key, h => by
    rw [itemAt] at h
    cases hl : l[i]? with
    | none => rw [hl] at h; cases h
    | some b =>
      rw [hl] at h
      obtain ⟨hi, hb⟩ := List.getElem?_eq_some_iff.1 hl
      simp only [ikey, List.map_cons, NdSpec.indexMany, Py.index, pyIndex_nat hi]
      rw [hb]
      exact indexMany_item h

theorem Spec.Grid.indexShape {ms : List Nat} {s : NdSpec α} (h : Grid ms s) : s.indexShape = [] ∨ s.indexShape = ikey ms := by
  rcases h with h | ⟨_, h2, r, h3⟩
  · left; simp [NdSpec.indexShape, h]
  · right; rw [NdSpec.indexShape, h2, h3, List.take_left' (by simp)]

/-- what is read from a grid -/
def gridItem (s : NdSpec α) (key : List Nat) : Py α := if s.indexPos = 0 then s.data else (itemAt s.data key).getD (.seq [])

theorem Spec.Grid.getMany {ms : List Nat} {s : NdSpec α} (h : Grid ms s) {key : List Nat} (hk : InB ms key) :
    s.getMany (ikey key) = .ok (gridItem s key) := by
  rw [NdSpec.getMany, gridItem]
  by_cases h0 : s.indexPos = 0
  · simp [NdSpec.isItem, h0]
  · rcases h with h | ⟨h1, h2, r, h3⟩
    · exact absurd h h0
    · obtain ⟨p, hp⟩ := Levels.item h1 hk
      have hl : s.indexShape.length = ms.length := by
        rw [NdSpec.indexShape, h2, h3, List.take_left' (by simp)]; simp
      rw [if_neg (by simpa [NdSpec.isItem] using h0), if_neg (by rw [hl]; simp [ikey, hk.length_eq]), if_neg h0, indexMany_item hp,
        hp]
      rfl

/-- nested lists of given values -/
def nest : List Nat → (List Nat → Py α) → Py α
  | [], R => R []
  | m :: ms, R => .seq ((List.range m).map fun i => nest ms fun key => R (i :: key))

theorem nest_levels : ∀ (ms : List Nat) (R : List Nat → Py α), Levels ms (nest ms R)
  | [], _ => trivial
  | m :: ms, R => by
    refine ⟨by simp, ?_⟩
    intro b hb
    obtain ⟨i, _, rfl⟩ := List.mem_map.1 hb
    exact nest_levels ms _

theorem nest_item : ∀ {ms key : List Nat} (R : List Nat → Py α), InB ms key → itemAt (nest ms R) key = some (R key)
  | [], [], R, _ => by
    rw [nest]; cases R [] <;> rfl
  | m :: ms, i :: key, R, hk => by
    have hi : i < m := hk.1
    rw [nest, itemAt]
    simp only [List.getElem?_map, List.getElem?_range hi, Option.map_some]
    exact nest_item _ hk.2
  | [], _ :: _, _, hk => hk.elim
  | _ :: _, [], _, hk => hk.elim

theorem grid_nest (at_ : List Int → Except Err (Py α)) : ∀ (ms : List Nat) (pre : List Int) (R : List Nat → Py α),
    (∀ key, InB ms key → at_ (pre ++ ikey key) = .ok (R key)) → NdSpec.grid at_ (ikey ms) pre = .ok (nest ms R)
  | [], pre, R, h => by simpa [NdSpec.grid, nest, ikey] using h [] trivial
  | m :: ms, pre, R, h => by
    simp only [ikey, List.map_cons, NdSpec.grid, Int.toNat_natCast]
    rw [sequence_map (G := fun i => nest ms fun key => R (i :: key))]
    · rfl
    · intro i hi
      refine grid_nest at_ ms _ _ ?_
      intro key hk
      rw [List.append_assoc]
      exact h (i :: key) ⟨List.mem_range.1 hi, hk⟩

theorem aggIndexShape_same {shapes : List (List Int)} {m : List Int} (hne : shapes ≠ [])
    (h : ∀ s ∈ shapes, s = [] ∨ s = m) :
    NdSpec.aggIndexShape shapes = .ok (if shapes.all (· == []) then [] else m) := by
  cases shapes with
  | nil => exact absurd rfl hne
  | cons s l =>
    rw [NdSpec.aggIndexShape]
    split_ifs with h1 h2 h2
    · simp only [List.all_cons, Bool.and_eq_true, beq_iff_eq] at h2
      rw [h2.1]
    · rcases h s (by simp) with rfl | rfl
      · exfalso; apply h2; simpa using h1
      · rfl
    · exfalso
      simp only [List.all_cons, Bool.and_eq_true, beq_iff_eq] at h2
      apply h1
      rw [h2.1]; exact h2.2
    · have hf : ∀ t ∈ (s :: l).filter (· ≠ []), t = m := by
        intro t ht
        rw [List.mem_filter] at ht
        rcases h t ht.1 with rfl | h
        · simp at ht
        · exact h
      have hn : (s :: l).filter (· ≠ []) ≠ [] := by
        intro h0
        apply h2
        rw [List.all_eq_true]
        intro t ht
        by_contra hc
        have : t ∈ (s :: l).filter (· ≠ []) := List.mem_filter.2 ⟨ht, by simpa using hc⟩
        rw [h0] at this
        cases this
      generalize (s :: l).filter (· ≠ []) = F at hf hn
      cases F with
      | nil => exact absurd rfl hn
      | cons t ts =>
        have : ts.all (· == t) = true := by
          rw [List.all_eq_true]
          intro u hu
          simp [hf t (by simp), hf u (by simp [hu])]
        simp only [this, if_true]
        rw [hf t (by simp)]

theorem levelShapes_prefix {shapes : List (List Int)} {p : List Int} {d : Nat} (hne : shapes ≠ [])
    (h : ∀ t ∈ shapes, ∃ r, t = p ++ r) : ∃ r, r.length = d ∧ levelShapes (p.length + d) shapes = p ++ r := by
  refine ⟨(List.range d).map fun i => commonLen (shapes.map fun s => s.getD (p.length + i) 0), by simp, ?_⟩
  rw [levelShapes, List.range_add, List.map_append, List.map_map]
  congr 1
  apply List.ext_getElem (by simp)
  intro i h1 h2
  simp only [List.getElem_map, List.getElem_range]
  rw [commonLen_const (a := p[i]) (by simpa using hne)]
  intro b hb
  obtain ⟨t, ht, rfl⟩ := List.mem_map.1 hb
  obtain ⟨r, rfl⟩ := h t ht
  simp [List.getD_eq_getElem?_getD, List.getElem?_append_left h2, List.getElem?_eq_getElem h2]

/-- the shape of nested lists begins with the lengths of the outer levels -/
theorem ragged_levels {d : Nat} : ∀ {ms : List Nat} {a : Py α}, (∀ n ∈ ms, 0 < n) → Levels ms a →
    (∀ key p, InB ms key → itemAt a key = some p → (getRagged true p).2.length = d) →
    ∃ r, r.length = d ∧ (getRagged true a).2 = ikey ms ++ r
  | [], a, _, _, h => ⟨_, h [] a trivial (by cases a <;> rfl), rfl⟩
  | m :: ms, .seq [], hp, h, _ => by
    have := hp m (by simp)
    have h1 := h.1
    simp at h1
    omega
  | m :: ms, .seq (b :: bs), hp, h, hd => by
    have hr : ∀ c ∈ b :: bs, ∃ r, r.length = d ∧ (getRagged true c).2 = ikey ms ++ r := by
      intro c hc
      refine ragged_levels (fun n hn => hp n (by simp [hn])) (h.2 c hc) ?_
      intro key p hk hpp
      obtain ⟨i, hi, rfl⟩ := List.getElem_of_mem hc
      refine hd (i :: key) p ⟨by rw [← h.1]; exact hi, hk⟩ ?_
      rw [itemAt, List.getElem?_eq_getElem hi]
      exact hpp
    have hlen : ∀ s ∈ (getRaggedList true (b :: bs)).map Prod.snd, s.length = ms.length + d ∧ ∃ r, s = ikey ms ++ r := by
      intro s hs
      rw [getRaggedList_eq, List.map_map] at hs
      obtain ⟨c, hc, rfl⟩ := List.mem_map.1 hs
      obtain ⟨r, r1, r2⟩ := hr c hc
      refine ⟨?_, r, r2⟩
      simp only [Function.comp_apply]
      rw [r2]; simp [ikey, r1]
    have hne : (getRaggedList true (b :: bs)).map Prod.snd ≠ [] := by rw [getRaggedList_eq]; simp
    have hhead : ((getRaggedList true (b :: bs)).map Prod.snd).headD [] ∈ (getRaggedList true (b :: bs)).map Prod.snd := by
      rw [getRaggedList_eq]; simp
    have hsame : sameLength ((getRaggedList true (b :: bs)).map Prod.snd) = true := by
      rw [sameLength_iff]
      intro s hs
      rw [(hlen s hs).1, (hlen _ hhead).1]
    rw [getRagged]
    simp only [hsame, if_true]
    rw [(hlen _ hhead).1]
    obtain ⟨r, r1, r2⟩ := levelShapes_prefix (p := ikey ms) (d := d) hne (fun t ht => (hlen t ht).2)
    refine ⟨r, r1, ?_⟩
    rw [show ms.length = (ikey ms).length by simp [ikey], r2]
    have := h.1
    simp only [List.length_cons] at this
    simp [ikey, ← this]

theorem indexShapeOK_prefix : ∀ (ms : List Nat) (r : List Int), NdSpec.indexShapeOK (ikey ms ++ r) (ikey ms) = .ok true
  | [], r => by cases r <;> rfl
  | m :: ms, r => by
    have := indexShapeOK_prefix ms r
    simp only [ikey, List.map_cons, List.cons_append, NdSpec.indexShapeOK]
    rw [if_neg (by omega)]
    simpa using this

/-- a nested list of results becomes a specification with the same index axes -/
theorem ofIndex_grid {D : Nat} {ms : List Nat} {R : List Nat → Py α} (hp : ∀ n ∈ ms, 0 < n)
    (hD : ∀ key, InB ms key → UniformDepth D (R key)) :
    ∃ s, NdSpec.ofIndex (ikey ms) (nest ms R) = .ok s ∧ Grid ms s ∧ s.indexPos = ms.length ∧ s.data = nest ms R := by
  obtain ⟨r, _, hr⟩ := ragged_levels (d := D) (a := nest ms R) hp (nest_levels ms R) (by
    intro key p hk hpp
    rw [nest_item R hk, Option.some.injEq] at hpp
    rw [← hpp, getRagged_uniformDepth true (hD key hk)]
    simp [raggedShape])
  have hs : NdSpec.ofIndex (ikey ms) (nest ms R) = .ok ⟨nest ms R, ikey ms ++ r, ms.length⟩ := by
    simp only [NdSpec.ofIndex, hr, indexShapeOK_prefix, getRagged_data]
    simp [ikey]
  exact ⟨_, hs, Or.inr ⟨nest_levels ms R, rfl, r, rfl⟩, rfl, rfl⟩

theorem any_neg_ikey (ms : List Nat) : (ikey ms).any (· < 0) = false := by
  rw [List.any_eq_false]
  intro x hx
  obtain ⟨n, _, rfl⟩ := List.mem_map.1 hx
  simp

theorem applyCore_grid {D : Nat} {shapes : List (List Int)} {ms : List Nat} (hne : shapes ≠ []) (hp : ∀ n ∈ ms, 0 < n)
    (h : ∀ s ∈ shapes, s = [] ∨ s = ikey ms) {whole : Except Err (Py α)} {at_ : List Int → Except Err (Py α)}
    {R : List Nat → Py α} {W : Py α} (hw : whole = .ok W)
    (hall : shapes.all (· == []) = true → ∀ key, InB ms key → R key = W)
    (hr : ∀ key, InB ms key → at_ (ikey key) = .ok (R key)) (hD : ∀ key, InB ms key → UniformDepth D (R key)) :
    ∃ s, NdSpec.applyCore shapes whole at_ = .ok s ∧ Grid ms s ∧ ∀ key, InB ms key → s.getMany (ikey key) = .ok (R key) := by
  have hitem : ∀ {s : NdSpec α} {key : List Nat}, s.indexPos = 0 → s.getMany (ikey key) = .ok s.data := by
    intro s key h0
    simp [NdSpec.getMany, NdSpec.isItem, h0]
  simp only [NdSpec.applyCore, aggIndexShape_same hne h]
  by_cases hc : shapes.all (· == []) = true
  · rw [if_pos hc]
    simp only [hw]
    obtain ⟨s, h1, h2, h3⟩ := ofIndex_nil W
    exact ⟨s, h1, Or.inl h3, fun key hk => by rw [hitem h3, h2, hall hc key hk]⟩
  · rw [if_neg hc]
    cases ms with
    | nil =>
      exfalso
      apply hc
      rw [List.all_eq_true]
      intro s hs
      rcases h s hs with rfl | rfl <;> rfl
    | cons m ms =>
      have hg := grid_nest at_ (m :: ms) [] R (by simpa using hr)
      have hneg := any_neg_ikey (m :: ms)
      simp only [ikey, List.map_cons] at hg hneg ⊢
      simp only [hg, hneg, Bool.false_eq_true, if_false]
      obtain ⟨s, h1, h2, h3, h4⟩ := ofIndex_grid (R := R) hp hD
      refine ⟨s, h1, h2, ?_⟩
      intro key hk
      rw [h2.getMany hk, gridItem, if_neg (by rw [h3]; simp), h4, nest_item R hk]
      rfl

/-- **C125** (apply). Item-wise application along any number of index axes: the item at an index tuple is the function of
the items at that tuple.  The results must have one common number of axes. -/
theorem C125_apply {D : Nat} {ms : List Nat} (hp : ∀ n ∈ ms, 0 < n) {a : NdSpec α} {b : NdSpec β} (ha : Grid ms a)
    (hb : Grid ms b) (F : Py α → Py β → Py γ)
    (hD : ∀ key p q, InB ms key → a.getMany (ikey key) = .ok p → b.getMany (ikey key) = .ok q → UniformDepth D (F p q)) :
    ∃ r, NdSpec.apply2 (fun p q => .ok (F p q)) a b = .ok r ∧ Grid ms r ∧
      ∀ key, InB ms key → ∃ p q, a.getMany (ikey key) = .ok p ∧ b.getMany (ikey key) = .ok q ∧
        r.getMany (ikey key) = .ok (F p q) := by
  rw [NdSpec.apply2]
  obtain ⟨r, h1, h2, h3⟩ := applyCore_grid (D := D) (shapes := [a.indexShape, b.indexShape]) (ms := ms) (by simp) hp
    (by
      intro t ht
      simp only [List.mem_cons, List.not_mem_nil, or_false] at ht
      rcases ht with rfl | rfl
      · exact ha.indexShape
      · exact hb.indexShape)
    (whole := .ok (F a.data b.data)) (W := F a.data b.data) (R := fun key => F (gridItem a key) (gridItem b key))
    (at_ := fun i => do
      let p ← a.getMany i
      let q ← b.getMany i
      .ok (F p q)) rfl
    (by
      intro h key hk
      simp only [List.all_cons, List.all_nil, Bool.and_true, Bool.and_eq_true, beq_iff_eq] at h
      have key0 : ∀ {δ : Type} {s : NdSpec δ}, Grid ms s → s.indexShape = [] → gridItem s key = s.data := by
        intro δ s hs h0
        rw [gridItem]
        split_ifs with hi
        · rfl
        · rcases hs with hs | ⟨_, s2, r, s3⟩
          · exact absurd hs hi
          · exfalso
            rw [NdSpec.indexShape, s2, s3, List.take_left' (by simp)] at h0
            apply hi
            rw [s2]
            simpa using congrArg List.length h0
      show F (gridItem a key) (gridItem b key) = F a.data b.data
      rw [key0 ha h.1, key0 hb h.2])
    (by
      intro key hk
      simp only [ha.getMany hk, hb.getMany hk, bind, Except.bind])
    (fun key hk => hD key _ _ hk (ha.getMany hk) (hb.getMany hk))
  exact ⟨r, h1, h2, fun key hk => ⟨_, _, ha.getMany hk, hb.getMany hk, h3 key hk⟩⟩

/-- **C125** (zip). Items of the same number of axes are paired at every index tuple. -/
theorem C125_zip {D : Nat} {ms : List Nat} (hp : ∀ n ∈ ms, 0 < n) {a b : NdSpec α} (ha : Grid ms a) (hb : Grid ms b)
    (hD : ∀ key p q, InB ms key → a.getMany (ikey key) = .ok p → b.getMany (ikey key) = .ok q → UniformDepth D p ∧ UniformDepth D q) :
    ∃ r, NdSpec.zip2 a b = .ok r ∧ Grid ms r ∧
      ∀ key, InB ms key → ∃ p q, a.getMany (ikey key) = .ok p ∧ b.getMany (ikey key) = .ok q ∧
        r.getMany (ikey key) = .ok (.seq [p, q]) :=
  C125_apply (D := D + 1) hp ha hb (fun p q => .seq [p, q]) fun key p q hk h1 h2 =>
    ⟨fun _ => by simp, by
      intro c hc
      simp only [List.mem_cons, List.not_mem_nil, or_false] at hc
      rcases hc with rfl | rfl
      · exact (hD key _ _ hk h1 h2).1
      · exact (hD key _ _ hk h1 h2).2⟩

mutual
theorem recApply_levels {F : Py α → Py β} : ∀ {ms : List Nat} {a : Py α}, Levels ms a →
    recApply (fun p => .ok (F p)) ms.length a = .ok (nest ms fun key => F ((itemAt a key).getD (.seq [])))
  | [], a, _ => by
    rw [List.length_nil, recApply, nest]
    cases a <;> rfl
  | _ :: _, .leaf _, h => h.elim
  | m :: ms, .seq l, h => by
    rw [List.length_cons, recApply, recApplyList_levels h.2]
    simp only
    rw [nest]
    congr 2
    apply List.ext_getElem (by simp [h.1])
    intro i h1 h2
    simp only [List.getElem_map, List.getElem_range]
    congr 1
    funext key
    rw [itemAt, List.getElem?_eq_getElem (by simpa using h1)]
theorem recApplyList_levels {F : Py α → Py β} : ∀ {ms : List Nat} {l : List (Py α)}, (∀ b ∈ l, Levels ms b) →
    recApplyList (fun p => .ok (F p)) ms.length l = .ok (l.map fun b => nest ms fun key => F ((itemAt b key).getD (.seq [])))
  | _, [], _ => by rw [recApplyList]; rfl
  | ms, b :: l, h => by
    rw [recApplyList, recApply_levels (h b (by simp)), recApplyList_levels (fun c hc => h c (by simp [hc]))]
    rfl
end

/-- **C125** (map). `map` along any number of index axes. -/
theorem C125_map {D : Nat} {ms : List Nat} (hp : ∀ n ∈ ms, 0 < n) {a : NdSpec α} (ha : Grid ms a) (F : Py α → Py β)
    (hD : ∀ key p, InB ms key → a.getMany (ikey key) = .ok p → UniformDepth D (F p)) :
    ∃ r, a.map (fun p => .ok (F p)) = .ok r ∧ Grid ms r ∧
      ∀ key, InB ms key → r.getMany (ikey key) = (a.getMany (ikey key)).map F := by
  rw [NdSpec.map, map_depth]
  by_cases h0 : a.indexPos = 0
  · have : a.indexShape = [] := by simp [NdSpec.indexShape, h0]
    rw [this]
    simp only [List.length_nil, recApply]
    obtain ⟨s, h1, h2, h3⟩ := ofIndex_nil (F a.data)
    refine ⟨s, h1, Or.inl h3, fun key _ => ?_⟩
    simp [NdSpec.getMany, NdSpec.isItem, h0, h3, h2, Except.map]
  · have hg := ha
    rcases ha with ha | ⟨h1, h2, r, h3⟩
    · exact absurd ha h0
    · have hs : a.indexShape = ikey ms := by rw [NdSpec.indexShape, h2, h3, List.take_left' (by simp)]
      have hi : ∀ key, gridItem a key = (itemAt a.data key).getD (.seq []) := fun key => by rw [gridItem, if_neg h0]
      rw [hs, show (ikey ms).length = ms.length by simp [ikey], recApply_levels h1]
      simp only
      obtain ⟨s, s1, s2, s3, s4⟩ := ofIndex_grid (D := D) (R := fun key => F ((itemAt a.data key).getD (.seq []))) hp
        (fun key hk => hD key _ hk (by rw [hg.getMany hk, hi]))
      refine ⟨s, s1, s2, fun key hk => ?_⟩
      rw [s2.getMany hk, gridItem, if_neg (by rw [s3, ← h2]; exact h0), s4, nest_item _ hk, hg.getMany hk, hi]
      rfl

/-- **C125** (ragged index axes). If lists at the same level have different lengths, the index shape has a negative entry;
`apply` then raises ValueError, whatever the function. -/
theorem C125_ragged {a : NdSpec α} {b : NdSpec β} {t : List Int} (h : ∀ s ∈ [a.indexShape, b.indexShape], s = [] ∨ s = t)
    (hany : a.indexShape = t ∨ b.indexShape = t) (hneg : ∃ n ∈ t, n < 0) (func : Py α → Py β → Except Err (Py γ)) :
    NdSpec.apply2 func a b = .error .value := by
  have ht : t ≠ [] := by
    rintro rfl
    obtain ⟨n, hn, _⟩ := hneg
    cases hn
  have hall : ¬ [a.indexShape, b.indexShape].all (· == []) = true := by
    intro hc
    simp only [List.all_cons, List.all_nil, Bool.and_true, Bool.and_eq_true, beq_iff_eq] at hc
    rcases hany with h1 | h1
    · exact ht (h1 ▸ hc.1)
    · exact ht (h1 ▸ hc.2)
  simp only [NdSpec.apply2, NdSpec.applyCore, aggIndexShape_same (by simp) h, if_neg hall]
  cases t with
  | nil => exact absurd rfl ht
  | cons m ms =>
    simp only
    rw [if_pos]
    rw [List.any_eq_true]
    obtain ⟨n, hn, h1⟩ := hneg
    exact ⟨n, hn, by simpa using h1⟩

/-- **C125** (different shapes). Two specifications with different index shapes are rejected with ValueError. -/
theorem C125_different {a : NdSpec α} {b : NdSpec β} (ha : a.indexShape ≠ []) (hb : b.indexShape ≠ [])
    (hne : a.indexShape ≠ b.indexShape) (func : Py α → Py β → Except Err (Py γ)) :
    NdSpec.apply2 func a b = .error .value := by
  have h := C73_agg_incompatible (shapes := [a.indexShape, b.indexShape]) (s := a.indexShape) (t := b.indexShape) (by simp)
    (by simp) ha hb hne
  simp only [NdSpec.apply2, NdSpec.applyCore, h]

theorem recExpand_keep : ∀ {ms s : List Nat} {a : Py α}, (∀ n ∈ ms ++ s, 0 < n) → HasShape (ms ++ s) a →
    recExpand (List.replicate ms.length (-1) ++ ikey s) a = .ok (a, ikey (ms ++ s), false)
  | [], s, a, hp, h => by simpa using recExpand_id hp h
  | m :: ms, s, .seq l, hp, h => by
    have hne : l ≠ [] := by
      intro hl
      have := hp m (by simp)
      have h1 := h.1
      rw [hl, List.length_nil] at h1
      omega
    rw [List.length_cons, List.replicate_succ, List.cons_append,
      recExpand_uniform hne (fun b hb => recExpand_keep (fun n hn => hp n (by simp at hn ⊢; exact Or.inr hn)) (h.2 b hb)) (Or.inl rfl),
      h.1]
    rfl

theorem hasShape_levels : ∀ {ms s : List Nat} {a : Py α}, HasShape (ms ++ s) a → Levels ms a
  | [], _, _, _ => trivial
  | _ :: _, _, .leaf _, h => h.elim
  | _ :: _, _, .seq _, h => ⟨h.1, fun b hb => hasShape_levels (h.2 b hb)⟩

theorem hasShape_item : ∀ {ms s : List Nat} {a p : Py α} {key : List Nat}, HasShape (ms ++ s) a → InB ms key →
    itemAt a key = some p → HasShape s p
  | [], s, a, p, [], h, _, hp => by
    have : a = p := by cases a <;> simpa [itemAt] using hp
    exact this ▸ h
  | m :: ms, s, .seq l, p, i :: key, h, hk, hp => by
    have hi : i < l.length := by rw [h.1]; exact hk.1
    rw [itemAt, List.getElem?_eq_getElem hi] at hp
    exact hasShape_item (h.2 l[i] (List.getElem_mem hi)) hk.2 hp
  | _ :: _, _, .leaf _, _, _ :: _, h, _, _ => h.elim
  | [], _, _, _, _ :: _, _, hk, _ => hk.elim
  | _ :: _, _, _, _, [], _, hk, _ => hk.elim

/-- **C125** (construction). Rectangular nested data of shape `ms ++ s`, given for the item shape `s`, is stored with the
index axes `ms`; the item at an index tuple is what is found there in the data, of shape `s`. -/
theorem C125_construct {ms s : List Nat} {a : Py α} (hp : ∀ n ∈ ms ++ s, 0 < n) (h : HasShape (ms ++ s) a) :
    ∃ sp, NdSpec.ofItem (ikey s) a = .ok sp ∧ Grid ms sp ∧ sp.indexShape = ikey ms ∧ sp.itemShape = ikey s ∧
      ∀ key, InB ms key → ∃ p, itemAt a key = some p ∧ HasShape s p ∧ sp.getMany (ikey key) = .ok p := by
  have hsp : NdSpec.ofItem (ikey s) a = .ok ⟨a, ikey (ms ++ s), ms.length⟩ := by
    rw [NdSpec.ofItem, getRagged_rect true hp h]
    simp only
    rw [expandRagged]
    by_cases hms : ms = []
    · subst hms
      simp [ikey]
    · have hl : 0 < ms.length := List.length_pos_iff.2 hms
      have hneq : (ms ++ s).map (fun n : Nat => (n : Int)) ≠ ikey s := by
        intro h0
        have := congrArg List.length h0
        simp [ikey] at this
        exact hms this
      rw [if_neg hneq, no_zeroLength hp]
      simp only [Bool.false_eq_true, if_false, ikey, List.length_map, List.length_append]
      rw [if_neg (by omega), if_neg (by omega), show ms.length + s.length - s.length = ms.length by omega]
      have := recExpand_keep hp h
      simp only [ikey] at this
      rw [this]
      simp
  have hg : Grid ms (⟨a, ikey (ms ++ s), ms.length⟩ : NdSpec α) :=
    Or.inr ⟨hasShape_levels h, rfl, ikey s, by simp [ikey]⟩
  refine ⟨_, hsp, hg, by simp [NdSpec.indexShape, ikey], by simp [NdSpec.itemShape, ikey], ?_⟩
  intro key hk
  obtain ⟨p, hpp⟩ := Levels.item (hasShape_levels h) hk
  refine ⟨p, hpp, hasShape_item h hk hpp, ?_⟩
  rw [hg.getMany hk, gridItem]
  split_ifs with h0
  · have : ms = [] := List.length_eq_zero_iff.1 h0
    subst this
    cases key with
    | nil =>
      have : a = p := by cases a <;> simpa [itemAt] using hpp
      rw [this]
    | cons _ _ => exact hk.elim
  · simp [hpp]

/-! ## cases -/

namespace GridExample

/-- `[[1, 2, 3], [4, 5, 6]]` -/
def data : Py Int := .seq [.seq [.leaf 1, .leaf 2, .leaf 3], .seq [.leaf 4, .leaf 5, .leaf 6]]

/-- `NdSpec(data, item_shape=())` -/
def spec : NdSpec Int := ⟨data, [2, 3], 2⟩

/-- the number in a leaf -/
def val : Py Int → Int
  | .leaf a => a
  | .seq _ => 0

end GridExample

open GridExample in
/-- the constructor produces the grid with two index axes -/
example : HasShape ([2, 3] ++ []) data ∧ NdSpec.ofItem [] data = .ok spec ∧ Grid [2, 3] spec := by
  have h : HasShape ([2, 3] ++ []) data := by simp [HasShape, data]
  refine ⟨h, ?_, Or.inr ⟨hasShape_levels h, rfl, [], rfl⟩⟩
  rw [NdSpec.ofItem]
  simp [data, getRagged, getRaggedList, sameLength, levelShapes, commonLen, expandRagged, zeroLengthBad, recExpand,
    recExpandList, spec]

open GridExample in
/-- item-wise sum of a grid and a single number: `[[11, 12, 13], [14, 15, 16]]` -/
example : ∃ r, NdSpec.apply2 (fun p q => .ok (.leaf (val p + val q))) spec ⟨.leaf 10, [], 0⟩ = .ok r ∧ Grid [2, 3] r ∧
    r.getMany [1, 2] = .ok (.leaf 16) := by
  obtain ⟨r, h1, h2, h3⟩ := C125_apply (D := 0) (ms := [2, 3]) (a := spec) (b := (⟨.leaf 10, [], 0⟩ : NdSpec Int))
    (by simp) (Or.inr ⟨by simp [Levels, spec, data], rfl, [], rfl⟩) (Or.inl rfl) (fun p q => .leaf (val p + val q))
    (fun _ _ _ _ _ _ => trivial)
  refine ⟨r, h1, h2, ?_⟩
  obtain ⟨p, q, hp, hq, hr⟩ := h3 [1, 2] (by simp [InB])
  have hp' : spec.getMany (ikey [1, 2]) = .ok (.leaf 6) := rfl
  have hq' : (⟨.leaf 10, [], 0⟩ : NdSpec Int).getMany (ikey [1, 2]) = .ok (.leaf 10) := rfl
  rw [hp'] at hp
  rw [hq'] at hq
  cases hp
  cases hq
  exact hr

/-- **C125** (results of different depth). The common number of axes is needed: if a function returns a list for one item and
a number for another one, `apply` with two index axes raises IndexError (with one index axis it does not, C73). -/
theorem C125_depth_conditions :
    ∃ F : Py Int → Py Int → Py Int,
      NdSpec.apply2 (fun p q => .ok (F p q)) (⟨.seq [.seq [.leaf 1], .seq [.leaf 2]], [2, 1], 2⟩ : NdSpec Int) ⟨.leaf 0, [], 0⟩ =
        .error .index := by
  refine ⟨fun p _ => match p with
    | .leaf 1 => .seq [.leaf 1]
    | _ => .leaf 2, ?_⟩
  simp [NdSpec.apply2, NdSpec.applyCore, NdSpec.aggIndexShape, NdSpec.indexShape, NdSpec.grid, NdSpec.getMany, NdSpec.isItem,
    NdSpec.indexMany, Py.index, pyIndex, List.range_succ, NdSpec.sequence, bind, Except.bind, NdSpec.ofIndex, getRagged,
    getRaggedList, sameLength, levelShapes, commonLen, NdSpec.indexShapeOK]

/-- the hypotheses of `C125_ragged` are met by `[[1], [2, 3]]` and the number 0 -/
example : NdSpec.ofItem [] (.seq [.seq [.leaf 1], .seq [.leaf 2, .leaf (3 : Int)]]) =
      .ok ⟨.seq [.seq [.leaf 1], .seq [.leaf 2, .leaf 3]], [2, -1], 2⟩ := by
  simp [NdSpec.ofItem, getRagged, getRaggedList, sameLength, levelShapes, commonLen, List.range_succ, expandRagged,
    zeroLengthBad, recExpand, recExpandList]

end TI
