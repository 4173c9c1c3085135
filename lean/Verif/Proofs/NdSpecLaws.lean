import Verif.Proofs.SpecForms

/-!
# How specifications behave: one item for all indices, or a list of items

`IsSpec s f g` says the stored object `s` holds the items `f b`, either a single one or a list.
-/

namespace TI
open Spec

variable {α β γ δ ε : Type}

/-- the object `s` stores the value described by `g`; `f` turns a value into a Python item -/
def IsSpec (s : NdSpec α) (f : β → Py α) : Given β → Prop
  | .one b => s.data = f b ∧ s.indexPos = 0
  | .many l => s.data = .seq (l.map f) ∧ s.indexPos = 1 ∧ ∃ r, s.shape = (l.length : Int) :: r

/-- values for every index -/
def Spec.Given.map (F : β → γ) : Given β → Given γ
  | .one b => .one (F b)
  | .many l => .many (l.map F)

/-- combine settings entry by entry; a list as soon as one of them is a list -/
def Spec.Given.zip (m : Nat) (F : β → γ → δ) (db : β) (dc : γ) (g : Given β) (h : Given γ) : Given δ :=
  if g.isMany || h.isMany then .many ((List.range m).map fun i => F (g.entry db i) (h.entry dc i))
  else .one (F (g.entry db 0) (h.entry dc 0))

theorem isSpec_specOf (item : List Int) (f : β → Py α) (g : Given β) : IsSpec (specOf item f g) f g := by
  cases g with
  | one b => exact ⟨rfl, rfl⟩
  | many l => exact ⟨rfl, rfl, _, rfl⟩

theorem getRagged_head (l : List (Py α)) : ∃ r, getRagged true (.seq l) = (.seq l, (l.length : Int) :: r) := by
  cases l with
  | nil => exact ⟨[], by rw [getRagged]; rfl⟩
  | cons b bs =>
    rw [getRagged]
    simp only
    split_ifs
    · exact ⟨_, rfl⟩
    · exact ⟨[], rfl⟩

theorem ofIndex_nil (d : Py α) : ∃ s, NdSpec.ofIndex [] d = .ok s ∧ s.data = d ∧ s.indexPos = 0 := by
  simp [NdSpec.ofIndex, NdSpec.indexShapeOK, getRagged_data]

theorem ofIndex_one (l : List (Py α)) {m : Int} (hm : m = l.length) :
    ∃ s, NdSpec.ofIndex [m] (.seq l) = .ok s ∧ s.data = .seq l ∧ s.indexPos = 1 ∧
      ∃ r, s.shape = (l.length : Int) :: r := by
  obtain ⟨r, hr⟩ := getRagged_head l
  refine ⟨⟨.seq l, (l.length : Int) :: r, 1⟩, ?_, rfl, rfl, r, rfl⟩
  simp [NdSpec.ofIndex, hr, hm, NdSpec.indexShapeOK]

theorem IsSpec.indexShape {s : NdSpec α} {f : β → Py α} {g : Given β} {m : Nat} (h : IsSpec s f g) (hg : g.Fits m) :
    s.indexShape = if g.isMany then [(m : Int)] else [] := by
  cases g with
  | one b => simp [NdSpec.indexShape, h.2, Given.isMany]
  | many l =>
    obtain ⟨_, h2, r, h3⟩ := h
    have : l.length = m := hg
    simp [NdSpec.indexShape, h2, h3, Given.isMany, this]

theorem IsSpec.isItem {s : NdSpec α} {f : β → Py α} {g : Given β} (h : IsSpec s f g) :
    s.isItem = !g.isMany := by
  cases g with
  | one b => simp [NdSpec.isItem, h.2, Given.isMany]
  | many l => simp [NdSpec.isItem, h.2.1, Given.isMany]

theorem pyIndex_nat {l : List β} {i : Nat} (h : i < l.length) : pyIndex l (i : Int) = .ok l[i] := by
  simp only [pyIndex]
  rw [if_neg (by omega), if_neg (by omega)]
  simp [h]

theorem IsSpec.get {s : NdSpec α} {f : β → Py α} {g : Given β} {m : Nat} (h : IsSpec s f g) (hg : g.Fits m) (d : β)
    {i : Nat} (hi : g.isMany = true → i < m) : s.get (i : Int) = .ok (f (g.entry d i)) := by
  cases g with
  | one b => simp [NdSpec.get, h.isItem, Given.isMany, h.1, Given.entry]
  | many l =>
    have hl : l.length = m := hg
    have hi := hi rfl
    rw [NdSpec.get, h.isItem]
    simp only [Given.isMany, Bool.not_true, Bool.false_eq_true, if_false, h.1, Py.index]
    rw [pyIndex_nat (by simpa [hl] using hi)]
    simp only [List.getElem_map, Given.entry, List.getD_eq_getElem?_getD]
    rw [List.getElem?_eq_getElem (by omega)]
    rfl

theorem IsSpec.getMany {s : NdSpec α} {f : β → Py α} {g : Given β} {m : Nat} (h : IsSpec s f g) (hg : g.Fits m) (d : β)
    {i : Nat} (hi : g.isMany = true → i < m) : s.getMany [(i : Int)] = .ok (f (g.entry d i)) := by
  have := h.get hg d hi
  rw [NdSpec.get] at this
  rw [NdSpec.getMany, h.indexShape hg]
  cases hm : g.isMany with
  | false =>
    rw [h.isItem, hm] at this ⊢
    simpa using this
  | true =>
    rw [h.isItem, hm] at this ⊢
    simp only [Bool.not_true, Bool.false_eq_true, if_false] at this ⊢
    simp only [if_true, List.length_singleton, gt_iff_lt, Nat.lt_irrefl, if_false, NdSpec.indexMany, this]

theorem sequence_map {l : List β} {F : β → Except Err γ} {G : β → γ} (h : ∀ b ∈ l, F b = .ok (G b)) :
    NdSpec.sequence (l.map F) = .ok (l.map G) := by
  induction l with
  | nil => rfl
  | cons b l ih =>
    rw [List.map_cons, h b (by simp), NdSpec.sequence, ih (fun c hc => h c (by simp [hc]))]
    rfl

theorem sequence_error {l : List β} {F : β → Except Err γ} {e : Err} {b : β} (hb : b ∈ l) (h : F b = .error e)
    (hall : ∀ b ∈ l, ∀ e', F b = .error e' → e' = e) : NdSpec.sequence (l.map F) = .error e := by
  induction l with
  | nil => simp at hb
  | cons c l ih =>
    rw [List.map_cons]
    cases hc : F c with
    | error e' => rw [NdSpec.sequence, hall c (by simp) e' hc]
    | ok v =>
      rw [NdSpec.sequence]
      rcases List.mem_cons.1 hb with rfl | hb
      · rw [h] at hc; cases hc
      · rw [ih hb (fun d hd => hall d (by simp [hd]))]

theorem IsSpec.len {s : NdSpec α} {f : β → Py α} {g : Given β} {m : Nat} (h : IsSpec s f g) (hg : g.Fits m) :
    s.len = if g.isMany then (m : Int) else 0 := by
  cases g with
  | one b => simp [NdSpec.len, h.isItem, Given.isMany]
  | many l =>
    have : l.length = m := hg
    obtain ⟨_, _, r, h3⟩ := id h
    simp [NdSpec.len, h.isItem, Given.isMany, h3, this]

theorem IsSpec.toList {s : NdSpec α} {f : β → Py α} {g : Given β} (h : IsSpec s f g) :
    s.toList = .ok (g.values.map f) := by
  cases g with
  | one b => simp [NdSpec.toList, h.isItem, Given.isMany, h.1, Given.values]
  | many l =>
    have hg : (Given.many l).Fits l.length := rfl
    rw [NdSpec.toList, h.isItem, h.len hg]
    simp only [Given.isMany, Bool.not_true, Bool.false_eq_true, if_false, if_true, Int.toNat_natCast, Given.values]
    cases hl : l with
    | nil => rfl
    | cons b bs =>
      rw [← hl]
      rw [sequence_map (G := fun i => f ((Given.many l).entry b i))
        (fun i hi => h.get hg b (fun _ => List.mem_range.1 hi))]
      congr 1
      apply List.ext_getElem (by simp)
      intro i h1 h2
      have : i < l.length := by simpa using h2
      simp [Given.entry, this]

/-- the depth `map` descends -/
theorem map_depth (s : NdSpec α) : s.shape.length - s.itemShape.length = s.indexShape.length := by
  simp only [NdSpec.itemShape, NdSpec.indexShape, List.length_drop, List.length_take]
  omega

theorem IsSpec.map {s : NdSpec α} {f : β → Py α} {g : Given β} (h : IsSpec s f g) {func : Py α → Except Err (Py γ)}
    {f' : δ → Py γ} {F : β → δ} (hF : ∀ b ∈ g.values, func (f b) = .ok (f' (F b))) :
    ∃ s', s.map func = .ok s' ∧ IsSpec s' f' (g.map F) := by
  rw [NdSpec.map, map_depth]
  cases g with
  | one b =>
    have hi := h.indexShape (m := 0) trivial
    simp only [Given.isMany, Bool.false_eq_true, if_false] at hi
    rw [hi, h.1]
    simp only [List.length_nil, recApply]
    rw [hF b (by simp [Given.values])]
    obtain ⟨s', h1, h2, h3⟩ := ofIndex_nil (f' (F b))
    exact ⟨s', h1, h2, h3⟩
  | many l =>
    have hi := h.indexShape (m := l.length) rfl
    simp only [Given.isMany, if_true] at hi
    rw [hi, h.1]
    have hl : recApplyList func 0 (l.map f) = .ok (l.map fun b => f' (F b)) := by
      clear hi h
      induction l with
      | nil => simp [recApplyList]
      | cons b l ih =>
        rw [List.map_cons, recApplyList, recApply, hF b (by simp [Given.values]),
          ih (fun c hc => hF c (by simp [Given.values] at hc ⊢; exact Or.inr hc))]
        rfl
    simp only [List.length_singleton, recApply, hl]
    obtain ⟨s', h1, h2, h3, h4⟩ := ofIndex_one (l.map fun b => f' (F b)) (m := l.length) (by simp)
    refine ⟨s', h1, ?_, h3, ?_⟩
    · rw [h2]; simp [Function.comp_def]
    · simpa using h4

/-- one index axis -/
theorem grid_one (at_ : List Int → Except Err (Py α)) (m : Nat) :
    NdSpec.grid at_ [(m : Int)] [] = match NdSpec.sequence ((List.range m).map fun (i : Nat) => at_ [(i : Int)]) with
      | .error e => .error e
      | .ok l => .ok (.seq l) := by
  simp only [NdSpec.grid, Int.toNat_natCast, List.nil_append]
  split <;> simp [*]

theorem any_neg_one (m : Nat) : ([(m : Int)].any (· < 0)) = false := by simp

theorem applyCore_eq {shapes : List (List Int)} {m : Nat} (hne : shapes ≠ [])
    (h : ∀ s ∈ shapes, s = [] ∨ s = [(m : Int)]) {f' : δ → Py α} {W : δ} {R : Nat → δ}
    {whole : Except Err (Py α)} {row : List Int → Except Err (Py α)}
    (hw : shapes.all (· == []) = true → whole = .ok (f' W))
    (hr : shapes.all (· == []) = false → ∀ i : Nat, i < m → row [(i : Int)] = .ok (f' (R i))) :
    ∃ s, NdSpec.applyCore shapes whole row = .ok s ∧
      IsSpec s f' (if shapes.all (· == []) then .one W else .many ((List.range m).map R)) := by
  simp only [NdSpec.applyCore, aggIndexShape_two hne h]
  cases hc : shapes.all (· == []) with
  | true =>
    simp only [if_true, hw hc]
    obtain ⟨s', h1, h2, h3⟩ := ofIndex_nil (f' W)
    exact ⟨s', h1, h2, h3⟩
  | false =>
    simp only [Bool.false_eq_true, if_false, any_neg_one, grid_one]
    rw [sequence_map (G := fun i => f' (R i)) (fun i hi => hr hc i (List.mem_range.1 hi))]
    obtain ⟨s', h1, h2, h3, h4⟩ := ofIndex_one ((List.range m).map fun i => f' (R i)) (m := m) (by simp)
    refine ⟨s', h1, ?_, h3, ?_⟩
    · rw [h2]; simp [Function.comp_def]
    · simpa using h4

/-- the index shapes of two fitting specifications -/
theorem fits_shape {s : NdSpec α} {f : β → Py α} {g : Given β} {m : Nat} (h : IsSpec s f g) (hg : g.Fits m) :
    s.indexShape = [] ∨ s.indexShape = [(m : Int)] := by
  rw [h.indexShape hg]
  split_ifs <;> simp

theorem indexShape_beq {s : NdSpec α} {f : β → Py α} {g : Given β} {m : Nat} (h : IsSpec s f g) (hg : g.Fits m) :
    (s.indexShape == []) = !g.isMany := by
  rw [h.indexShape hg]
  cases g.isMany <;> simp

theorem IsSpec.data_one {s : NdSpec α} {f : β → Py α} {g : Given β} (h : IsSpec s f g) (hg : g.isMany = false) (d : β) :
    s.data = f (g.entry d 0) := by
  cases g with
  | one b => exact h.1
  | many l => cases hg

theorem apply2_spec {ε' : Type} {a : NdSpec α} {b : NdSpec β} {fa : γ → Py α} {fb : δ → Py β} {ga : Given γ} {gb : Given δ}
    {m : Nat} (ha : IsSpec a fa ga) (hb : IsSpec b fb gb) (ga' : ga.Fits m) (gb' : gb.Fits m)
    {func : Py α → Py β → Except Err (Py ε)} {f' : ε' → Py ε} {F : γ → δ → ε'} (da : γ) (db : δ)
    (hF : ∀ i, (ga.isMany = true ∨ gb.isMany = true → i < m) →
      func (fa (ga.entry da i)) (fb (gb.entry db i)) = .ok (f' (F (ga.entry da i) (gb.entry db i)))) :
    ∃ s, NdSpec.apply2 func a b = .ok s ∧ IsSpec s f' (Given.zip m F da db ga gb) := by
  rw [NdSpec.apply2]
  have hall : [a.indexShape, b.indexShape].all (· == []) = !(ga.isMany || gb.isMany) := by
    simp only [List.all_cons, List.all_nil, indexShape_beq ha ga', indexShape_beq hb gb', Bool.and_true, Bool.not_or]
  obtain ⟨s, h1, h2⟩ := applyCore_eq (m := m) (shapes := [a.indexShape, b.indexShape]) (by simp)
    (by
      intro t ht
      simp only [List.mem_cons, List.not_mem_nil, or_false] at ht
      rcases ht with rfl | rfl
      · exact fits_shape ha ga'
      · exact fits_shape hb gb')
    (f' := f') (W := F (ga.entry da 0) (gb.entry db 0)) (R := fun i => F (ga.entry da i) (gb.entry db i))
    (whole := func a.data b.data) (row := fun i => do
      let p ← a.getMany i
      let q ← b.getMany i
      func p q)
    (by
      intro h
      rw [hall] at h
      simp only [Bool.not_eq_true', Bool.or_eq_false_iff] at h
      rw [ha.data_one h.1 da, hb.data_one h.2 db]
      exact hF 0 (by simp [h.1, h.2]))
    (by
      intro _ i hi
      simp only [ha.getMany ga' da (fun _ => hi), hb.getMany gb' db (fun _ => hi), bind, Except.bind]
      exact hF i (fun _ => hi))
  refine ⟨s, h1, ?_⟩
  rw [hall] at h2
  rw [Given.zip]
  cases hh : (ga.isMany || gb.isMany) <;> simpa [hh] using h2

theorem apply3_spec {Ta Tb Tc Va Vb Vc ε ε' : Type}
    {a : NdSpec Ta} {b : NdSpec Tb} {c : NdSpec Tc} {fa : Va → Py Ta} {fb : Vb → Py Tb} {fc : Vc → Py Tc}
    {ga : Given Va} {gb : Given Vb} {gc : Given Vc} {m : Nat}
    (ha : IsSpec a fa ga) (hb : IsSpec b fb gb) (hc : IsSpec c fc gc)
    (ga' : ga.Fits m) (gb' : gb.Fits m) (gc' : gc.Fits m)
    {func : Py Ta → Py Tb → Py Tc → Except Err (Py ε)} {f' : ε' → Py ε}
    (da : Va) (db : Vb) (dc : Vc) (R : Nat → ε')
    (hR : ∀ i, ((ga.isMany || gb.isMany || gc.isMany) = true → i < m) → func (fa (ga.entry da i)) (fb (gb.entry db i)) (fc (gc.entry dc i)) = .ok (f' (R i))) :
    ∃ s, NdSpec.apply3 func a b c = .ok s ∧
      IsSpec s f' (if ga.isMany || gb.isMany || gc.isMany then .many ((List.range m).map R) else .one (R 0)) := by
  rw [NdSpec.apply3]
  have hall : [a.indexShape, b.indexShape, c.indexShape].all (· == []) = !(ga.isMany || gb.isMany || gc.isMany) := by
    simp only [List.all_cons, List.all_nil, indexShape_beq ha ga', indexShape_beq hb gb', indexShape_beq hc gc', Bool.and_true, Bool.not_or, Bool.and_assoc]
  obtain ⟨s, h1, h2⟩ := applyCore_eq (m := m) (shapes := [a.indexShape, b.indexShape, c.indexShape]) (by simp)
    (by
      intro t ht
      simp only [List.mem_cons, List.not_mem_nil, or_false] at ht
      rcases ht with rfl | rfl | rfl
      · exact fits_shape ha ga'
      · exact fits_shape hb gb'
      · exact fits_shape hc gc')
    (f' := f') (W := R 0) (R := R) (whole := func a.data b.data c.data) (row := fun i => do
      let pa ← a.getMany i
      let pb ← b.getMany i
      let pc ← c.getMany i
      func pa pb pc)
    (by
      intro h
      rw [hall] at h
      have hz := h
      simp only [Bool.not_eq_true', Bool.or_eq_false_iff] at h
      rw [ha.data_one h.1.1 da, hb.data_one h.1.2 db, hc.data_one h.2 dc]
      exact hR 0 (by rw [Bool.not_eq_true'] at hz; rw [hz]; intro hc; cases hc))
    (by
      intro _ i hi
      simp only [ha.getMany ga' da (fun _ => hi), hb.getMany gb' db (fun _ => hi), hc.getMany gc' dc (fun _ => hi), bind, Except.bind]
      exact hR i (fun _ => hi))
  refine ⟨s, h1, ?_⟩
  rw [hall] at h2
  cases hh : (ga.isMany || gb.isMany || gc.isMany) <;> simpa [hh] using h2

theorem apply4_spec {Ta Tb Tc Td Va Vb Vc Vd ε ε' : Type}
    {a : NdSpec Ta} {b : NdSpec Tb} {c : NdSpec Tc} {d : NdSpec Td} {fa : Va → Py Ta} {fb : Vb → Py Tb} {fc : Vc → Py Tc} {fd : Vd → Py Td}
    {ga : Given Va} {gb : Given Vb} {gc : Given Vc} {gd : Given Vd} {m : Nat}
    (ha : IsSpec a fa ga) (hb : IsSpec b fb gb) (hc : IsSpec c fc gc) (hd : IsSpec d fd gd)
    (ga' : ga.Fits m) (gb' : gb.Fits m) (gc' : gc.Fits m) (gd' : gd.Fits m)
    {func : Py Ta → Py Tb → Py Tc → Py Td → Except Err (Py ε)} {f' : ε' → Py ε}
    (da : Va) (db : Vb) (dc : Vc) (dd : Vd) (R : Nat → ε')
    (hR : ∀ i, ((ga.isMany || gb.isMany || gc.isMany || gd.isMany) = true → i < m) → func (fa (ga.entry da i)) (fb (gb.entry db i)) (fc (gc.entry dc i)) (fd (gd.entry dd i)) = .ok (f' (R i))) :
    ∃ s, NdSpec.apply4 func a b c d = .ok s ∧
      IsSpec s f' (if ga.isMany || gb.isMany || gc.isMany || gd.isMany then .many ((List.range m).map R) else .one (R 0)) := by
  rw [NdSpec.apply4]
  have hall : [a.indexShape, b.indexShape, c.indexShape, d.indexShape].all (· == []) = !(ga.isMany || gb.isMany || gc.isMany || gd.isMany) := by
    simp only [List.all_cons, List.all_nil, indexShape_beq ha ga', indexShape_beq hb gb', indexShape_beq hc gc', indexShape_beq hd gd', Bool.and_true, Bool.not_or, Bool.and_assoc]
  obtain ⟨s, h1, h2⟩ := applyCore_eq (m := m) (shapes := [a.indexShape, b.indexShape, c.indexShape, d.indexShape]) (by simp)
    (by
      intro t ht
      simp only [List.mem_cons, List.not_mem_nil, or_false] at ht
      rcases ht with rfl | rfl | rfl | rfl
      · exact fits_shape ha ga'
      · exact fits_shape hb gb'
      · exact fits_shape hc gc'
      · exact fits_shape hd gd')
    (f' := f') (W := R 0) (R := R) (whole := func a.data b.data c.data d.data) (row := fun i => do
      let pa ← a.getMany i
      let pb ← b.getMany i
      let pc ← c.getMany i
      let pd ← d.getMany i
      func pa pb pc pd)
    (by
      intro h
      rw [hall] at h
      have hz := h
      simp only [Bool.not_eq_true', Bool.or_eq_false_iff] at h
      rw [ha.data_one h.1.1.1 da, hb.data_one h.1.1.2 db, hc.data_one h.1.2 dc, hd.data_one h.2 dd]
      exact hR 0 (by rw [Bool.not_eq_true'] at hz; rw [hz]; intro hc; cases hc))
    (by
      intro _ i hi
      simp only [ha.getMany ga' da (fun _ => hi), hb.getMany gb' db (fun _ => hi), hc.getMany gc' dc (fun _ => hi), hd.getMany gd' dd (fun _ => hi), bind, Except.bind]
      exact hR i (fun _ => hi))
  refine ⟨s, h1, ?_⟩
  rw [hall] at h2
  cases hh : (ga.isMany || gb.isMany || gc.isMany || gd.isMany) <;> simpa [hh] using h2

end TI
