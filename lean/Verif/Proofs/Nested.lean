import Verif.Spec.Nested
import Verif.Proofs.SpecForms

/-!
# `get_ragged_ndarray` and `expand_ragged_ndarray`
-/

namespace TI
open Spec

variable {α : Type}

theorem common_of_const {l : List Nat} {c : Nat} (hne : l ≠ []) (h : ∀ b ∈ l, b = c) : common l = c := by
  cases l with
  | nil => exact absurd rfl hne
  | cons a l =>
    have ha : a = c := h a (by simp)
    subst ha
    rw [common, if_pos (fun b hb => h b (by simp [hb]))]

theorem common_of_not_const {l : List Nat} (h : ¬ ∃ c, ∀ b ∈ l, b = c) : common l = -1 := by
  cases l with
  | nil => rfl
  | cons a l =>
    rw [common, if_neg]
    intro h'
    apply h
    exact ⟨a, fun b hb => by
      rcases List.mem_cons.1 hb with rfl | hb
      · rfl
      · exact h' b hb⟩

theorem const_of_common {l : List Nat} {c : Nat} (h : common l = c) : ∀ b ∈ l, b = c := by
  cases l with
  | nil => simp
  | cons a l =>
    rw [common] at h
    split_ifs at h with h'
    · have : a = c := by exact_mod_cast h
      subst this
      intro b hb
      rcases List.mem_cons.1 hb with rfl | hb
      · rfl
      · exact h' b hb

theorem common_flatMap {β : Type} {l : List β} {f : β → List Nat} (hne : l ≠ []) (hf : ∀ b ∈ l, f b ≠ []) :
    commonLen (l.map fun b => common (f b)) = common (l.flatMap f) := by
  by_cases h : ∃ c, ∀ b ∈ l.flatMap f, b = c
  · obtain ⟨c, hc⟩ := h
    rw [common_of_const (c := c) _ hc]
    · apply commonLen_const (by simpa using hne)
      intro v hv
      obtain ⟨b, hb, rfl⟩ := List.mem_map.1 hv
      exact common_of_const (hf b hb) (fun x hx => hc x (List.mem_flatMap.2 ⟨b, hb, hx⟩))
    · cases l with
      | nil => exact absurd rfl hne
      | cons b l =>
        have := hf b (by simp)
        simp [this]
  · rw [common_of_not_const h]
    cases l with
    | nil => exact absurd rfl hne
    | cons b l =>
      rw [List.map_cons, commonLen]
      split_ifs with hall
      · by_contra hne1
        apply h
        -- all values equal and not -1: the flattened list is constant
        have hcb : ∃ c : Nat, common (f b) = c := by
          cases hfb : f b with
          | nil => rw [hfb] at hne1; exact absurd rfl hne1
          | cons a l' =>
            rw [hfb, common] at hne1
            split_ifs at hne1 with h'
            · exact ⟨a, by rw [common, if_pos h']⟩
            · exact absurd rfl hne1
        obtain ⟨c, hc⟩ := hcb
        refine ⟨c, fun x hx => ?_⟩
        obtain ⟨b', hb', hx⟩ := List.mem_flatMap.1 hx
        have : common (f b') = c := by
          rcases List.mem_cons.1 hb' with rfl | hb'
          · exact hc
          · rw [List.all_eq_true] at hall
            have := hall (common (f b')) (List.mem_map.2 ⟨b', hb', rfl⟩)
            rw [beq_iff_eq] at this
            rw [this, hc]
        exact const_of_common this x hx
      · rfl

theorem levelLens_ne : ∀ {D : Nat} {a : Py α}, UniformDepth D a → ∀ i < D, levelLens i a ≠ []
  | 0, _, _, i, hi => by omega
  | D + 1, .leaf _, h, _, _ => h.elim
  | D + 1, .seq l, h, 0, _ => by simp [levelLens]
  | D + 1, .seq l, h, i + 1, hi => by
    have hl : l ≠ [] := h.1 (by omega)
    cases l with
    | nil => exact absurd rfl hl
    | cons b l =>
      have := levelLens_ne (h.2 b (by simp)) i (by omega)
      simp [levelLens, this]

theorem levelShapes_ragged {D : Nat} {l : List (Py α)} (hne : l ≠ []) (h : ∀ b ∈ l, UniformDepth D b) :
    levelShapes D (l.map (raggedShape D)) = (List.range D).map fun i => common (l.flatMap (levelLens i)) := by
  rw [levelShapes]
  apply List.map_congr_left
  intro i hi
  rw [List.mem_range] at hi
  rw [← common_flatMap hne (fun b hb => levelLens_ne (h b hb) i hi), List.map_map]
  congr 1
  apply List.map_congr_left
  intro b _
  simp [raggedShape, List.getD_eq_getElem?_getD, hi]

theorem raggedShape_seq (D : Nat) (l : List (Py α)) :
    raggedShape (D + 1) (.seq l) = (l.length : Int) :: (List.range D).map fun i => common (l.flatMap (levelLens i)) := by
  rw [raggedShape, List.range_succ_eq_map, List.map_cons, List.map_map]
  rfl

/-- on trees whose leaves all have depth `D`, the shape is exact and the data is unchanged -/
theorem getRagged_uniformDepth (strict : Bool) : ∀ {D : Nat} {a : Py α}, UniformDepth D a →
    getRagged strict a = (a, raggedShape D a)
  | 0, .leaf a, _ => by rw [getRagged]; rfl
  | 0, .seq _, h => h.elim
  | D + 1, .leaf _, h => h.elim
  | D + 1, .seq [], h => by
    have hD : D = 0 := by
      by_contra hD
      exact h.1 hD rfl
    subst hD
    rw [getRagged]
    rfl
  | D + 1, .seq (b :: bs), h => by
    rw [getRagged, getRaggedList_eq]
    have hs : ((b :: bs).map (getRagged strict)).map Prod.snd = (b :: bs).map (raggedShape D) := by
      rw [List.map_map]
      apply List.map_congr_left
      intro c hc
      rw [Function.comp, getRagged_uniformDepth strict (h.2 c hc)]
    simp only [hs]
    have hsame : sameLength ((b :: bs).map (raggedShape D)) = true := by
      rw [List.map_cons, sameLength, List.all_eq_true]
      intro t ht
      obtain ⟨c, _, rfl⟩ := List.mem_map.1 ht
      simp [raggedShape]
    rw [if_pos hsame, raggedShape_seq]
    congr 2
    rw [← levelShapes_ragged (by simp) h.2]
    simp [raggedShape]

/-! ## the non-strict mode -/

/-- a tree with a shape that describes it -/
def Described (a : Py α) (s : List Int) : Prop := UniformDepth s.length a ∧ s = raggedShape s.length a

theorem Described.wrap {a : Py α} {s : List Int} (h : Described a s) : Described (.seq [a]) (1 :: s) := by
  refine ⟨⟨fun _ => by simp, fun b hb => ?_⟩, ?_⟩
  · simp only [List.mem_singleton] at hb
    subst hb
    exact h.1
  · rw [List.length_cons, raggedShape_seq]
    congr 1
    conv_lhs => rw [h.2]
    rw [raggedShape]
    apply List.map_congr_left
    intro i _
    simp

theorem Described.wrapN {a : Py α} {s : List Int} (h : Described a s) :
    ∀ k, Described (TI.wrapN k a) (List.replicate k 1 ++ s)
  | 0 => h
  | k + 1 => (Described.wrapN h k).wrap

theorem Described.seq {l : List (Py α × List Int)} (hne : l ≠ []) {D : Nat} (hl : ∀ p ∈ l, p.2.length = D)
    (h : ∀ p ∈ l, Described p.1 p.2) :
    Described (.seq (l.map Prod.fst)) ((l.length : Int) :: levelShapes D (l.map Prod.snd)) := by
  have hu : ∀ b ∈ l.map Prod.fst, UniformDepth D b := by
    intro b hb
    obtain ⟨p, hp, rfl⟩ := List.mem_map.1 hb
    rw [← hl p hp]
    exact (h p hp).1
  have hshape : l.map Prod.snd = (l.map Prod.fst).map (raggedShape D) := by
    rw [List.map_map]
    apply List.map_congr_left
    intro p hp
    rw [Function.comp, ← hl p hp]
    exact (h p hp).2
  have hlen : (levelShapes D (l.map Prod.snd)).length = D := by simp [levelShapes]
  refine ⟨?_, ?_⟩
  · rw [List.length_cons, hlen]
    exact ⟨fun _ => by simpa using hne, hu⟩
  · rw [List.length_cons, hlen, raggedShape_seq, List.length_map, hshape, levelShapes_ragged (by simpa using hne) hu]

theorem leaves_wrapN (a : Py α) : ∀ k, leaves (wrapN k a) = leaves a
  | 0 => rfl
  | k + 1 => by simp [wrapN, leaves, leavesList, leaves_wrapN a k]

theorem leavesList_eq (l : List (Py α)) : leavesList l = l.flatMap leaves := by
  induction l with
  | nil => rfl
  | cons a l ih => simp [leavesList, ih]

theorem le_maxNdim {shapes : List (List Int)} {s : List Int} (h : s ∈ shapes) : s.length ≤ maxNdim shapes := by
  have key : ∀ (l : List (List Int)) (m : Nat), m ≤ l.foldl (fun m s => max m s.length) m ∧
      ∀ s ∈ l, s.length ≤ l.foldl (fun m s => max m s.length) m := by
    intro l
    induction l with
    | nil => intro m; simp
    | cons t l ih =>
      intro m
      obtain ⟨h1, h2⟩ := ih (max m t.length)
      refine ⟨le_trans (le_max_left _ _) h1, ?_⟩
      intro s hs
      rcases List.mem_cons.1 hs with rfl | hs
      · exact le_trans (le_max_right _ _) h1
      · exact h2 s hs
  exact (key shapes 0).2 s h

theorem sameLength_iff {shapes : List (List Int)} : sameLength shapes = true ↔
    ∀ s ∈ shapes, s.length = (shapes.headD []).length := by
  cases shapes with
  | nil => simp [sameLength]
  | cons t l => simp [sameLength]

/-- siblings of different depth: the shallower ones are wrapped -/
theorem getRagged_lift {b : Py α} {bs : List (Py α)} {depth : Py α → Nat}
    (h : ∀ c ∈ b :: bs, UniformDepth (depth c) c) (hmix : ∃ c ∈ bs, depth c ≠ depth b) :
    Described (getRagged false (.seq (b :: bs))).1 (getRagged false (.seq (b :: bs))).2 ∧
      leaves (getRagged false (.seq (b :: bs))).1 = leaves (.seq (b :: bs)) := by
  have hrs : getRaggedList false (b :: bs) = (b :: bs).map fun c => (c, raggedShape (depth c) c) := by
    rw [getRaggedList_eq]
    apply List.map_congr_left
    intro c hc
    rw [getRagged_uniformDepth false (h c hc)]
  have hsame : ¬ sameLength (((b :: bs).map fun c => (c, raggedShape (depth c) c)).map Prod.snd) = true := by
    rw [sameLength_iff]
    intro hall
    obtain ⟨c, hc, hne⟩ := hmix
    apply hne
    have := hall (raggedShape (depth c) c) (List.mem_map.2 ⟨(c, _), List.mem_map.2 ⟨c, by simp [hc], rfl⟩, rfl⟩)
    simpa [raggedShape] using this
  rw [getRagged]
  simp only [hrs, Bool.false_eq_true, if_false, if_neg hsame]
  generalize hR : (b :: bs).map (fun c => (c, raggedShape (depth c) c)) = rs
  have hlen : rs.length = bs.length + 1 := by rw [← hR]; simp
  have hne : rs ≠ [] := by intro h0; rw [h0] at hlen; simp at hlen
  have hdesc0 : ∀ r ∈ rs, Described r.1 r.2 := by
    intro r hr
    rw [← hR] at hr
    obtain ⟨c, hc, rfl⟩ := List.mem_map.1 hr
    refine ⟨by simpa [raggedShape] using h c hc, by simp [raggedShape]⟩
  let F : Py α × List Int → Py α × List Int := fun r => (wrapN (maxNdim (rs.map Prod.snd) - r.2.length) r.1,
          List.replicate (maxNdim (rs.map Prod.snd) - r.2.length) (1 : Int) ++ r.2)
  have hdesc : ∀ p ∈ rs.map F, Described p.1 p.2 := by
    intro p hp
    obtain ⟨r, hr, rfl⟩ := List.mem_map.1 hp
    exact (hdesc0 r hr).wrapN _
  have hl : ∀ p ∈ rs.map F, p.2.length = maxNdim (rs.map Prod.snd) := by
    intro p hp
    obtain ⟨r, hr, rfl⟩ := List.mem_map.1 hp
    have := le_maxNdim (List.mem_map_of_mem (f := Prod.snd) hr)
    simp [F]
    omega
  have := Described.seq (by simpa using hne) hl hdesc
  simp only [List.map_map, List.length_map] at this
  refine ⟨?_, ?_⟩
  · rw [List.map_map]
    have hc : ((bs.length + 1 : Nat) : Int) = (rs.length : Int) := by rw [hlen]
    rw [hc]
    exact this
  · rw [leaves, leavesList_eq, leaves, leavesList_eq, List.flatMap_map]
    simp only [leaves_wrapN]
    rw [← hR, List.flatMap_map]

/-! ## rectangular data and expansion -/

theorem Spec.HasShape.uniformDepth : ∀ {s : List Nat} {a : Py α}, (∀ n ∈ s, 0 < n) → HasShape s a → UniformDepth s.length a
  | [], .leaf _, _, _ => trivial
  | n :: s, .seq l, hp, h => by
    refine ⟨fun _ hl => ?_, fun b hb => HasShape.uniformDepth (fun m hm => hp m (by simp [hm])) (h.2 b hb)⟩
    have := hp n (by simp)
    have h1 := h.1
    rw [hl, List.length_nil] at h1
    omega

theorem getRagged_rect (strict : Bool) {s : List Nat} {a : Py α} (hp : ∀ n ∈ s, 0 < n) (h : HasShape s a) :
    getRagged strict a = (a, s.map fun n : Nat => (n : Int)) := by
  rw [getRagged_uniformDepth strict (h.uniformDepth hp)]
  congr 1
  induction s generalizing a with
  | nil => rfl
  | cons n s ih =>
    cases a with
    | leaf a => exact h.elim
    | seq l =>
      rw [List.length_cons, raggedShape_seq, List.map_cons, h.1]
      congr 1
      have hne : l ≠ [] := by
        intro hl
        have := hp n (by simp)
        have h1 := h.1
        rw [hl, List.length_nil] at h1
        omega
      have hp' : ∀ m ∈ s, 0 < m := fun m hm => hp m (by simp [hm])
      have hall : ∀ t ∈ l.map (raggedShape s.length), t = s.map fun n : Nat => (n : Int) := by
        intro t ht
        obtain ⟨b, hb, rfl⟩ := List.mem_map.1 ht
        exact ih hp' (h.2 b hb)
      rw [← levelShapes_ragged hne (fun b hb => (h.2 b hb).uniformDepth hp')]
      have := levelShapes_const (by simpa using hne) hall
      rwa [List.length_map] at this

/-- expansion of one tree -/
def expandP : List Int → Py α → Py α
  | [], a => a
  | _ :: _, .leaf a => .leaf a
  | t :: ts, .seq l =>
    if t = -1 ∨ t = l.length then .seq (l.map (expandP ts))
    else if t = 0 then .seq []
    else match l with
      | [] => .seq []
      | b :: _ => .seq (List.replicate t.toNat (expandP ts b))

/-- the shape after expansion -/
def expandedShape (s : List Nat) (ts : List Int) : List Nat := List.zipWith expandedLen s ts

theorem recExpandList_ok {ts : List Int} {l : List (Py α)} {s : List Int}
    (h : ∀ b ∈ l, ∃ m, recExpand ts b = .ok (expandP ts b, s, m) ∧ (m = false → expandP ts b = b)) :
    ∃ rs, recExpandList ts l = .ok rs ∧ rs.map (fun r => r.1) = l.map (expandP ts) ∧ rs.length = l.length ∧
      (∀ t ∈ rs.map (fun r => r.2.1), t = s) ∧ ((rs.any fun r => r.2.2) = false → l.map (expandP ts) = l) := by
  induction l with
  | nil => exact ⟨[], by simp [recExpandList]⟩
  | cons b l ih =>
    obtain ⟨m, h1, h2⟩ := h b (by simp)
    obtain ⟨rs, r1, r2, r3, r4, r5⟩ := ih (fun c hc => h c (by simp [hc]))
    refine ⟨(expandP ts b, s, m) :: rs, by rw [recExpandList, h1]; simp [r1], by simp [r2], by simp [r3], ?_, ?_⟩
    · intro t ht
      rw [List.map_cons] at ht
      rcases List.mem_cons.1 ht with rfl | ht
      · rfl
      · exact r4 t ht
    · intro hm
      rw [List.any_cons, Bool.or_eq_false_iff] at hm
      rw [List.map_cons, h2 hm.1, r5 hm.2]

theorem recExpand_rect : ∀ {s : List Nat} {ts : List Int} {a : Py α}, (∀ n ∈ s, 0 < n) → HasShape s a →
    (∀ t ∈ ts, -1 ≤ t) → List.Forall₂ Expandable s ts →
    ∃ m, recExpand ts a = .ok (expandP ts a, (expandedShape s ts).map (fun n : Nat => (n : Int)), m) ∧
      (m = false → expandP ts a = a)
  | [], [], .leaf a, _, _, _, _ => ⟨false, by rw [recExpand]; rfl, fun _ => rfl⟩
  | n :: s, t :: ts, .seq [], hp, h, _, _ => by
    have := hp n (by simp)
    have h1 := h.1
    rw [List.length_nil] at h1
    omega
  | n :: s, t :: ts, .seq (b :: bs), hp, h, ht, he => by
    cases he with
    | cons he0 he =>
    have hp' : ∀ m ∈ s, 0 < m := fun m hm => hp m (by simp [hm])
    obtain ⟨rs, r1, r2, r3, r4, r5⟩ := recExpandList_ok (ts := ts) (l := b :: bs)
      (s := (expandedShape s ts).map (fun n : Nat => (n : Int))) (fun c hc =>
        recExpand_rect hp' (h.2 c hc) (fun t' h' => ht t' (by simp [h'])) he)
    have hn : (((bs.length + 1 : Nat) : Nat) : Int) = (n : Int) := by
      have := h.1
      rw [List.length_cons] at this
      rw [this]
    have hlen : (b :: bs).length = n := h.1
    have hne : rs.map (fun r => r.2.1) ≠ [] := by
      intro h0
      have := congrArg List.length h0
      rw [List.length_map, r3] at this
      simp at this
    have hh : (rs.map (fun r => r.2.1)).headD [] = (expandedShape s ts).map (fun n : Nat => (n : Int)) := by
      generalize rs.map (fun r => r.2.1) = R at hne r4
      cases R with
      | nil => exact absurd rfl hne
      | cons x R => exact r4 x (by simp)
    have hitems : (if (rs.any fun r => r.2.2) = true then rs.map (fun r => r.1) else b :: bs) = (b :: bs).map (expandP ts) := by
      split_ifs with hm
      · exact r2
      · exact (r5 (by simpa using hm)).symm
    rw [recExpand, r1]
    simp only [sameLength_const r4, if_true, hh, levelShapes_const hne r4, hitems, hn]
    rw [expandP, show expandedShape (n :: s) (t :: ts) = expandedLen n t :: expandedShape s ts from rfl,
      List.map_cons (f := fun n : Nat => (n : Int)), hlen]
    by_cases hc : t = -1 ∨ t = n
    · rw [if_pos hc, if_pos hc]
      refine ⟨rs.any fun r => r.2.2, ?_, fun hm => by rw [r5 hm]⟩
      congr 3
      rw [expandedLen]
      split_ifs with h1
      · rfl
      · rcases hc with hc | hc
        · exact absurd hc h1
        · rw [hc]; simp
    · rw [if_neg hc, if_neg hc]
      have hnt : t ≠ -1 := fun h => hc (Or.inl h)
      by_cases h0 : t = 0
      · rw [if_pos h0, if_pos h0, if_neg]
        · refine ⟨true, ?_, by simp⟩
          congr 3
          rw [expandedLen, if_neg hnt, h0]; rfl
        · simp
      · have hn1 : n = 1 := by
          rcases he0 with h | h | h | h
          · exact absurd (Or.inl h) hc
          · exact absurd (Or.inr h) hc
          · exact absurd h h0
          · exact h
        rw [if_neg h0, if_neg h0, if_pos (by exact_mod_cast hn1)]
        refine ⟨true, ?_, by simp⟩
        have := ht t (by simp)
        have ht' : ((expandedLen n t : Nat) : Int) = t := by
          rw [expandedLen, if_neg hnt]; omega
        rw [ht', List.map_cons, List.headD_cons]

theorem recExpand_error : ∀ {s : List Nat} {ts : List Int} {a : Py α}, (∀ n ∈ s, 0 < n) → HasShape s a →
    (∀ t ∈ ts, -1 ≤ t) → s.length = ts.length → ¬ List.Forall₂ Expandable s ts → recExpand ts a = .error .value
  | [], [], _, _, _, _, _, hn => absurd List.Forall₂.nil hn
  | n :: s, t :: ts, .seq [], hp, h, _, _, _ => by
    have := hp n (by simp)
    have h1 := h.1
    rw [List.length_nil] at h1
    omega
  | n :: s, t :: ts, .seq (b :: bs), hp, h, ht, hl, hno => by
    have hp' : ∀ m ∈ s, 0 < m := fun m hm => hp m (by simp [hm])
    have ht' : ∀ t' ∈ ts, -1 ≤ t' := fun t' h' => ht t' (by simp [h'])
    by_cases he : List.Forall₂ Expandable s ts
    · obtain ⟨rs, r1, r2, r3, r4, r5⟩ := recExpandList_ok (ts := ts) (l := b :: bs)
        (s := (expandedShape s ts).map (fun n : Nat => (n : Int))) (fun c hc => recExpand_rect hp' (h.2 c hc) ht' he)
      have hno' : ¬ Expandable n t := fun h0 => hno (.cons h0 he)
      simp only [Expandable, not_or] at hno'
      have hn : (((bs.length + 1 : Nat) : Nat) : Int) = (n : Int) := by
        have := h.1
        rw [List.length_cons] at this
        rw [this]
      rw [recExpand, r1]
      simp only [sameLength_const r4, if_true, hn]
      rw [if_neg (by simp [hno'.1, hno'.2.1]), if_neg hno'.2.2.1, if_neg (by exact_mod_cast hno'.2.2.2)]
    · have := recExpand_error hp' (h.2 b (by simp)) ht' (by simpa using hl) he
      rw [recExpand, recExpandList, this]

theorem expandP_shape : ∀ {s : List Nat} {ts : List Int} {a : Py α}, (∀ n ∈ s, 0 < n) → HasShape s a →
    (∀ t ∈ ts, -1 ≤ t) → List.Forall₂ Expandable s ts → HasShape (expandedShape s ts) (expandP ts a)
  | [], [], .leaf a, _, _, _, _ => trivial
  | n :: s, t :: ts, .seq [], hp, h, _, _ => by
    have := hp n (by simp)
    have h1 := h.1
    rw [List.length_nil] at h1
    omega
  | n :: s, t :: ts, .seq (b :: bs), hp, h, ht, he => by
    cases he with
    | cons he0 he =>
    have hp' : ∀ m ∈ s, 0 < m := fun m hm => hp m (by simp [hm])
    have ht' : ∀ t' ∈ ts, -1 ≤ t' := fun t' h' => ht t' (by simp [h'])
    have ih := fun c hc => expandP_shape hp' (h.2 c hc) ht' he
    have hlen : (b :: bs).length = n := h.1
    rw [expandP, expandedShape, List.zipWith_cons_cons, hlen]
    by_cases hc : t = -1 ∨ t = n
    · rw [if_pos hc]
      refine ⟨?_, ?_⟩
      · rw [List.length_map, hlen, expandedLen]
        split_ifs with h1
        · rfl
        · rcases hc with hc | hc
          · exact absurd hc h1
          · rw [hc]; simp
      · intro c hc
        obtain ⟨c', hc', rfl⟩ := List.mem_map.1 hc
        exact ih c' hc'
    · rw [if_neg hc]
      have hnt : t ≠ -1 := fun h => hc (Or.inl h)
      by_cases h0 : t = 0
      · rw [if_pos h0]
        refine ⟨?_, by simp⟩
        rw [expandedLen, if_neg hnt, h0]; rfl
      · rw [if_neg h0]
        refine ⟨?_, ?_⟩
        · rw [List.length_replicate, expandedLen, if_neg hnt]
        · intro c hc
          rw [List.eq_of_mem_replicate hc]
          exact ih b (by simp)

theorem expandP_entry : ∀ {s : List Nat} {ts : List Int} {a : Py α} {ix : List Nat}, (∀ n ∈ s, 0 < n) → HasShape s a →
    (∀ t ∈ ts, -1 ≤ t) → List.Forall₂ Expandable s ts → InB (expandedShape s ts) ix →
    entryAt (expandP ts a) ix = entryAt a (collapse s ix)
  | [], [], .leaf a, [], _, _, _, _, _ => rfl
  | n :: s, t :: ts, .seq [], _, hp, h, _, _, _ => by
    have := hp n (by simp)
    have h1 := h.1
    rw [List.length_nil] at h1
    omega
  | n :: s, t :: ts, .seq (b :: bs), [], hp, h, ht, he, hi => hi.elim
  | n :: s, t :: ts, .seq (b :: bs), i :: ix, hp, h, ht, he, hi => by
    cases he with
    | cons he0 he =>
    have hp' : ∀ m ∈ s, 0 < m := fun m hm => hp m (by simp [hm])
    have ht' : ∀ t' ∈ ts, -1 ≤ t' := fun t' h' => ht t' (by simp [h'])
    have hlen : (b :: bs).length = n := h.1
    rw [expandedShape, List.zipWith_cons_cons] at hi
    obtain ⟨hi0, hi⟩ := hi
    have ih := fun c hc => expandP_entry hp' (h.2 c hc) ht' he hi
    rw [expandP, hlen, collapse]
    by_cases hc : t = -1 ∨ t = n
    · have hin : i < (b :: bs).length := by
        rw [hlen]
        rw [expandedLen] at hi0
        split_ifs at hi0 with h1
        · exact hi0
        · rcases hc with hc | hc
          · exact absurd hc h1
          · rw [hc] at hi0; simpa using hi0
      have hi' : (if n = 1 then 0 else i) = i := by
        split_ifs with h1
        · rw [hlen, h1] at hin; omega
        · rfl
      rw [if_pos hc, hi', entryAt, entryAt, List.getElem?_map, List.getElem?_eq_getElem hin]
      exact ih _ (List.getElem_mem _)
    · rw [if_neg hc]
      have hnt : t ≠ -1 := fun h => hc (Or.inl h)
      by_cases h0 : t = 0
      · rw [expandedLen, if_neg hnt, h0] at hi0
        simp at hi0
      · have hn1 : n = 1 := by
          rcases he0 with h | h | h | h
          · exact absurd (Or.inl h) hc
          · exact absurd (Or.inr h) hc
          · exact absurd h h0
          · exact h
        rw [expandedLen, if_neg hnt] at hi0
        rw [if_neg h0, if_pos hn1, entryAt, entryAt, List.getElem?_replicate, if_pos hi0]
        exact ih b (by simp)

/-- wrapping for additional leading dimensions -/
theorem wrapLeading_spec : ∀ (lead : List Int) (a : Py α) (s : List Nat), (∀ t ∈ lead, -1 ≤ t) → HasShape s a →
    ∃ r, wrapLeading lead (a, s.map fun n : Nat => (n : Int)) = (r, (lead.map (expandedLen 1) ++ s).map fun n : Nat => (n : Int)) ∧
      HasShape (lead.map (expandedLen 1) ++ s) r ∧
      ∀ px ix, InB (lead.map (expandedLen 1)) px → entryAt r (px ++ ix) = entryAt a ix
  | [], a, s, _, h => ⟨a, rfl, h, fun px ix hpx => by
      cases px with
      | nil => rfl
      | cons _ _ => exact hpx.elim⟩
  | t :: lead, a, s, ht, h => by
    obtain ⟨r, h1, h2, h3⟩ := wrapLeading_spec lead a s (fun t' h' => ht t' (by simp [h'])) h
    refine ⟨.seq (List.replicate (expandedLen 1 t) r), ?_, ⟨by simp, ?_⟩, ?_⟩
    · rw [wrapLeading, h1]
      simp only
      have := ht t (by simp)
      split_ifs with h0
      · subst h0; simp [expandedLen]
      · simp only [List.map_cons, List.cons_append]
        rw [expandedLen, if_neg h0]
        congr 2
        omega
    · intro b hb
      rw [List.eq_of_mem_replicate hb]
      exact h2
    · intro px ix hpx
      cases px with
      | nil => exact hpx.elim
      | cons i px =>
        rw [List.map_cons] at hpx
        rw [List.cons_append, entryAt, List.getElem?_replicate, if_pos hpx.1]
        exact h3 px ix hpx.2

theorem no_zeroLength {s : List Nat} (hp : ∀ n ∈ s, 0 < n) (new : List Int) :
    zeroLengthBad (s.map fun n : Nat => (n : Int)) new = false := by
  rw [zeroLengthBad, List.any_eq_false]
  intro p hp'
  have h1 := (List.of_mem_zip (a := p.1) (b := p.2) hp').1
  simp only [List.mem_reverse, List.mem_map] at h1
  obtain ⟨n, hn, e⟩ := h1
  have := hp n hn
  simp only [Bool.and_eq_true, beq_iff_eq, not_and]
  intro h0
  omega

end TI
