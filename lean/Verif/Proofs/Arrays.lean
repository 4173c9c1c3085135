import Verif.Spec.Arrays
import Verif.Proofs.TensorLemmas
import Verif.Proofs.SpecForms

/-!
# Arrays inside specifications behave like nested lists
-/

namespace TI
open Spec Tensor

section
variable {α : Type} [Zero α]

theorem asListsAll_eq : ∀ l : List (PyA α), asListsAll l = l.map asLists
  | [] => rfl
  | a :: l => by rw [asListsAll, asListsAll_eq l]; rfl

theorem nonEmptyAll_iff : ∀ {l : List (PyA α)}, NonEmptyAll l ↔ ∀ a ∈ l, NonEmpty a
  | [] => by simp [NonEmptyAll]
  | a :: l => by simp [NonEmptyAll, nonEmptyAll_iff (l := l)]

theorem getRaggedAList_eq (strict : Bool) : ∀ l : List (PyA α), getRaggedAList strict l = l.map (getRaggedA strict)
  | [] => by simp [getRaggedAList]
  | a :: l => by simp [getRaggedAList, getRaggedAList_eq strict l]

theorem nested_congr : ∀ {s : List Nat} {f g : List Nat → α}, (∀ ix, InB s ix → f ix = g ix) → nested s f = nested s g
  | [], f, g, h => by simp only [nested]; rw [h [] trivial]
  | n :: s, f, g, h => by
    simp only [nested]
    congr 1
    apply List.map_congr_left
    intro i hi
    exact nested_congr fun ix hix => h (i :: ix) ⟨by simpa using hi, hix⟩

/-- shapes that are all equal -/
theorem sameLength_all {c : List Int} : ∀ {l : List (List Int)}, (∀ s ∈ l, s = c) → sameLength l = true
  | [], _ => rfl
  | s :: l, h => by
    simp only [sameLength, List.all_eq_true]
    intro t ht
    rw [h t (by simp [ht]), h s (by simp)]
    simp

theorem levelShapes_all {c : List Int} {l : List (List Int)} (h : ∀ s ∈ l, s = c) (hl : l ≠ []) :
    levelShapes ((l.headD []).length) l = c := by
  obtain ⟨a, t, rfl⟩ := List.exists_cons_of_ne_nil hl
  obtain rfl : a = c := h a (by simp)
  simp only [List.headD_cons, levelShapes]
  apply List.ext_getElem (by simp)
  intro i h1 h2
  simp only [List.getElem_map, List.getElem_range, List.map_cons, commonLen]
  rw [if_pos]
  · rw [List.getD_eq_getElem?_getD, List.getElem?_eq_getElem h2]; rfl
  · simp only [List.all_eq_true, List.mem_map, forall_exists_index, and_imp, forall_apply_eq_imp_iff₂, beq_iff_eq]
    intro s hs
    rw [h s (by simp [hs])]

/-- an array as nested lists has the sizes of the array -/
theorem getRagged_nested (strict : Bool) : ∀ {s : List Nat} (f : List Nat → α), (∀ n ∈ s, 0 < n) →
    getRagged strict (nested s f) = (nested s f, s.map fun n : Nat => (n : Int))
  | [], f, _ => by simp [nested, getRagged]
  | n :: s, f, h => by
    have hn : 0 < n := h n (by simp)
    have ih : ∀ i, getRagged strict (nested s fun ix => f (i :: ix)) = (nested s fun ix => f (i :: ix), s.map fun n : Nat => (n : Int)) :=
      fun i => getRagged_nested strict _ fun m hm => h m (by simp [hm])
    obtain ⟨b, bs, e⟩ : ∃ b bs, (List.range n).map (fun i => nested s fun ix => f (i :: ix)) = b :: bs :=
      List.exists_cons_of_ne_nil (by simp; omega)
    have hc : ∀ t ∈ (getRaggedList strict (b :: bs)).map Prod.snd, t = s.map fun n : Nat => (n : Int) := by
      rw [getRaggedList_eq, ← e]
      intro t ht
      simp only [List.map_map, List.mem_map, List.mem_range, Function.comp] at ht
      obtain ⟨i, _, rfl⟩ := ht
      rw [ih]
    have hlen : bs.length + 1 = n := by
      have := congrArg List.length e
      simpa using this.symm
    simp only [nested, e, getRagged]
    rw [if_pos (sameLength_all hc), levelShapes_all hc (by rw [getRaggedList_eq]; simp), hlen]
    rfl

theorem asLists_wrapN : ∀ (k : Nat) (a : PyA α), asLists (PyA.wrapN k a) = wrapN k (asLists a)
  | 0, _ => rfl
  | k + 1, a => by simp only [PyA.wrapN, asLists, asListsAll, wrapN, asLists_wrapN k a]

mutual
theorem getRagged_asLists (strict : Bool) : ∀ (a : PyA α), NonEmpty a →
    getRagged strict (asLists a) = (asLists (getRaggedA strict a).1, (getRaggedA strict a).2)
  | .leaf a, _ => by simp [asLists, getRagged, getRaggedA]
  | .arr b x, h => by simp only [asLists, getRaggedA]; exact getRagged_nested strict _ h
  | .seq [], _ => by simp [asLists, asListsAll, getRagged, getRaggedA]
  | .seq (b :: bs), h => by
    have ih := getRaggedList_asLists strict (b :: bs) h
    have hs : (getRaggedList strict (asListsAll (b :: bs))).map Prod.snd = (getRaggedAList strict (b :: bs)).map Prod.snd := by
      rw [ih, List.map_map]; rfl
    rw [asListsAll] at ih hs
    simp only [asLists, asListsAll, getRagged, getRaggedA, hs]
    have hl : (asListsAll bs).length = bs.length := by rw [asListsAll_eq, List.length_map]
    rw [hl]
    split
    · rfl
    · split
      · rfl
      · rw [ih]
        simp only [List.map_map, Prod.mk.injEq, asLists, asListsAll_eq, Py.seq.injEq]
        refine ⟨?_, trivial⟩
        apply List.map_congr_left
        intro r _
        simp [asLists_wrapN]
theorem getRaggedList_asLists (strict : Bool) : ∀ (l : List (PyA α)), NonEmptyAll l →
    getRaggedList strict (asListsAll l) = (getRaggedAList strict l).map fun r => (asLists r.1, r.2)
  | [], _ => by simp [asListsAll, getRaggedList, getRaggedAList]
  | a :: l, h => by
    simp only [asListsAll, getRaggedList, getRaggedAList, List.map_cons]
    rw [getRagged_asLists strict a h.1, getRaggedList_asLists strict l h.2]
end

/-! ## expanding -/

theorem recExpandList_error {β : Type} {ts : List Int} {b : Py β} {bs : List (Py β)} {e : Err} (h : recExpand ts b = .error e) :
    recExpandList ts (b :: bs) = .error e := by
  simp only [recExpandList]
  rw [h]

theorem broadcastSizes_length : ∀ {s : List Nat} {ts : List Int} {r : List Nat}, broadcastSizes s ts = some r → r.length = s.length
  | [], [], r, h => by cases h; rfl
  | [], _ :: _, r, h => by cases h
  | _ :: _, [], r, h => by cases h
  | n :: s, t :: ts, r, h => by
    simp only [broadcastSizes] at h
    split at h
    · cases h
    · rename_i q hq
      have := broadcastSizes_length hq
      split at h
      · cases h; simp [this]
      · split at h
        · cases h
        · split at h
          · cases h; simp [this]
          · cases h

/-- expanding the nested lists of an array is broadcasting the array -/
theorem recExpand_nested : ∀ {s : List Nat} {ts : List Int} (f : List Nat → α), (∀ n ∈ s, 0 < n) → (∀ t ∈ ts, -1 ≤ t ∧ t ≠ 0) → ts.length = s.length →
    match broadcastSizes s ts with
    | none => recExpand ts (nested s f) = .error .value
    | some r => recExpand ts (nested s f) =
        .ok (nested r fun ix => f (sourceIndex s ix), r.map (fun n : Nat => (n : Int)), decide (r ≠ s))
  | [], [], f, _, _, _ => by simp [broadcastSizes, nested, recExpand, sourceIndex]
  | [], _ :: _, f, _, _, hl => by simp at hl
  | _ :: _, [], f, _, _, hl => by simp at hl
  | n :: s, t :: ts, f, hp, ht, hl => by
    have hn : 0 < n := hp n (by simp)
    have ih : ∀ i, _ := fun i : Nat => recExpand_nested (s := s) (ts := ts) (fun ix => f (i :: ix)) (fun m hm => hp m (by simp [hm]))
      (fun u hu => ht u (by simp [hu])) (by simpa using hl)
    obtain ⟨b, bs, e⟩ : ∃ b bs, (List.range n).map (fun i => nested s fun ix => f (i :: ix)) = b :: bs :=
      List.exists_cons_of_ne_nil (by simp; omega)
    have hb : b = nested s fun ix => f (0 :: ix) := by
      have := congrArg (fun l => l.head?) e
      obtain ⟨m, rfl⟩ : ∃ m, n = m + 1 := ⟨n - 1, by omega⟩
      rw [List.range_succ_eq_map] at this
      simpa using this.symm
    have hlen : bs.length + 1 = n := by
      have := congrArg List.length e
      simpa using this.symm
    simp only [nested, broadcastSizes]
    cases hr : broadcastSizes s ts with
    | none =>
      simp only [hr] at ih ⊢
      rw [e, recExpand, hb, recExpandList_error (ih 0)]
    | some r =>
      simp only [hr] at ih ⊢
      obtain ⟨ht1, ht0⟩ := ht t (by simp)
      have hall : recExpandList ts (b :: bs) = .ok ((List.range n).map fun i =>
          (nested r fun ix => f (i :: sourceIndex s ix), r.map (fun n : Nat => (n : Int)), decide (r ≠ s))) := by
        rw [← e]
        clear e hb
        generalize List.range n = L
        induction L with
        | nil => simp [recExpandList]
        | cons i L ihL =>
          simp only [List.map_cons, recExpandList]
          rw [ih i, ihL]
      have hsh : ∀ c ∈ ((List.range n).map fun i =>
          (nested r fun ix => f (i :: sourceIndex s ix), r.map (fun n : Nat => (n : Int)), decide (r ≠ s))).map (fun q => q.2.1),
          c = r.map (fun n : Nat => (n : Int)) := by
        intro c hc
        simp only [List.map_map, List.mem_map, Function.comp] at hc
        obtain ⟨_, _, rfl⟩ := hc
        rfl
      have hmod : ((List.range n).map fun i =>
          (nested r fun ix => f (i :: sourceIndex s ix), r.map (fun n : Nat => (n : Int)), decide (r ≠ s))).any (fun q => q.2.2) = decide (r ≠ s) := by
        by_cases hrs : r = s
        · simp [hrs]
        · simp only [ne_eq, hrs, not_false_eq_true, decide_true, List.any_map, List.any_eq_true, List.mem_range, Function.comp]
          exact ⟨0, hn, trivial⟩
      have hsrc : ∀ (i : Nat), r = s → ∀ ix, InB r ix → f (i :: sourceIndex s ix) = f (i :: ix) := by
        intro i hrs ix hix
        have : ∀ {s ix : List Nat}, (∀ n ∈ s, 0 < n) → InB s ix → sourceIndex s ix = ix := by
          intro s
          induction s with
          | nil => intro ix _ h; cases ix with
            | nil => rfl
            | cons i ix => exact h.elim
          | cons n s ihs =>
            intro ix hps h
            cases ix with
            | nil => exact h.elim
            | cons i ix =>
              simp only [sourceIndex]
              rw [ihs (fun m hm => hps m (by simp [hm])) h.2]
              congr 1
              split
              · have := h.1; omega
              · rfl
        rw [this (fun m hm => hp m (by simp [hm])) (hrs ▸ hix)]
      have hitems : (if decide (r ≠ s) = true then ((List.range n).map fun i =>
            (nested r fun ix => f (i :: sourceIndex s ix), r.map (fun n : Nat => (n : Int)), decide (r ≠ s))).map (fun q => q.1) else b :: bs) =
          (List.range n).map fun i => nested r fun ix => f (i :: sourceIndex s ix) := by
        by_cases hrs : r = s
        · rw [if_neg (by simp [hrs]), ← e]
          apply List.map_congr_left
          intro i _
          rw [hrs]
          exact nested_congr fun ix hix => (hsrc i hrs ix (hrs ▸ hix)).symm
        · rw [if_pos (by simp [hrs]), List.map_map]
          rfl
      rw [e, recExpand, hall]
      simp only [sameLength_all hsh, if_true, hmod, levelShapes_all hsh (by simp; omega), hlen]
      by_cases h1 : t = -1
      · subst h1
        simp only [true_or, if_true]
        rw [hitems]
        simp only [List.map_cons, Except.ok.injEq, Prod.mk.injEq, nested, Py.seq.injEq, List.cons.injEq, ne_eq, true_and, and_true, decide_eq_decide]
        apply List.map_congr_left
        intro i hi
        apply nested_congr
        intro ix _
        simp only [sourceIndex]
        congr 2
        have : i < n := by simpa using hi
        split <;> omega
      · rw [if_neg h1, if_neg (by omega)]
        by_cases h2 : t = (n : Int)
        · subst h2
          rw [if_pos (show (n : Int) = -1 ∨ (n : Int) = n from Or.inr rfl), if_pos (show (n : Int) = n ∨ n = 1 from Or.inl rfl)]
          rw [hitems]
          simp only [List.map_cons, Except.ok.injEq, Prod.mk.injEq, nested, Py.seq.injEq, List.cons.injEq, ne_eq, true_and, decide_eq_decide,
            Int.toNat_natCast, and_true]
          apply List.map_congr_left
          intro i hi
          apply nested_congr
          intro ix _
          simp only [sourceIndex]
          congr 2
          have : i < n := by simpa using hi
          split <;> omega
        · rw [if_neg (show ¬ (t = -1 ∨ t = (n : Int)) by rintro (h | h); exact h1 h; exact h2 h), if_neg ht0]
          by_cases h3 : n = 1
          · subst h3
            rw [if_pos (show t = ((1 : Nat) : Int) ∨ 1 = 1 from Or.inr rfl), if_pos (show ((1 : Nat) : Int) = 1 from rfl)]
            have ht' : ((t.toNat : Nat) : Int) = t := by omega
            simp only [List.map_cons, Except.ok.injEq, Prod.mk.injEq, nested, Py.seq.injEq, ht', true_and]
            rw [hitems]
            refine ⟨?_, ?_⟩
            · apply List.ext_getElem (by simp)
              intro i _ _
              simp only [List.getElem_replicate, List.getElem_map, List.getElem_range, sourceIndex, if_true]
              rfl
            · symm
              simp only [decide_eq_true_eq, ne_eq, List.cons.injEq, not_and]
              intro h
              omega
          · rw [if_neg (show ¬ (t = (n : Int) ∨ n = 1) by rintro (h | h); exact h2 h; exact h3 h), if_neg (show ¬ ((n : Int) = 1) by omega)]

/-- the axes that are counted for the items of a list -/
theorem items_length {b : PyA α} {bs : List (PyA α)} {t : Int} {ts : List Int} (h : (t :: ts).length = (getRaggedA true (.seq (b :: bs))).2.length) :
    ts = [] ∨ ∀ a ∈ b :: bs, ts.length = (getRaggedA true a).2.length := by
  simp only [getRaggedA] at h
  split at h
  · right
    rename_i hs
    rw [getRaggedAList_eq] at h hs
    simp only [List.map_cons, sameLength, List.all_eq_true, List.mem_map, beq_iff_eq, forall_exists_index, and_imp] at hs
    simp only [List.map_cons, List.headD_cons, levelShapes, List.length_cons, List.length_map, List.length_range, Nat.add_right_cancel_iff] at h
    intro a ha
    rw [h]
    rcases List.mem_cons.1 ha with rfl | ha
    · rfl
    · exact (hs _ _ a ha rfl rfl).symm
  · simp only [if_true, List.length_cons, List.length_nil] at h
    exact Or.inl (List.eq_nil_of_length_eq_zero (by omega))

mutual
theorem recExpand_asLists : ∀ (ts : List Int) (a : PyA α), NonEmpty a → (∀ t ∈ ts, -1 ≤ t ∧ t ≠ 0) →
    (ts = [] ∨ ts.length = (getRaggedA true a).2.length) →
    SameOutcome (fun r => (asLists r.1, r.2)) (recExpandA ts a) (recExpand ts (asLists a))
  | [], a, _, _, _ => by cases a <;> simp [recExpandA, recExpand, SameOutcome]
  | t :: ts, .leaf a, _, _, _ => by simp [recExpandA, recExpand, SameOutcome, asLists]
  | t :: ts, .arr b x, h, ht, hl => by
    have := recExpand_nested x.get h ht (by simpa [getRaggedA] using hl)
    simp only [asLists, recExpandA, expandArr]
    cases hb : broadcastSizes x.shape (t :: ts) with
    | none =>
      simp only [hb] at this
      rw [this]
      trivial
    | some r =>
      simp only [hb] at this
      rw [this]
      simp only [SameOutcome, asLists, Prod.mk.injEq, and_true]
      apply nested_congr
      intro ix hix
      rw [get_ofFn (s := r) hix]
  | t :: ts, .seq [], _, _, _ => by simp [recExpandA, recExpand, SameOutcome, asLists, asListsAll]
  | t :: ts, .seq (b :: bs), h, ht, hl => by
    have hl' := items_length (hl.resolve_left (by simp))
    have ih := recExpandList_asLists ts (b :: bs) h (fun u hu => ht u (by simp [hu])) hl'
    simp only [asLists, asListsAll, recExpandA, recExpand] at ih ⊢
    cases hr : recExpandAList ts (b :: bs) with
    | error e =>
      rw [hr] at ih
      cases hr' : recExpandList ts (asLists b :: asListsAll bs) with
      | error e' => trivial
      | ok rs => rw [hr'] at ih; exact ih.elim
    | ok rs =>
      rw [hr] at ih
      cases hr' : recExpandList ts (asLists b :: asListsAll bs) with
      | error e' => rw [hr'] at ih; exact ih.elim
      | ok rs' =>
        rw [hr'] at ih
        simp only [SameOutcome] at ih
        subst ih
        have e1 : (rs.map fun r => (asLists r.1, r.2)).map (fun r => r.2.1) = rs.map fun r => r.2.1 := by simp [List.map_map, Function.comp]
        have e2 : (rs.map fun r => (asLists r.1, r.2)).any (fun r => r.2.2) = rs.any fun r => r.2.2 := by simp [List.any_map, Function.comp_def]
        have e3 : (rs.map fun r => (asLists r.1, r.2)).map (fun r => r.1) = (rs.map fun r => r.1).map asLists := by simp [List.map_map, Function.comp_def]
        have e4 : (asListsAll bs).length = bs.length := by rw [asListsAll_eq, List.length_map]
        simp only [e1, e2, e3, e4]
        by_cases hs : sameLength (rs.map fun r => r.2.1) = true
        · rw [if_pos hs, if_pos hs]
          by_cases h1 : t = -1 ∨ t = ((bs.length + 1 : Nat) : Int)
          · rw [if_pos h1, if_pos h1]
            simp only [SameOutcome, asLists, asListsAll_eq, Prod.mk.injEq, and_true]
            split <;> simp
          · rw [if_neg h1, if_neg h1]
            have h0 := (ht t (by simp)).2
            rw [if_neg h0, if_neg h0]
            by_cases h2 : ((bs.length + 1 : Nat) : Int) = 1
            · rw [if_pos h2, if_pos h2]
              simp only [SameOutcome, asLists, asListsAll_eq, Prod.mk.injEq, and_true, List.map_replicate]
              split
              · cases rs <;> simp
              · simp
            · rw [if_neg h2, if_neg h2]
              trivial
        · rw [if_neg hs, if_neg hs]
          trivial
theorem recExpandList_asLists : ∀ (ts : List Int) (l : List (PyA α)), NonEmptyAll l → (∀ t ∈ ts, -1 ≤ t ∧ t ≠ 0) →
    (ts = [] ∨ ∀ a ∈ l, ts.length = (getRaggedA true a).2.length) →
    SameOutcome (fun rs => rs.map fun r => (asLists r.1, r.2)) (recExpandAList ts l) (recExpandList ts (asListsAll l))
  | ts, [], _, _, _ => by simp [recExpandAList, recExpandList, asListsAll, SameOutcome]
  | ts, a :: l, h, ht, hl => by
    have i1 := recExpand_asLists ts a h.1 ht (hl.imp id fun q => q a (by simp))
    have i2 := recExpandList_asLists ts l h.2 ht (hl.imp id fun q c hc => q c (by simp [hc]))
    simp only [asListsAll, recExpandAList, recExpandList]
    cases h1 : recExpandA ts a with
    | error e =>
      rw [h1] at i1
      cases h1' : recExpand ts (asLists a) with
      | error e' => trivial
      | ok r => rw [h1'] at i1; exact i1.elim
    | ok r =>
      rw [h1] at i1
      cases h1' : recExpand ts (asLists a) with
      | error e' => rw [h1'] at i1; exact i1.elim
      | ok r' =>
        rw [h1'] at i1
        simp only [SameOutcome] at i1
        subst i1
        cases h2 : recExpandAList ts l with
        | error e =>
          rw [h2] at i2
          cases h2' : recExpandList ts (asListsAll l) with
          | error e' => trivial
          | ok r => rw [h2'] at i2; exact i2.elim
        | ok rs =>
          rw [h2] at i2
          cases h2' : recExpandList ts (asListsAll l) with
          | error e' => rw [h2'] at i2; exact i2.elim
          | ok rs' =>
            rw [h2'] at i2
            simp only [SameOutcome] at i2
            subst i2
            rfl
end

theorem wrapLeading_asLists : ∀ (lead : List Int) (r : PyA α × List Int),
    wrapLeading lead (asLists r.1, r.2) = (asLists (wrapLeadingA lead r).1, (wrapLeadingA lead r).2)
  | [], _ => rfl
  | n :: ns, r => by
    simp only [wrapLeading, wrapLeadingA, wrapLeading_asLists ns r]
    split
    · simp [asLists, asListsAll]
    · simp [asLists, asListsAll_eq]

theorem expandRagged_asLists {a : PyA α} {new : List Int} (h : NonEmpty a) (ht : ∀ t ∈ new, -1 ≤ t ∧ t ≠ 0) :
    SameOutcome (fun r => (asLists r.1, r.2)) (expandRaggedA a (getRaggedA true a).2 new) (expandRagged (asLists a) (getRaggedA true a).2 new) := by
  simp only [expandRaggedA, expandRagged]
  split
  · rfl
  · split
    · trivial
    · split
      · rename_i hlt
        have := recExpand_asLists (new.drop (new.length - (getRaggedA true a).2.length)) a h (fun t hh => ht t (List.mem_of_mem_drop hh))
          (Or.inr (by rw [List.length_drop]; omega))
        revert this
        cases recExpandA (new.drop (new.length - (getRaggedA true a).2.length)) a <;>
          cases recExpand (new.drop (new.length - (getRaggedA true a).2.length)) (asLists a) <;> intro this
        · trivial
        · exact this.elim
        · exact this.elim
        · simp only [SameOutcome] at this ⊢
          subst this
          exact wrapLeading_asLists (α := α) _ (_, _)
      · split
        · rename_i hl
          have := recExpand_asLists new a h ht (Or.inr hl.symm)
          revert this
          cases recExpandA new a <;> cases recExpand new (asLists a) <;> intro this
          · trivial
          · exact this.elim
          · exact this.elim
          · simp only [SameOutcome] at this ⊢
            subst this
            rfl
        · rename_i hne hl
          have := recExpand_asLists (List.replicate ((getRaggedA true a).2.length - new.length) (-1) ++ new) a h (by
              intro t hh
              rcases List.mem_append.1 hh with hh | hh
              · rw [(List.mem_replicate.1 hh).2]; omega
              · exact ht t hh)
            (Or.inr (by simp; omega))
          revert this
          cases recExpandA (List.replicate ((getRaggedA true a).2.length - new.length) (-1) ++ new) a <;>
            cases recExpand (List.replicate ((getRaggedA true a).2.length - new.length) (-1) ++ new) (asLists a) <;> intro this
          · trivial
          · exact this.elim
          · exact this.elim
          · simp only [SameOutcome] at this ⊢
            subst this
            rfl

/-! ## items -/

theorem asLists_arrItems (b : Bool) (x : Tensor α) {n : Nat} {s : List Nat} (h : x.shape = n :: s) :
    (arrItems b x).map asLists = (List.range n).map fun i => nested s fun ix => x.get (i :: ix) := by
  rw [arrItems, h, List.map_map]
  apply List.map_congr_left
  intro i _
  simp only [Function.comp, asLists, subArray, h, List.drop_one, List.tail_cons]
  apply nested_congr
  intro ix hix
  exact get_ofFn (s := s) hix

theorem pyIndex_map {β γ : Type} (f : β → γ) (l : List β) (i : Int) : pyIndex (l.map f) i = (pyIndex l i).map f := by
  simp only [pyIndex, List.length_map, List.getElem?_map]
  generalize (if i < 0 then i + (l.length : Int) else i) = j
  split
  · rfl
  · cases l[j.toNat]? <;> rfl

theorem index_asLists (a : PyA α) (i : Int) : SameOutcome asLists (a.index i) ((asLists a).index i) := by
  cases a with
  | leaf a => trivial
  | seq l =>
    simp only [PyA.index, asLists, Py.index, asListsAll_eq, pyIndex_map]
    cases pyIndex l i <;> trivial
  | arr b x =>
    cases h : x.shape with
    | nil => simp [PyA.index, asLists, h, nested, Py.index, SameOutcome]
    | cons n s =>
      simp only [PyA.index, h, asLists, nested, Py.index]
      rw [← asLists_arrItems b x h, pyIndex_map, if_neg (by simp)]
      cases pyIndex (arrItems b x) i <;> trivial

theorem sequence_outcome {β γ δ : Type} {f : β → γ} {F : δ → Except Err β} {G : δ → Except Err γ} : ∀ {l : List δ},
    (∀ d ∈ l, SameOutcome f (F d) (G d)) →
    SameOutcome (fun bs => bs.map f) (NdSpec.sequence (l.map F)) (NdSpec.sequence (l.map G))
  | [], _ => rfl
  | d :: l, h => by
    have h1 := h d (by simp)
    have h2 := sequence_outcome (l := l) fun c hc => h c (by simp [hc])
    simp only [List.map_cons]
    revert h1 h2
    cases F d <;> cases G d <;> intro h1 h2
    · trivial
    · exact h1.elim
    · exact h1.elim
    · simp only [NdSpec.sequence]
      revert h2
      cases NdSpec.sequence (l.map F) <;> cases NdSpec.sequence (l.map G) <;> intro h2
      · trivial
      · exact h2.elim
      · exact h2.elim
      · simp only [SameOutcome] at h1 h2 ⊢
        subst h1 h2
        rfl

end
end TI
