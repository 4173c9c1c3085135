import Verif.Spec.Flt
import Verif.Proofs.IntImage

/-!
# Runs on images with entries that are not finite
-/

set_option linter.unusedSectionVars false

namespace TI
open Tensor Spec

namespace Flt
variable {α : Type} [Field α] [LinearOrder α]

theorem zero_eq : (0 : Flt α) = num 0 := rfl
theorem add_num (a b : α) : num a + num b = num (a + b) := rfl
theorem mul_num (a b : α) : num a * num b = num (a * b) := rfl
theorem sub_num (a b : α) : num a - num b = num (a - b) := by rw [sub_eq_add_neg]; rfl
theorem neg_num (a : α) : -num a = num (-a) := rfl

theorem neg_eq_num {b : Flt α} {c : α} (h : -b = num c) : ∃ a, b = num a ∧ c = -a := by
  cases b with
  | num a => exact ⟨a, rfl, (Flt.num.inj h).symm⟩
  | inf s => cases h
  | nan => cases h

theorem add_eq_num {b d : Flt α} {c : α} (h : b + d = num c) : ∃ a e, b = num a ∧ d = num e ∧ c = a + e := by
  cases b <;> cases d
  case num.num a e => exact ⟨a, e, rfl, rfl, (Flt.num.inj h).symm⟩
  case inf.inf s r =>
    exfalso
    have h' : (if s = r then inf s else nan : Flt α) = num c := h
    split_ifs at h'
  all_goals exact absurd h (by intro h; cases h)

theorem sub_eq_num {b d : Flt α} {c : α} (h : b - d = num c) : ∃ a e, b = num a ∧ d = num e ∧ c = a - e := by
  obtain ⟨a, e, h1, h2, h3⟩ := add_eq_num (show b + -d = num c from h)
  obtain ⟨e', h4, rfl⟩ := neg_eq_num h2
  exact ⟨a, e', h1, h4, by rw [h3, sub_eq_add_neg]⟩

theorem mul_eq_num {b d : Flt α} {c : α} (h : b * d = num c) : ∃ a e, b = num a ∧ d = num e ∧ c = a * e := by
  cases b <;> cases d
  case num.num a e => exact ⟨a, e, rfl, rfl, (Flt.num.inj h).symm⟩
  case inf.num s e =>
    exfalso
    have h' : (if e = 0 then nan else inf (s != decide (e < 0)) : Flt α) = num c := h
    split_ifs at h'
  case num.inf a r =>
    exfalso
    have h' : (if a = 0 then nan else inf (decide (a < 0) != r) : Flt α) = num c := h
    split_ifs at h'
  all_goals exact absurd h (by intro h; cases h)

theorem finite_add {b d : Flt α} : IsFinite (b + d) ↔ IsFinite b ∧ IsFinite d :=
  ⟨fun ⟨_, h⟩ => by obtain ⟨a, e, h1, h2, _⟩ := add_eq_num h; exact ⟨⟨a, h1⟩, e, h2⟩, fun ⟨⟨a, h1⟩, e, h2⟩ => ⟨a + e, by rw [h1, h2]; rfl⟩⟩

theorem finite_sub {b d : Flt α} : IsFinite (b - d) ↔ IsFinite b ∧ IsFinite d :=
  ⟨fun ⟨_, h⟩ => by obtain ⟨a, e, h1, h2, _⟩ := sub_eq_num h; exact ⟨⟨a, h1⟩, e, h2⟩, fun ⟨⟨a, h1⟩, e, h2⟩ => ⟨a - e, by rw [h1, h2, sub_num]⟩⟩

theorem finite_mul {b d : Flt α} : IsFinite (b * d) ↔ IsFinite b ∧ IsFinite d :=
  ⟨fun ⟨_, h⟩ => by obtain ⟨a, e, h1, h2, _⟩ := mul_eq_num h; exact ⟨⟨a, h1⟩, e, h2⟩, fun ⟨⟨a, h1⟩, e, h2⟩ => ⟨a * e, by rw [h1, h2]; rfl⟩⟩

theorem finite_num (a : α) : IsFinite (num a) := ⟨a, rfl⟩

theorem finite_sum : ∀ {l : List (Flt α)}, IsFinite l.sum ↔ ∀ b ∈ l, IsFinite b
  | [] => by simpa [zero_eq] using finite_num (0 : α)
  | b :: l => by rw [List.sum_cons, finite_add, finite_sum]; simp

theorem sum_map_num : ∀ l : List α, (l.map num).sum = num l.sum
  | [] => rfl
  | a :: l => by rw [List.map_cons, List.sum_cons, sum_map_num l, List.sum_cons, add_num]

/-- the finite entries of the second are those of the first -/
def Agrees (a : α) (b : Flt α) : Prop := ∀ c, b = num c → a = c

/-- NaN, or the number -/
def NumOrNan (a : α) (b : Flt α) : Prop := b = num a ∨ b = nan

theorem agrees_num (a : α) : Agrees a (num a) := fun _ h => Flt.num.inj h
theorem agrees_numOrNan {a : α} {b : Flt α} (h : NumOrNan a b) : Agrees a b := by
  rintro c rfl
  rcases h with h | h
  · exact (Flt.num.inj h).symm
  · cases h

theorem agrees_ringRel : RingRel (Agrees (α := α)) where
  zero := agrees_num 0
  two := by
    intro a b h c hc
    obtain ⟨u, v, h1, h2, rfl⟩ := mul_eq_num hc
    cases h1
    rw [h v h2]
  int n := agrees_num _
  neg := by
    intro a b h c hc
    obtain ⟨v, h1, rfl⟩ := neg_eq_num hc
    rw [h v h1]
  add := by
    intro a b a' b' h h' c hc
    obtain ⟨u, v, h1, h2, rfl⟩ := add_eq_num hc
    rw [h u h1, h' v h2]
  sub := by
    intro a b a' b' h h' c hc
    obtain ⟨u, v, h1, h2, rfl⟩ := sub_eq_num hc
    rw [h u h1, h' v h2]
  mul := by
    intro a b a' b' h h' c hc
    obtain ⟨u, v, h1, h2, rfl⟩ := mul_eq_num hc
    rw [h u h1, h' v h2]

theorem nan_add (b : Flt α) : nan + b = nan := by cases b <;> rfl
theorem add_nan (b : Flt α) : b + nan = nan := by cases b <;> rfl
theorem nan_mul (b : Flt α) : nan * b = nan := by cases b <;> rfl
theorem mul_nan (b : Flt α) : b * nan = nan := by cases b <;> rfl
theorem nan_sub (b : Flt α) : nan - b = nan := nan_add _
theorem sub_nan (b : Flt α) : b - nan = nan := add_nan _

theorem numOrNan_ringRel : RingRel (NumOrNan (α := α)) where
  zero := Or.inl rfl
  two := by
    rintro a b (rfl | rfl)
    · exact Or.inl rfl
    · exact Or.inr (mul_nan _)
  int n := Or.inl rfl
  neg := by
    rintro a b (rfl | rfl)
    · exact Or.inl rfl
    · exact Or.inr rfl
  add := by
    rintro a b a' b' (rfl | rfl) (rfl | rfl)
    · exact Or.inl rfl
    · exact Or.inr (add_nan _)
    · exact Or.inr (nan_add _)
    · exact Or.inr rfl
  sub := by
    rintro a b a' b' (rfl | rfl) (rfl | rfl)
    · exact Or.inl (sub_num _ _)
    · exact Or.inr (sub_nan _)
    · exact Or.inr (nan_sub _)
    · exact Or.inr rfl
  mul := by
    rintro a b a' b' (rfl | rfl) (rfl | rfl)
    · exact Or.inl rfl
    · exact Or.inr (mul_nan _)
    · exact Or.inr (nan_mul _)
    · exact Or.inr rfl

end Flt

section
variable {α : Type} [Field α] [LinearOrder α] {R : α → Flt α → Prop} {p : Padder α}

theorem foldl_max_num (l : List α) : ∀ a : α, (l.map Flt.num).foldl (fun a b => if a.le b then b else a) (.num a) = Flt.num (l.foldl max a) := by
  induction l with
  | nil => intro a; rfl
  | cons b l ih =>
    intro a
    rw [List.map_cons, List.foldl_cons, List.foldl_cons, ← ih]
    congr 1
    simp only [Flt.le, decide_eq_true_eq, max_def]
    split_ifs <;> rfl

theorem foldl_min_num (l : List α) : ∀ a : α, (l.map Flt.num).foldl (fun a b => if a.le b then a else b) (.num a) = Flt.num (l.foldl min a) := by
  induction l with
  | nil => intro a; rfl
  | cons b l ih =>
    intro a
    rw [List.map_cons, List.foldl_cons, List.foldl_cons, ← ih]
    congr 1
    simp only [Flt.le, decide_eq_true_eq, min_def]
    split_ifs <;> rfl

theorem any_isNan_num (l : List α) : (l.map Flt.num).any Flt.isNan = false := by
  simp [List.any_eq_false, Flt.isNan]

/-- statistics of numbers -/
theorem evalFlt_num (s : Stat) {l : List α} (hl : l ≠ []) : ∃ v, s.eval l = .ok v ∧ s.evalFlt (l.map Flt.num) = .num v := by
  obtain ⟨a, l', rfl⟩ := List.exists_cons_of_ne_nil hl
  unfold Stat.evalFlt
  rw [any_isNan_num]
  cases s with
  | mean =>
    refine ⟨_, rfl, ?_⟩
    simp only [Bool.false_eq_true, if_false]
    rw [Flt.sum_map_num, Flt.mul_num, List.length_map, mul_one_div]
  | median =>
    refine ⟨_, rfl, ?_⟩
    simp only [Bool.false_eq_true, if_false]
    rw [← List.map_mergeSort (r := fun a b => decide (a ≤ b)) (s := Flt.le) (f := Flt.num) (fun a _ b _ => rfl), List.length_map]
    simp only [List.getD_eq_getElem?_getD, List.getElem?_map, Flt.zero_eq]
    cases (List.mergeSort (a :: l') fun a b => decide (a ≤ b))[((a :: l').length - 1) / 2]? <;> rfl
  | maximum =>
    refine ⟨_, rfl, ?_⟩
    simp only [Bool.false_eq_true, if_false, List.map_cons, List.headD_cons, List.foldl_cons]
    rw [← foldl_max_num]
    simp
  | minimum =>
    refine ⟨_, rfl, ?_⟩
    simp only [Bool.false_eq_true, if_false, List.map_cons, List.headD_cons, List.foldl_cons]
    rw [← foldl_min_num]
    simp

/-- the statistics keep the relation -/
def StatRel (R : α → Flt α → Prop) : Prop := ∀ (s : Stat) (l : List α) (l' : List (Flt α)), List.Forall₂ R l l' → l ≠ [] → ∃ v, s.eval l = .ok v ∧ R v (s.evalFlt l')

theorem numOrNan_stat : StatRel (Flt.NumOrNan (α := α)) := by
  intro s l l' h hl
  by_cases hn : l'.any Flt.isNan = true
  · obtain ⟨v, hv, _⟩ := evalFlt_num s hl
    refine ⟨v, hv, Or.inr ?_⟩
    unfold Stat.evalFlt
    rw [if_pos hn]
  · have e : l' = l.map Flt.num := by
      clear hl
      induction h with
      | nil => rfl
      | cons h _ ih =>
        simp only [List.any_cons, Bool.or_eq_true, not_or] at hn
        rw [List.map_cons, ← ih hn.2]
        rcases h with rfl | rfl
        · rfl
        · exact absurd rfl hn.1
    obtain ⟨v, hv, hw⟩ := evalFlt_num s hl
    exact ⟨v, hv, Or.inl (by rw [e, hw])⟩

theorem rel_reduceFlt (h0 : R 0 0) (hs : StatRel R) (s : Stat) {x : Tensor α} {y : Tensor (Flt α)} (h : x.Rel R y) (d : Nat) :
    ExRel (Tensor.Rel R) (s.reduce x d) (s.reduceFlt y d) := by
  unfold Stat.reduce Stat.reduceFlt
  rw [h.shape]
  refine .ite Iff.rfl (fun _ => .error _) fun hn => .ok (rel_ofFn h0 rfl fun ix _ => ?_)
  have hf : List.Forall₂ R (x.fibre d ix) ((List.range (y.shape.getD d 0)).map fun j => y.get (ix.set d j)) := by
    rw [Tensor.fibre, h.shape, List.forall₂_map_left_iff, List.forall₂_map_right_iff]
    exact List.forall₂_same.2 fun j _ => h.get _
  have hne : x.fibre d ix ≠ [] := by
    rw [Tensor.fibre, h.shape]
    simpa using hn
  obtain ⟨v, hv, hr⟩ := hs s _ _ hf hne
  rw [hv]
  exact hr

theorem rel_map_num (h0 : R 0 0) (hn : ∀ a, R a (.num a)) (l : List α) (n : Nat) : R (l.getD n 0) ((l.map Flt.num).getD n 0) := by
  simp only [List.getD_eq_getElem?_getD, List.getElem?_map]
  cases l[n]? with
  | none => exact h0
  | some k => exact hn k

theorem rel_linearRampFlt (hR : RingRel R) (hn : ∀ a, R a (.num a)) (before after : α) {x : Tensor α} {y : Tensor (Flt α)} (h : x.Rel R y)
    (idx : List PySlice) (dim : Nat) : ExRel (Tensor.Rel R) (linearRamp1d before after x idx dim) (linearRampFlt before after y idx dim) := by
  have h0 := hR.zero
  have hcol : ∀ (l : List α) (k : Nat), (column l k).Rel R (column (l.map Flt.num) k) := fun l k =>
    rel_column (by simp) (rel_map_num h0 hn l) k
  unfold linearRamp1d linearRampFlt
  refine .bind_same _ fun ⟨head, tail⟩ _ => ?_
  refine .bind (P := Tensor.Rel R) (.ite Iff.rfl (fun _ => ?_) fun _ => .ok h) fun x y h => ?_
  · rw [h.ndim]
    refine .bind (Tensor.Rel.bop h0 (hcol _ _) ((h.getSlice h0 _).map h0 fun a b hab => hR.sub hab (hn _)) fun a b a' b' h1 h2 => hR.mul h1 h2) fun q q' hq => ?_
    exact h.setSlice h0 (hq.map h0 fun a b hab => hR.add (hn _) hab) _
  · refine .ite (by rw [h.shape]) (fun _ => ?_) fun _ => .ok h
    rw [h.ndim, h.shape]
    refine .bind (Tensor.Rel.bop h0 (hcol _ _) ((h.getSlice h0 _).map h0 fun a b hab => hR.sub (hn _) hab) fun a b a' b' h1 h2 => hR.mul h1 h2) fun q q' hq => ?_
    exact h.setSlice h0 (hq.map h0 fun a b hab => hR.sub (hn _) hab) _

/-- the modes with arithmetic; statistics if they keep the relation -/
theorem rel_runModeFlt (hR : RingRel R) (hn : ∀ a, R a (.num a)) (p : Padder α) (i : Int) {m : Mode α} (hm : callable m = false) (hs : isStat m = true → StatRel R)
    {y : Tensor α} {y' : Tensor (Flt α)} (h : y.Rel R y')
    (idx : List PySlice) (axis : Nat) : ExRel (Tensor.Rel R) (p.runMode true i m y idx axis) (p.runModeFlt true i m y' idx axis) := by
  have h0 := hR.zero
  unfold Padder.runMode Padder.runModeFlt
  rw [h.shape]
  cases m
  case replicate => exact rel_replicate1d h0 h _ _
  case smooth => exact rel_smooth1d hR h _ _
  case circular => exact rel_circular1d h0 _ h _ _
  case periodize => exact rel_periodize1d h0 _ h _ _
  case symmetric => exact rel_symmetric1d h0 _ _ _ (fun _ _ _ h => hR.neg h) h _ _
  case reflect => exact rel_reflect1d h0 _ _ h _ _
  case antisymmetric => exact rel_symmetric1d h0 _ _ _ (fun _ _ _ h => hR.neg h) h _ _
  case oddReflect => exact rel_oddReflect1d hR _ h _ _
  case oddSymmetric => exact rel_oddSymmetric1d hR _ h _ _
  case stat s =>
    refine .bind_same _ fun sl _ => ?_
    rw [stat1d_with]
    exact rel_stat1dWith h0 (fun x y h d => rel_reduceFlt h0 (hs rfl) s h d) _ _ h _ _
  case zeros => exact .ok h
  case constant =>
    refine .bind_same _ fun cv hcv => ?_
    exact rel_constant1d h0 (hn _) (hn _) h _ _
  case linearRamp =>
    refine .bind_same _ fun ev _ => ?_
    exact rel_linearRampFlt hR hn _ _ h _ _
  case empty => exact .ok h
  case unknown => exact .error _
  case custom f => simp [callable] at hm

/-- the modes that copy -/
theorem rel_runModeFlt_copy (h0 : R 0 0) (p : Padder α) (i : Int) {m : Mode α} (hm : copies m = true)
    (hn : m = .constant → ∀ c, Padder.pairAt p.constantValues i = .ok c → R c.1 (.num c.1) ∧ R c.2 (.num c.2)) {y : Tensor α} {y' : Tensor (Flt α)} (h : y.Rel R y')
    (idx : List PySlice) (axis : Nat) : ExRel (Tensor.Rel R) (p.runMode true i m y idx axis) (p.runModeFlt true i m y' idx axis) := by
  unfold Padder.runMode Padder.runModeFlt
  rw [h.shape]
  cases m
  case replicate => exact rel_replicate1d h0 h _ _
  case circular => exact rel_circular1d h0 _ h _ _
  case periodize => exact rel_periodize1d h0 _ h _ _
  case symmetric => exact rel_symmetric1d h0 _ _ _ (fun hf => by simp at hf) h _ _
  case reflect => exact rel_reflect1d h0 _ _ h _ _
  case zeros => exact .ok h
  case constant =>
    refine .bind_same _ fun cv hcv => ?_
    exact rel_constant1d h0 (hn rfl cv hcv).1 (hn rfl cv hcv).2 h _ _
  case empty => exact .ok h
  case unknown => exact .error _
  all_goals simp [copies] at hm

/-- `forward` on related images -/
theorem rel_forwardFlt (h0 : R 0 0) (p : Padder α) {junk : List Nat → α} {junk' : List Nat → Flt α} (hj : ∀ ix, R (junk ix) (junk' ix)) {x : Tensor α} {X : Tensor (Flt α)}
    (h : x.Rel R X) (ax : Axes) (hi : ∀ i m, p.modeAt i = .ok m → ∀ (y : Tensor α) (y' : Tensor (Flt α)), y.Rel R y' → ∀ idx axis,
      ExRel (Tensor.Rel R) (p.runMode true i m y idx axis) (p.runModeFlt true i m y' idx axis)) :
    ExRel (Tensor.Rel R) (p.forward junk x ax) (p.forwardFlt junk' X ax) := by
  rw [forward_with, Padder.forwardFlt]
  exact rel_forwardWith h0 rfl rfl hj h ax fun axes _ i _ => ⟨rfl, hi i⟩

end

end TI
