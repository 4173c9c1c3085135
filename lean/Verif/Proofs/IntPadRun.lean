import Verif.Spec.IntPad
import Verif.Proofs.IntPad
import Verif.Proofs.PadRepeat
import Verif.Proofs.Grey
import Verif.Props.Integers

/-!
# The padding functions on machine integers
-/

set_option linter.unusedSectionVars false

namespace TI
open Tensor Spec

variable {α β γ : Type}

/-! ### machine integers -/

section
variable {t : IntType}

theorem ofInt_value (v : t.Word) : BitVec.ofInt t.bits (t.value v) = v := by
  rw [IntType.value]
  split_ifs
  · exact BitVec.ofInt_toInt
  · simp

theorem value_ofInt (hb : 0 < t.bits) {n : ℤ} (h : Holdable t n) : t.value (BitVec.ofInt t.bits n) = n := by
  rw [IntType.value]
  rw [Holdable] at h
  split_ifs with hs
  · rw [if_pos hs] at h
    rw [BitVec.toInt_ofInt]
    have h2 := two_pow_split hb
    have h3 : ((2 ^ t.bits : Nat) : ℤ) = 2 ^ t.bits := by push_cast; rfl
    apply Int.bmod_eq_of_le <;> omega
  · rw [if_neg hs] at h
    rw [BitVec.toNat_ofInt, Int.toNat_of_nonneg (Int.emod_nonneg _ (by positivity))]
    exact Int.emod_eq_of_lt h.1 (by push_cast; exact h.2)

theorem value_zero : t.value 0 = 0 := by
  rw [IntType.value]
  split_ifs <;> simp

theorem value_holdable (v : t.Word) : Holdable t (t.value v) := by
  rw [Holdable, IntType.value]
  split_ifs with hs
  · have h1 := BitVec.le_toInt v
    have h2 := BitVec.toInt_lt (x := v)
    exact ⟨h1, h2⟩
  · have := v.isLt
    exact ⟨by positivity, by exact_mod_cast this⟩

theorem ofInt_cast (n : ℤ) : (BitVec.ofInt t.bits n : t.Word) = ((n : ℤ) : t.Word) := rfl

end

section
variable [Field α] [LinearOrder α] [IsStrictOrderedRing α] [FloorRing α] {t : IntType}

/-- the number is that of the machine integer -/
def IsNumber (t : IntType) (a : α) (v : t.Word) : Prop := a = ((t.value v : ℤ) : α)

theorem isNumber_zero : IsNumber (α := α) t 0 0 := by rw [IsNumber, value_zero]; simp

theorem IsNumber.sameInt {a : α} {v : t.Word} (h : IsNumber t a v) : SameInt a v := ⟨t.value v, h, by rw [← ofInt_cast, ofInt_value]⟩

theorem numbers_rel (x : Tensor t.Word) : (numbers x : Tensor α).Rel (IsNumber t) x := by
  refine rel_of_get isNumber_zero rfl fun ix hix => ?_
  have hix : InB x.shape ix := hix
  rw [numbers, get_map _ _ hix, IsNumber]

theorem Tensor.Rel.mono [Zero γ] [Zero β] {R S : γ → β → Prop} {x : Tensor γ} {y : Tensor β} (h : x.Rel R y) (hi : ∀ a b, R a b → S a b) : x.Rel S y :=
  ⟨h.shape, fun n => hi _ _ (h.entry n)⟩

/-! ### the ramp -/

theorem rngInv_inB : ∀ {rs : List Rng} {ix jx : List Nat}, rngInv rs ix = some jx → InB (rs.map (·.cnt)) jx
  | [], [], jx, h => by simp only [rngInv, Option.some.injEq] at h; subst h; trivial
  | [], _ :: _, _, h => by simp [rngInv] at h
  | _ :: _, [], _, h => by simp [rngInv] at h
  | r :: rs, i :: ix, jx, h => by
    simp only [rngInv] at h
    cases h1 : r.inv i with
    | none => simp [h1] at h
    | some j =>
      cases h2 : rngInv rs ix with
      | none => simp [h1, h2] at h
      | some js =>
        simp only [h1, h2, Option.some.injEq] at h
        subst h
        refine ⟨?_, rngInv_inB h2⟩
        rw [Rng.inv] at h1
        split_ifs at h1 with hc
        simp only [Option.some.injEq] at h1
        show j < r.cnt
        omega

theorem bidx_inB {v s jx : List Nat} (h : bcastable v s = true) (hj : InB s jx) : InB v (bidx v jx) := by
  have hl := hj.length_eq
  simp only [bcastable, Bool.and_eq_true, decide_eq_true_eq] at h
  obtain ⟨hle, hall⟩ := h
  refine inB_iff.2 ⟨length_bidx (by omega), fun k hk => ?_⟩
  rw [getD_bidx (by omega) hk]
  have hk2 : k < (s.drop (s.length - v.length)).length := by rw [List.length_drop]; omega
  have hz := List.all_eq_true.1 hall ((v[k] == (s.drop (s.length - v.length))[k] || v[k] == 1)) (by
    rw [List.mem_iff_getElem]
    exact ⟨k, by rw [List.length_zipWith]; omega, by simp⟩)
  simp only [id, Bool.or_eq_true, beq_iff_eq, List.getElem_drop] at hz
  have e : v.getD k 0 = v[k] := by simp [List.getD_eq_getElem?_getD, hk]
  rw [e]
  have hjk := hj.lt (k := s.length - v.length + k) (by omega)
  have e2 : s.getD (s.length - v.length + k) 0 = s[s.length - v.length + k] := by
    rw [List.getD_eq_getElem?_getD, List.getElem?_eq_getElem (by omega), Option.getD_some]
  rw [e2] at hjk
  split_ifs with h1
  · omega
  · rw [hl]
    rcases hz with hz | hz
    · rw [hz]; exact hjk
    · exact absurd hz h1

theorem setSlice_const [Zero β] {y v r : Tensor β} {c : β} (hv : ∀ ix, InB v.shape ix → v.get ix = c) {sl : List PySlice} (h : y.setSlice sl v = .ok r) :
    y.setSlice sl (scalar c) = .ok r := by
  simp only [Tensor.setSlice] at h ⊢
  split_ifs at h with hb
  rw [if_pos (show bcastable (scalar c).shape _ = true from bcastable_nil _), ← h]
  congr 1
  refine ofFn_congr fun ix _ => ?_
  cases hr : rngInv (resolveAll sl y.shape) ix with
  | none => rfl
  | some jx => simp only [get_scalar]; rw [hv _ (bidx_inB hb (rngInv_inB hr))]

theorem column_zero {l : List α} (h : ∀ a ∈ l, a = 0) (k : Nat) (ix : List Nat) : (column l k).get ix = 0 := by
  rw [Tensor.get, List.getD_eq_getElem?_getD]
  cases hn : (column l k).data[ravel (column l k).shape ix]? with
  | none => rfl
  | some a => exact h a (List.mem_of_getElem? hn)

theorem ramp_values {l : List α} (h : ∀ a ∈ l, truncate a = 0) {k : Nat} {d q : Tensor α} (hq : Tensor.bop (· * ·) (column (l.map fun a => ((truncate a : ℤ) : α)) k) d = .ok q)
    {f : α → t.Word} (ix : List Nat) (hix : InB (q.map f).shape ix) : (q.map f).get ix = f 0 := by
  have hix : InB q.shape ix := hix
  rw [get_map _ _ hix]
  simp only [Tensor.bop] at hq
  split at hq
  · exact absurd hq (by simp)
  · rename_i S _
    simp only [Except.ok.injEq] at hq
    subst hq
    rw [get_ofFn (show InB S ix from hix), column_zero (by simpa using fun a ha => h a ha), zero_mul]

theorem truncate_small {a : α} (h0 : 0 ≤ a) (h1 : a < 1) : truncate a = 0 := by
  rw [truncate_eq]
  exact towardZero_small (by rw [abs_lt]; exact ⟨by linarith, h1⟩)

theorem linspace_up {n : Nat} (hn : 0 < n) : ∀ a ∈ (linspace (0 : α) 1 (n + 1)).dropLast, truncate a = 0 := by
  intro a ha
  rw [linspace, List.range_succ, List.map_append, List.map_singleton, List.dropLast_concat, List.mem_map] at ha
  obtain ⟨k, hk, rfl⟩ := ha
  have hk := List.mem_range.1 hk
  have hn' : (0 : α) < (n : α) := Nat.cast_pos.2 hn
  have hk' : (k : α) < n := Nat.cast_lt.2 hk
  have hk0 : (0 : α) ≤ (k : α) := Nat.cast_nonneg k
  have e : (0 : α) + (k : α) * ((1 - 0) / ((n + 1 - 1 : Nat) : α)) = k / n := by
    rw [Nat.add_sub_cancel, zero_add, sub_zero, mul_one_div]
  rw [e]
  exact truncate_small (by positivity) ((div_lt_one hn').2 hk')

theorem linspace_down {n : Nat} (hn : 0 < n) : ∀ a ∈ (linspace (1 : α) 0 (n + 1)).tail, truncate a = 0 := by
  intro a ha
  rw [linspace, List.range_succ_eq_map, List.map_cons, List.tail_cons, List.map_map, List.mem_map] at ha
  obtain ⟨k, hk, rfl⟩ := ha
  have hk := List.mem_range.1 hk
  have hn' : (0 : α) < (n : α) := Nat.cast_pos.2 hn
  have hk' : ((k + 1 : Nat) : α) ≤ n := Nat.cast_le.2 (by omega)
  have hk0 : (0 : α) < ((k + 1 : Nat) : α) := Nat.cast_pos.2 (by omega)
  have e : (1 : α) + ((k + 1 : Nat) : α) * ((0 - 1) / ((n + 1 - 1 : Nat) : α)) = 1 - ((k + 1 : Nat) : α) / n := by
    rw [Nat.add_sub_cancel]; ring
  simp only [Function.comp, Nat.succ_eq_add_one]
  rw [e]
  have h1 : ((k + 1 : Nat) : α) / n ≤ 1 := (div_le_one hn').2 hk'
  have h2 : 0 < ((k + 1 : Nat) : α) / n := by positivity
  exact truncate_small (by linarith) (by linarith)

/-- if the first run has a result, so has the second -/
def OkImp (a b : Except Err γ) : Prop := ∀ r, a = .ok r → b = .ok r

theorem OkImp.bind {γ' : Type} {a b : Except Err γ} {f g : γ → Except Err γ'} (h : OkImp a b) (hf : ∀ x, OkImp (f x) (g x)) : OkImp (a >>= f) (b >>= g) := by
  intro r hr
  cases a with
  | error e => cases hr
  | ok x => rw [h x rfl]; exact hf x r hr

theorem OkImp.refl (a : Except Err γ) : OkImp a a := fun _ h => h

theorem OkImp.ite {c : Prop} [Decidable c] {a b a' b' : Except Err γ} (h : c → OkImp a b) (h' : ¬ c → OkImp a' b') : OkImp (if c then a else a') (if c then b else b') := by
  split_ifs with hc
  · exact h hc
  · exact h' hc

/-- the ramp of an integer image is constant -/
theorem linearRampInt_constant (b a : α) (y : Tensor t.Word) (idx : List PySlice) (dim : Nat) :
    OkImp (linearRampInt t b a y idx dim) (constant1d (t.convert b) (t.convert a) y idx dim) := by
  unfold linearRampInt constant1d
  refine (OkImp.refl _).bind fun ⟨head, tail⟩ => ?_
  refine OkImp.bind (.ite (fun hp => ?_) fun _ => .refl _) fun y => ?_
  · intro r hr
    simp only [bind, Except.bind] at hr
    split at hr
    · cases hr
    · rename_i q hq
      refine setSlice_const (fun ix hix => ?_) hr
      rw [ramp_values (linspace_up (by omega)) hq ix hix, add_zero]
  · refine .ite (fun hp => ?_) fun _ => .refl _
    intro r hr
    simp only [bind, Except.bind] at hr
    split at hr
    · cases hr
    · rename_i q hq
      refine setSlice_const (fun ix hix => ?_) hr
      rw [ramp_values (linspace_down (by omega)) hq ix hix, sub_zero]

/-- the ramp raises the same exceptions for integers -/
theorem rel_linearRampInt (b a : α) {x : Tensor α} {y : Tensor t.Word} (h : x.Rel (fun _ _ => True) y) (idx : List PySlice) (dim : Nat) :
    ExRel (Tensor.Rel fun _ _ => True) (linearRamp1d b a x idx dim) (linearRampInt t b a y idx dim) := by
  have h0 : (fun (_ : α) (_ : t.Word) => True) 0 0 := trivial
  have h0' : (fun (_ : α) (_ : α) => True) 0 0 := trivial
  have hcol : ∀ (l : List α) (k : Nat), (column l k).Rel (fun _ _ => True) (column (l.map fun a => ((truncate a : ℤ) : α)) k) :=
    fun l k => rel_column (by simp) (fun _ => trivial) k
  unfold linearRamp1d linearRampInt
  refine .bind_same _ fun ⟨head, tail⟩ _ => ?_
  refine .bind (P := Tensor.Rel fun _ _ => True) (.ite Iff.rfl (fun _ => ?_) fun _ => .ok h) fun x y h => ?_
  · rw [h.ndim]
    refine .bind (Tensor.Rel.bop (S := fun _ _ => True) h0' (hcol _ _) ((h.getSlice h0 _).map (R' := fun _ _ => True) h0' fun _ _ _ => trivial) fun _ _ _ _ _ _ => trivial)
      fun q q' hq => ?_
    exact h.setSlice h0 (hq.map (R' := fun _ _ => True) h0 fun _ _ _ => trivial) _
  · refine .ite (by rw [h.shape]) (fun _ => ?_) fun _ => .ok h
    rw [h.ndim, h.shape]
    refine .bind (Tensor.Rel.bop (S := fun _ _ => True) h0' (hcol _ _) ((h.getSlice h0 _).map (R' := fun _ _ => True) h0' fun _ _ _ => trivial) fun _ _ _ _ _ _ => trivial)
      fun q q' hq => ?_
    exact h.setSlice h0 (hq.map (R' := fun _ _ => True) h0 fun _ _ _ => trivial) _

/-! ### statistics -/

theorem evalInt_mem {s : Stat} (hs : s ≠ .mean) {l : List ℤ} (hl : l ≠ []) : s.evalInt l ∈ l := by
  have fm : ∀ (g : ℤ → ℤ → ℤ), (∀ a b, g a b = a ∨ g a b = b) → ∀ (l : List ℤ) (a : ℤ), l.foldl g a = a ∨ l.foldl g a ∈ l := by
    intro g hg l
    induction l with
    | nil => intro a; exact Or.inl rfl
    | cons b l ih =>
      intro a
      rw [List.foldl_cons]
      rcases ih (g a b) with h | h
      · rcases hg a b with h' | h' <;> rw [h, h'] <;> simp
      · exact Or.inr (by simp [h])
  have hd : l.headD 0 ∈ l := by
    cases l with
    | nil => exact absurd rfl hl
    | cons a l => simp
  cases s with
  | mean => exact absurd rfl hs
  | median =>
    have hk : (l.length - 1) / 2 < (l.mergeSort fun a b => decide (a ≤ b)).length := by
      rw [List.length_mergeSort]
      have : 0 < l.length := List.length_pos_iff.2 hl
      omega
    rw [Stat.evalInt, List.getD_eq_getElem?_getD, List.getElem?_eq_getElem hk, Option.getD_some]
    exact (List.mergeSort_perm l _).mem_iff.1 (List.getElem_mem _)
  | maximum =>
    rcases fm max (fun a b => max_choice a b) l (l.headD 0) with h | h
    · rw [Stat.evalInt, h]; exact hd
    · exact h
  | minimum =>
    rcases fm min (fun a b => min_choice a b) l (l.headD 0) with h | h
    · rw [Stat.evalInt, h]; exact hd
    · exact h

theorem eval_cast {s : Stat} (hs : s ≠ .mean) {l : List ℤ} (hl : l ≠ []) : s.eval (l.map fun n : ℤ => (n : α)) = .ok ((s.evalInt l : ℤ) : α) := by
  have hmax : ∀ (l : List ℤ) (a : ℤ), (l.map fun n : ℤ => (n : α)).foldl max (a : α) = ((l.foldl max a : ℤ) : α) := by
    intro l
    induction l with
    | nil => intro a; rfl
    | cons b l ih => intro a; rw [List.map_cons, List.foldl_cons, List.foldl_cons, ← Int.cast_max, ih]
  have hmin : ∀ (l : List ℤ) (a : ℤ), (l.map fun n : ℤ => (n : α)).foldl min (a : α) = ((l.foldl min a : ℤ) : α) := by
    intro l
    induction l with
    | nil => intro a; rfl
    | cons b l ih => intro a; rw [List.map_cons, List.foldl_cons, List.foldl_cons, ← Int.cast_min, ih]
  obtain ⟨a, l, rfl⟩ := List.exists_cons_of_ne_nil hl
  cases s with
  | mean => exact absurd rfl hs
  | median =>
    have e : ((a :: l).map fun n : ℤ => (n : α)).mergeSort (fun a b => decide (a ≤ b)) =
        ((a :: l).mergeSort fun a b => decide (a ≤ b)).map fun n : ℤ => (n : α) :=
      (List.map_mergeSort (fun a _ b _ => by simp)).symm
    have e2 : Stat.eval .median ((a :: l).map fun n : ℤ => (n : α)) =
        .ok ((((a :: l).map fun n : ℤ => (n : α)).mergeSort (fun a b => decide (a ≤ b))).getD ((((a :: l).map fun n : ℤ => (n : α)).length - 1) / 2) 0) := rfl
    rw [e2, e, List.length_map, Stat.evalInt]
    congr 1
    rw [List.getD_eq_getElem?_getD, List.getD_eq_getElem?_getD, List.getElem?_map]
    cases ((a :: l).mergeSort fun a b => decide (a ≤ b))[((a :: l).length - 1) / 2]? with
    | none => simp
    | some b => rfl
  | maximum =>
    simp only [List.map_cons, Stat.eval, Stat.evalInt, List.headD_cons, List.foldl_cons, max_self]
    rw [hmax]
  | minimum =>
    simp only [List.map_cons, Stat.eval, Stat.evalInt, List.headD_cons, List.foldl_cons, min_self]
    rw [hmin]

theorem rel_reduceInt (hb : 0 < t.bits) {s : Stat} (hs : s ≠ .mean) {x : Tensor α} {y : Tensor t.Word} (h : x.Rel (IsNumber t) y) (d : Nat) :
    ExRel (Tensor.Rel (IsNumber t)) (s.reduce x d) (s.reduceInt t y d) := by
  rw [Stat.reduce, Stat.reduceInt, if_neg hs, ← h.shape]
  refine .ite Iff.rfl (fun _ => .error _) fun hn => .ok (rel_ofFn isNumber_zero rfl fun ix hix => ?_)
  have e : x.fibre d ix = ((List.range (x.shape.getD d 0)).map fun j => t.value (y.get (ix.set d j))).map fun n : ℤ => (n : α) := by
    rw [Tensor.fibre, List.map_map]
    exact List.map_congr_left fun j _ => h.get _
  have hl : ((List.range (x.shape.getD d 0)).map fun j => t.value (y.get (ix.set d j))) ≠ [] := by
    rw [Ne, List.map_eq_nil_iff, List.range_eq_nil]
    exact hn
  rw [e, eval_cast hs hl]
  obtain ⟨j, _, hj⟩ := List.mem_map.1 (evalInt_mem hs hl)
  simp only
  rw [IsNumber, value_ofInt hb (hj ▸ value_holdable _)]

theorem rel_reduceInt_shape {s : Stat} (hs : s ≠ .mean) {x : Tensor α} {y : Tensor t.Word} (h : x.Rel (fun _ _ => True) y) (d : Nat) :
    ExRel (Tensor.Rel fun _ _ => True) (s.reduce x d) (s.reduceInt t y d) := by
  rw [Stat.reduce, Stat.reduceInt, if_neg hs, ← h.shape]
  exact .ite Iff.rfl (fun _ => .error _) fun hn => .ok (rel_ofFn (R := fun _ _ => True) trivial rfl fun ix hix => trivial)

/-! ### the modes -/

theorem trueRel : RingRel (fun (_ : α) (_ : t.Word) => True) :=
  .of_ring (fun _ => trivial) (fun _ _ => trivial) (fun _ _ => trivial) fun _ _ => trivial

/-- the same padder on numbers and on machine integers: same exceptions, same shapes -/
theorem rel_runModeInt_shape (p : Padder α) (i : Int) {m : Mode α} (hm : forIntegers m = true) {y : Tensor α} {y' : Tensor t.Word} (h : y.Rel (fun _ _ => True) y')
    (idx : List PySlice) (axis : Nat) : ExRel (Tensor.Rel fun _ _ => True) (p.runMode true i m y idx axis) (p.runModeInt t true i m y' idx axis) := by
  have h0 : (fun (_ : α) (_ : t.Word) => True) 0 0 := trivial
  unfold Padder.runMode Padder.runModeInt
  rw [h.shape]
  cases m
  case replicate => exact rel_replicate1d h0 h _ _
  case smooth => exact rel_smooth1d trueRel h _ _
  case circular => exact rel_circular1d h0 _ h _ _
  case periodize => exact rel_periodize1d h0 _ h _ _
  case symmetric => exact rel_symmetric1d h0 _ _ _ (fun _ _ _ _ => trivial) h _ _
  case reflect => exact rel_reflect1d h0 _ _ h _ _
  case antisymmetric => exact rel_symmetric1d h0 _ _ _ (fun _ _ _ _ => trivial) h _ _
  case oddReflect => exact rel_oddReflect1d trueRel _ h _ _
  case oddSymmetric => exact rel_oddSymmetric1d trueRel _ h _ _
  case stat s =>
    refine .bind_same _ fun sl _ => ?_
    rw [stat1d_with]
    refine rel_stat1dWith h0 (fun x y h d => rel_reduceInt_shape ?_ h d) _ _ h _ _
    rintro rfl
    simp [forIntegers] at hm
  case zeros => exact .ok h
  case constant =>
    refine .bind_same _ fun cv _ => ?_
    exact rel_constant1d (R := fun _ _ => True) h0 trivial trivial h _ _
  case linearRamp =>
    refine .bind_same _ fun ev _ => ?_
    exact rel_linearRampInt _ _ h _ _
  case empty => exact .ok h
  case unknown => exact .error _
  case custom f => simp [forIntegers] at hm

/-- constants of the type -/
def ConstantsIn (R : α → t.Word → Prop) (p : Padder α) (i : Int) : Prop :=
  ∀ cv, Padder.pairAt p.constantValues i = .ok cv → R cv.1 (t.convert cv.1) ∧ R cv.2 (t.convert cv.2)

/-- the modes without statistics and ramps: equal modulo the size of the type -/
theorem rel_runModeInt_ring {R : α → t.Word → Prop} (hR : RingRel R) {p : Padder α} {i : Int} (hc : ConstantsIn R p i) {m : Mode α} (hm : forIntegers m = true) (hs : isStat m = false)
    (hl : m ≠ .linearRamp) {y : Tensor α} {y' : Tensor t.Word} (h : y.Rel R y')
    (idx : List PySlice) (axis : Nat) : ExRel (Tensor.Rel R) (p.runMode true i m y idx axis) (p.runModeInt t true i m y' idx axis) := by
  have h0 := hR.zero
  unfold Padder.runMode Padder.runModeInt
  rw [h.shape]
  cases m
  case replicate => exact rel_replicate1d h0 h _ _
  case smooth => exact rel_smooth1d hR h _ _
  case circular => exact rel_circular1d h0 _ h _ _
  case periodize => exact rel_periodize1d h0 _ h _ _
  case symmetric => exact rel_symmetric1d h0 _ _ _ (fun _ _ _ h => hR.neg h) h _ _
  case reflect => exact rel_reflect1d h0 _ _ h _ _
  case antisymmetric => exact rel_symmetric1d h0 _ _ _ (fun _ _ _ h => hR.neg h) h _ _
  case oddReflect => exact rel_oddReflect1d hR _ h _ _
  case oddSymmetric => exact rel_oddSymmetric1d hR _ h _ _
  case stat s => simp [isStat] at hs
  case zeros => exact .ok h
  case constant =>
    refine .bind_same _ fun cv hcv => ?_
    exact rel_constant1d h0 (hc _ hcv).1 (hc _ hcv).2 h _ _
  case linearRamp => exact absurd rfl hl
  case empty => exact .ok h
  case unknown => exact .error _
  case custom f => simp [forIntegers] at hm

/-- the modes that copy and compare: equal numbers -/
theorem rel_runModeInt_copy (hb : 0 < t.bits) {p : Padder α} {i : Int} {m : Mode α} (hc : m = .constant → ConstantsIn (IsNumber t) p i) (hm : forIntegers m = true) (ha : isArithmetic m = false)
    (hl : m ≠ .linearRamp) {y : Tensor α} {y' : Tensor t.Word} (h : y.Rel (IsNumber t) y')
    (idx : List PySlice) (axis : Nat) : ExRel (Tensor.Rel (IsNumber t)) (p.runMode true i m y idx axis) (p.runModeInt t true i m y' idx axis) := by
  have h0 := isNumber_zero (α := α) (t := t)
  unfold Padder.runMode Padder.runModeInt
  rw [h.shape]
  cases m
  case replicate => exact rel_replicate1d h0 h _ _
  case smooth => simp [isArithmetic] at ha
  case circular => exact rel_circular1d h0 _ h _ _
  case periodize => exact rel_periodize1d h0 _ h _ _
  case symmetric => exact rel_symmetric1d h0 _ _ _ (fun hf => by simp at hf) h _ _
  case reflect => exact rel_reflect1d h0 _ _ h _ _
  case antisymmetric => simp [isArithmetic] at ha
  case oddReflect => simp [isArithmetic] at ha
  case oddSymmetric => simp [isArithmetic] at ha
  case stat s =>
    refine .bind_same _ fun sl _ => ?_
    rw [stat1d_with]
    refine rel_stat1dWith h0 (fun x y h d => rel_reduceInt hb ?_ h d) _ _ h _ _
    rintro rfl
    simp [forIntegers] at hm
  case zeros => exact .ok h
  case constant =>
    refine .bind_same _ fun cv hcv => ?_
    exact rel_constant1d h0 (hc rfl _ hcv).1 (hc rfl _ hcv).2 h _ _
  case linearRamp => exact absurd rfl hl
  case empty => exact .ok h
  case unknown => exact .error _
  case custom f => simp [forIntegers] at hm

/-! ### `forward` -/

theorem okImp_forward {p q : Padder α} {run run' : Int → Mode α → Tensor β → List PySlice → Nat → Except Err (Tensor β)} [Zero β]
    (hw : p.padWidth = q.padWidth) (hn : p.ndim = q.ndim) (junk : List Nat → β) (x : Tensor β) (ax : Axes)
    (hi : ∀ axes, checkAxes x.ndim ax = .ok axes → ∀ i ∈ Padder.negRange (p.nPadded axes), ∃ m m', p.modeAt i = .ok m ∧ q.modeAt i = .ok m' ∧
      (m = m' ∨ m = .linearRamp ∧ m' = .constant) ∧ ∀ y idx axis, OkImp (run i m y idx axis) (run' i m' y idx axis)) :
    OkImp (Padder.forwardWith run p junk x ax) (Padder.forwardWith run' q junk x ax) := by
  have hstep : ∀ i m m', p.modeAt i = .ok m → q.modeAt i = .ok m' → (m = m' ∨ m = .linearRamp ∧ m' = .constant) →
      (∀ y idx axis, OkImp (run i m y idx axis) (run' i m' y idx axis)) → ∀ y a idx,
      OkImp (Padder.fillValueWith run p y i a idx) (Padder.fillValueWith run' q y i a idx) := by
    intro i m m' hm hm' hs hr y a idx
    unfold Padder.fillValueWith
    rw [hw]
    refine (OkImp.refl _).bind fun pw => ?_
    by_cases hz : pw.1 = 0 ∧ pw.2 = 0
    · simp only [if_pos hz]
      exact .refl _
    · simp only [if_neg hz, hm, hm']
      have main : ∀ idx : List PySlice, OkImp
          (do
            let axis ← Padder.axisNat y.ndim a
            let y ← run i m y idx axis
            let idx ← Padder.widen m pw idx axis
            return (y, some idx))
          (do
            let axis ← Padder.axisNat y.ndim a
            let y ← run' i m' y idx axis
            let idx ← Padder.widen m' pw idx axis
            return (y, some idx)) := by
        intro idx
        refine (OkImp.refl _).bind fun a => (hr _ _ _).bind fun y => ?_
        have e : Padder.widen m' pw idx a = Padder.widen m pw idx a := by
          rcases hs with rfl | ⟨rfl, rfl⟩ <;> rfl
        rw [e]
        exact .refl _
      rcases hs with rfl | ⟨rfl, rfl⟩
      · cases m
        case empty => exact .refl _
        case zeros => exact .refl _
        case unknown => exact .refl _
        all_goals
          cases idx with
          | none => exact .refl _
          | some idx => exact main idx
      · cases idx with
        | none => exact .refl _
        | some idx => exact main idx
  have hloop : ∀ (axes is : List Int), (∀ i ∈ is, ∃ m m', p.modeAt i = .ok m ∧ q.modeAt i = .ok m' ∧
      (m = m' ∨ m = .linearRamp ∧ m' = .constant) ∧ ∀ y idx axis, OkImp (run i m y idx axis) (run' i m' y idx axis)) → ∀ y idx,
      OkImp (Padder.fillLoopWith run p axes is y idx) (Padder.fillLoopWith run' q axes is y idx) := by
    intro axes is
    induction is with
    | nil => intro _ y idx; exact .refl _
    | cons i is ih =>
      intro hi y idx
      obtain ⟨m, m', h1, h2, h3, h4⟩ := hi i (by simp)
      unfold Padder.fillLoopWith
      exact (OkImp.refl _).bind fun a => (hstep i m m' h1 h2 h3 h4 y a idx).bind fun ⟨y, idx⟩ => ih (fun i hi' => hi i (by simp [hi'])) y idx
  have hacc : ∀ (axes is : List Int), (∀ i ∈ is, ∃ m m', p.modeAt i = .ok m ∧ q.modeAt i = .ok m' ∧
      (m = m' ∨ m = .linearRamp ∧ m' = .constant) ∧ ∀ y idx axis, OkImp (run i m y idx axis) (run' i m' y idx axis)) → ∀ acc,
      p.accLoop x.shape axes is acc = q.accLoop x.shape axes is acc := by
    intro axes is
    induction is with
    | nil => intro _ acc; rfl
    | cons i is ih =>
      intro hi acc
      obtain ⟨m, m', h1, h2, h3, h4⟩ := hi i (by simp)
      have e : p.accStep x.shape axes i acc = q.accStep x.shape axes i acc := by
        unfold Padder.accStep
        rw [hw, h1, h2]
        rcases h3 with rfl | ⟨rfl, rfl⟩ <;> rfl
      unfold Padder.accLoop
      rw [e]
      simp only [ih fun i hi' => hi i (by simp [hi'])]
  have hnp : ∀ axes, q.nPadded axes = p.nPadded axes := fun axes => by rw [Padder.nPadded, Padder.nPadded, hn]
  unfold Padder.forwardWith
  by_cases hz : x.ndim = 0
  · simp only [if_pos hz]
    exact .refl _
  simp only [if_neg hz]
  cases hax : checkAxes x.ndim ax with
  | error e => exact .refl _
  | ok axes =>
    show OkImp (if axes = [] then _ else _) (if axes = [] then _ else _)
    refine .ite (fun _ => .refl _) fun _ => ?_
    simp only [hnp, ← hacc axes _ (hi axes hax)]
    refine (OkImp.refl _).bind fun ⟨hv, av⟩ => ?_
    simp only
    refine .ite (fun _ => .refl _) fun _ => ?_
    split_ifs
    · exact .refl _
    · exact (OkImp.refl _).bind fun y => hloop axes _ (hi axes hax) _ _

/-- `forward` up to the point where padded values are written, cf. `forward_prefix` -/
theorem forwardWith_prefix [Zero β] (run : Int → Mode α → Tensor β → List PySlice → Nat → Except Err (Tensor β)) (p : Padder α) (junk : List Nat → β) (x : Tensor β) (ax : Axes) (axes : List Int)
    (ops : List (Nat × AxisPad α)) (hx : x.ndim ≠ 0) (hax : checkAxes x.ndim ax = .ok axes)
    (hne : axes ≠ [])
    (hf : List.Forall₂ (fun i (o : Nat × AxisPad α) => pyIndex axes i = .ok (o.1 : Int) ∧ Reads p i o.2)
      (Padder.negRange (p.nPadded axes)) ops)
    (hnd : (ops.map Prod.fst).Nodup) (hlt : ∀ o ∈ ops, o.1 < x.ndim) :
    (p.forwardWith run junk x ax = .ok x ∧ ∀ o ∈ ops, o.2.before = 0 ∧ o.2.after = 0) ∨
    ∃ y' W, p.forwardWith run junk x ax = p.fillLoopWith run axes (Padder.negRange (p.nPadded axes)) y' (some (idxOf W)) ∧
      WinOK W y'.shape ∧ y'.shape.length = x.shape.length ∧
      (∀ o ∈ ops, W.getD o.1 (0, 0) = (o.2.before, o.2.before + x.shape.getD o.1 0) ∧
        y'.shape.getD o.1 0 = o.2.before + x.shape.getD o.1 0 + o.2.total (x.shape.getD o.1 0)) := by
  obtain ⟨B, A, hBA⟩ : ∃ B A, accN x.shape ops (x.shape.map fun _ => 0, x.shape.map fun _ => 0) = (B, A) :=
    ⟨_, _, rfl⟩
  have hacc := accLoop_spec (p := p) (shape := x.shape) (axes := axes) ops _
    (x.shape.map fun _ => 0, x.shape.map fun _ => 0) hf hlt
  have hlen := accN_length x.shape ops (x.shape.map fun _ => 0, x.shape.map fun _ => 0)
  have hmem := accN_mem x.shape ops (x.shape.map fun _ => 0, x.shape.map fun _ => 0) hnd
    (fun o ho => by have := hlt o ho; simp only [Tensor.ndim] at this; simpa using this)
  have hz : ∀ k, (x.shape.map fun _ => 0).getD k 0 = 0 := by
    intro k
    simp only [List.getD_eq_getElem?_getD, List.getElem?_map]
    cases x.shape[k]? <;> rfl
  rw [hBA] at hacc hlen hmem
  simp only [hz, Nat.zero_add, List.length_map] at hacc hlen hmem
  simp only [Padder.forwardWith, if_neg hx, hax, if_neg hne, bind, Except.bind, pure, Except.pure, castV_zero,
    hacc, tailV_eq, zipAdd_cast, idx_eq]
  rw [← newShape]
  split_ifs with h1 h2
  · left
    have h1 := castV_inj (w := x.shape) h1
    refine ⟨rfl, ?_⟩
    intro o ho
    have hk := hlt o ho
    simp only [Tensor.ndim] at hk
    have h3 := getD_newShape hlen.1 hlen.2 hk
    rw [h1, (hmem o ho).1, (hmem o ho).2] at h3
    by_contra hc
    rw [AxisPad.total, if_neg hc] at h3
    omega
  · rw [castV_any_neg] at h2; exact absurd h2 (by simp)
  · rw [castV_toNat]
    have hWlen := length_win0 (B := B) (shape := x.shape) hlen.1
    have hW : WinOK (win0 B x.shape) (Tensor.empty junk (newShape B x.shape A)).shape := by
      rw [WinOK, List.forall₂_iff_get]
      refine ⟨by rw [hWlen]; exact (length_newShape hlen.1 hlen.2).symm, ?_⟩
      intro k hk1 hk2
      have hk : k < x.shape.length := by rw [← hWlen]; exact hk1
      have e1 : (win0 B x.shape).get ⟨k, hk1⟩ = (win0 B x.shape).getD k (0, 0) := by
        simp [List.getD_eq_getElem?_getD, List.getElem?_eq_getElem hk1]
      have e2 : (Tensor.empty junk (newShape B x.shape A)).shape.get ⟨k, hk2⟩ =
          (newShape B x.shape A).getD k 0 := by
        have hk2' : k < (newShape B x.shape A).length := hk2
        simp [Tensor.empty, List.getD_eq_getElem?_getD, List.getElem?_eq_getElem hk2']
      rw [e1, e2, getD_win0 hlen.1 hk, getD_newShape hlen.1 hlen.2 hk]
      simp only
      omega
    right
    have hE : (Tensor.empty junk (newShape B x.shape A)).shape = newShape B x.shape A := rfl
    obtain ⟨y', hy1, hy2, hy3, hy4⟩ := restrict_setSlice hW (wlen_win0 hlen.1)
    rw [hy1]
    refine ⟨y', win0 B x.shape, rfl, by rw [hy2]; exact hW, by rw [hy2, hE]; exact length_newShape hlen.1 hlen.2, ?_⟩
    intro o ho
    have hk := hlt o ho
    simp only [Tensor.ndim] at hk
    rw [getD_win0 hlen.1 hk, hy2, hE, getD_newShape hlen.1 hlen.2 hk, (hmem o ho).1, (hmem o ho).2]
    exact ⟨rfl, rfl⟩

/-- a statistic that is refused -/
theorem stat1dWith_error [Zero β] {red : Tensor β → Nat → Except Err (Tensor β)} {e : Err} (hr : ∀ x d, red x d = .error e) (before after : Option Int) (x : Tensor β)
    {idx : List PySlice} {dim : Nat} {head tail : Int} (hb : bounds idx dim = .ok (head, tail)) (hp : head > 0 ∨ tail < (x.shape.getD dim 0 : Int)) :
    stat1dWith red before after x idx dim = .error e := by
  unfold stat1dWith
  simp only [hb, hr, bind, Except.bind]
  by_cases h1 : (head > 0 ∧ tail < (x.shape.getD dim 0 : Int)) ∧ before = none ∧ after = none
  · rw [if_pos h1]
  · rw [if_neg h1]
    simp only [pure, Except.pure]
    by_cases h2 : head > 0
    · rw [if_pos h2]
    · rw [if_neg h2]
      simp only
      rw [if_pos (hp.resolve_left h2)]

/-- a run whose first padded axis asks for the mean -/
theorem fillLoopInt_mean {p : Padder α} (axes : List Int) (y : Tensor t.Word) (W : List (Nat × Nat)) (S : List Nat) : ∀ (ops : List (Nat × AxisPad α)) (is : List Int),
    List.Forall₂ (fun i (o : Nat × AxisPad α) => pyIndex axes i = .ok (o.1 : Int) ∧ Reads p i o.2) is ops →
    (∀ o ∈ ops, o.1 < W.length ∧ o.1 < y.ndim ∧ W.getD o.1 (0, 0) = (o.2.before, o.2.before + S.getD o.1 0) ∧
        y.shape.getD o.1 0 = o.2.before + S.getD o.1 0 + o.2.total (S.getD o.1 0)) →
    (∀ o ∈ ops, ¬ (o.2.before = 0 ∧ o.2.after = 0) → o.2.mode = .stat .mean) → (∃ o ∈ ops, ¬ (o.2.before = 0 ∧ o.2.after = 0)) →
    p.fillLoopWith (p.runModeInt t true) axes is y (some (idxOf W)) = .error .runtime
  | [], _, _, _, _, hex => by obtain ⟨o, ho, _⟩ := hex; simp at ho
  | o :: ops, is, hf, hops, hmean, hex => by
    cases hf with
    | @cons i _ is _ h1 hf =>
    have hw := h1.2.width
    simp only [Padder.fillLoopWith, h1.1, bind, Except.bind]
    by_cases hz : o.2.before = 0 ∧ o.2.after = 0
    · have e : p.fillValueWith (p.runModeInt t true) y i (o.1 : Int) (some (idxOf W)) = .ok (y, some (idxOf W)) := by
        simp [Padder.fillValueWith, hw, hz.1, hz.2, bind, Except.bind, pure, Except.pure]
      rw [e]
      refine fillLoopInt_mean axes y W S ops is hf (fun o ho => hops o (by simp [ho])) (fun o ho => hmean o (by simp [ho])) ?_
      obtain ⟨o', ho', hn⟩ := hex
      rcases List.mem_cons.1 ho' with rfl | ho'
      · exact absurd hz hn
      · exact ⟨o', ho', hn⟩
    · obtain ⟨hd, hd', hwin, hN⟩ := hops o (by simp)
      have hm := hmean o (by simp) hz
      have hz' : ¬ (((o.2.before : Int), (o.2.after : Int)).1 = 0 ∧ ((o.2.before : Int), (o.2.after : Int)).2 = 0) := by
        simp only; omega
      have hax : Padder.axisNat y.ndim (o.1 : Int) = .ok o.1 := by
        rw [Padder.axisNat, if_pos (by omega)]; simp
      have hb := bounds_idxOf hd hwin
      have e := stat1dWith_error (red := Stat.reduceInt t .mean) (e := .runtime) (fun x d => by rw [Stat.reduceInt, if_pos rfl]) o.2.sl.1 o.2.sl.2 y hb (by
        rw [hN, AxisPad.total, if_neg hz, hm]
        simp only [Mode.isPeriodize]
        push_cast
        omega)
      have e2 : p.runModeInt t true i (.stat .mean) y (idxOf W) o.1 = .error .runtime := by
        simp only [Padder.runModeInt, h1.2.sl, bind, Except.bind]
        exact e
      simp only [Padder.fillValueWith, hw, bind, Except.bind, if_neg hz', h1.2.mode, hm, hax, e2]

/-- settings given one by one -/
def listPadder (p : Padder α) (ss : List (AxisPad α)) : Padder α where
  padWidth := p.padWidth
  mode := ⟨.seq (ss.map fun s => .leaf s.mode), [ss.length], 1⟩
  constantValues := ⟨.seq (ss.map fun s => .seq [.leaf s.cv.1, .leaf s.cv.2]), [ss.length, 2], 1⟩
  endValues := ⟨.seq (ss.map fun s => .seq [.leaf s.ev.1, .leaf s.ev.2]), [ss.length, 2], 1⟩
  statLength := ⟨.seq (ss.map fun s => .seq [.leaf s.sl.1, .leaf s.sl.2]), [ss.length, 2], 1⟩
  ndim := p.ndim

theorem listPadder_reads {p : Padder α} {ss : List (AxisPad α)} {j : Nat} (hj : j < ss.length)
    (hw : Padder.pairAt p.padWidth ((j : Int) - ss.length) = .ok ((ss[j].before : Int), (ss[j].after : Int))) :
    Reads (listPadder p ss) ((j : Int) - ss.length) ss[j] := by
  have hi : ∀ {δ : Type} (f : AxisPad α → δ), pyIndex (ss.map f) ((j : Int) - ss.length) = .ok (f ss[j]) := by
    intro δ f
    have := pyIndex_neg (l := ss.map f) (j := j) (k := ss.length) (by simp) hj
    rw [this]
    simp
  have hp : ∀ {δ : Type} (f : AxisPad α → δ × δ) (sh : List Int), Padder.pairAt ⟨.seq (ss.map fun s => .seq [.leaf (f s).1, .leaf (f s).2]), sh, 1⟩ ((j : Int) - ss.length) = .ok (f ss[j]) := by
    intro δ f sh
    have := hi (fun s => Py.seq [.leaf (f s).1, .leaf (f s).2])
    simp only [Padder.pairAt, NdSpec.get, NdSpec.isItem, Py.index, this, bind, Except.bind]
    rfl
  refine ⟨hw, ?_, hp (·.cv) _, hp (·.ev) _, hp (·.sl) _⟩
  have := hi (fun s => Py.leaf s.mode)
  simp only [listPadder, Padder.modeAt, NdSpec.get, NdSpec.isItem, Py.index, this, bind, Except.bind]
  rfl

end
end TI
