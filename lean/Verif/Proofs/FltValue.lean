import Verif.Proofs.FltPool

/-!
# Values of sums with terms that are not finite, and of pooled images
-/

set_option linter.unusedSectionVars false

namespace TI
open Tensor Spec

namespace Flt
variable {α : Type} [Field α] [LinearOrder α] [IsStrictOrderedRing α]

theorem add_comm' (a b : Flt α) : a + b = b + a := by
  cases a <;> cases b
  · exact congrArg num (add_comm _ _)
  · rfl
  · rfl
  · rfl
  · rename_i s r
    cases s <;> cases r <;> rfl
  all_goals rfl

theorem add_assoc' (a b c : Flt α) : a + b + c = a + (b + c) := by
  cases a <;> cases b <;> cases c
  case num.num.num => exact congrArg num (add_assoc _ _ _)
  case inf.inf.inf s r t => cases s <;> cases r <;> cases t <;> rfl
  case inf.inf.num s r t => cases s <;> cases r <;> rfl
  case inf.num.inf s t r => cases s <;> cases r <;> rfl
  case num.inf.inf t s r => cases s <;> cases r <;> rfl
  case inf.inf.nan s r => cases s <;> cases r <;> rfl
  case inf.nan.inf s r => cases s <;> cases r <;> rfl
  case nan.inf.inf s r => cases s <;> cases r <;> rfl
  all_goals rfl

theorem zero_add' (a : Flt α) : 0 + a = a := by
  cases a
  · exact congrArg num (zero_add _)
  · rfl
  · rfl

instance : AddCommMonoid (Flt α) where
  add_assoc := add_assoc'
  zero_add := zero_add'
  add_zero a := by rw [add_comm', zero_add']
  add_comm := add_comm'
  nsmul := nsmulRec

theorem num_mul_inf (a : α) (r : Bool) : num a * inf r = if a = 0 then nan else inf (decide (a < 0) != r) := rfl
theorem inf_mul_num (b : α) (s : Bool) : inf s * num b = if b = 0 then nan else inf (s != decide (b < 0)) := rfl
theorem inf_add_inf (s r : Bool) : (inf s + inf r : Flt α) = if s = r then inf s else nan := rfl

theorem mul_num_comm (a : α) (b : Flt α) : num a * b = b * num a := by
  cases b with
  | num b => exact congrArg num (mul_comm _ _)
  | inf s => rw [num_mul_inf, inf_mul_num]; cases s <;> cases decide (a < 0) <;> rfl
  | nan => rfl

theorem num_mul_add (a : α) (b c : Flt α) : num a * (b + c) = num a * b + num a * c := by
  cases b <;> cases c
  case num.num => exact congrArg num (mul_add _ _ _)
  case inf.inf s r =>
    rw [inf_add_inf, num_mul_inf, num_mul_inf]
    by_cases h : a = 0
    · cases s <;> cases r <;> simp [h, num_mul_inf, mul_nan, nan_add]
    · cases hd : decide (a < 0) <;> cases s <;> cases r <;> simp [h, hd, num_mul_inf, mul_nan, inf_add_inf]
  case inf.num s c =>
    rw [show (inf s + num c : Flt α) = inf s from rfl, num_mul_inf]
    by_cases h : a = 0
    · simp [h, nan_add]
    · simp only [h, if_false]; rfl
  case num.inf c s =>
    rw [show (num c + inf s : Flt α) = inf s from rfl, num_mul_inf]
    by_cases h : a = 0
    · simp [h, add_nan]
    · simp only [h, if_false]; rfl
  all_goals simp [mul_nan, nan_add, add_nan]

theorem num_mul_mul (a b : α) (c : Flt α) : num a * (num b * c) = num (a * b) * c := by
  cases c with
  | num c => exact congrArg num (mul_assoc _ _ _).symm
  | nan => rfl
  | inf s =>
    rw [num_mul_inf, num_mul_inf]
    by_cases hb : b = 0
    · simp [hb, mul_nan]
    by_cases ha : a = 0
    · simp [hb, ha, num_mul_inf]
    simp only [hb, ha, if_false, num_mul_inf, mul_eq_zero, or_self]
    congr 1
    have : decide (a * b < 0) = (decide (a < 0) != decide (b < 0)) := by
      rcases lt_or_gt_of_ne ha with h1 | h1 <;> rcases lt_or_gt_of_ne hb with h2 | h2
      · rw [decide_eq_true h1, decide_eq_true h2, decide_eq_false (mul_pos_of_neg_of_neg h1 h2).le.not_gt]; rfl
      · rw [decide_eq_true h1, decide_eq_false h2.le.not_gt, decide_eq_true (mul_neg_of_neg_of_pos h1 h2)]; rfl
      · rw [decide_eq_false h1.le.not_gt, decide_eq_true h2, decide_eq_true (mul_neg_of_pos_of_neg h1 h2)]; rfl
      · rw [decide_eq_false h1.le.not_gt, decide_eq_false h2.le.not_gt, decide_eq_false (mul_pos h1 h2).le.not_gt]; rfl
    rw [this]
    cases s <;> cases decide (a < 0) <;> cases decide (b < 0) <;> rfl

theorem num_mul_sum {β : Type} (l : List β) (c : α) (f : β → Flt α) : num c * (l.map f).sum = (l.map fun b => num c * f b).sum := by
  induction l with
  | nil => exact congrArg num (mul_zero c)
  | cons a l ih => rw [List.map_cons, List.sum_cons, num_mul_add, ih, List.map_cons, List.sum_cons]

/-- a sum is infinite exactly if it has infinite terms of this sign, and no terms that are NaN or infinite of the other one -/
theorem sum_eq_inf {s : Bool} : ∀ {l : List (Flt α)}, l.sum = inf s ↔ inf s ∈ l ∧ nan ∉ l ∧ inf (!s) ∉ l := by
  have key : ∀ l : List (Flt α), (∃ a, l.sum = num a ∧ ∀ s, inf s ∉ l) ∧ nan ∉ l ∨ (∃ s, l.sum = inf s ∧ inf s ∈ l ∧ inf (!s) ∉ l) ∧ nan ∉ l ∨
      l.sum = nan ∧ (nan ∈ l ∨ ∀ s, inf s ∈ l) := by
    intro l
    induction l with
    | nil => exact Or.inl ⟨⟨0, rfl, by simp⟩, by simp⟩
    | cons b l ih =>
      rw [List.sum_cons]
      rcases ih with ⟨⟨a, h1, h2⟩, h3⟩ | ⟨⟨s, h1, h2, h4⟩, h3⟩ | ⟨h1, h2⟩
      · rw [h1]
        cases b with
        | num b => exact Or.inl ⟨⟨b + a, rfl, by simp [h2]⟩, by simp [h3]⟩
        | inf s => exact Or.inr (Or.inl ⟨⟨s, rfl, by simp, by simp [h2]⟩, by simp [h3]⟩)
        | nan => exact Or.inr (Or.inr ⟨rfl, by simp⟩)
      · rw [h1]
        cases b with
        | num b => exact Or.inr (Or.inl ⟨⟨s, rfl, by simp [h2], by simp [h4]⟩, by simp [h3]⟩)
        | inf r =>
          rw [inf_add_inf]
          by_cases hr : r = s
          · subst hr
            exact Or.inr (Or.inl ⟨⟨r, if_pos rfl, by simp, by simp [h4]⟩, by simp [h3]⟩)
          · refine Or.inr (Or.inr ⟨if_neg hr, Or.inr fun t => ?_⟩)
            by_cases ht : t = s
            · simp [ht, h2]
            · have : t = r := by cases t <;> cases r <;> cases s <;> simp_all
              simp [this]
        | nan => exact Or.inr (Or.inr ⟨rfl, by simp⟩)
      · rw [h1, add_nan]
        refine Or.inr (Or.inr ⟨rfl, ?_⟩)
        rcases h2 with h2 | h2
        · exact Or.inl (by simp [h2])
        · exact Or.inr fun s => by simp [h2 s]
  intro l
  rcases key l with ⟨⟨a, h1, h2⟩, h3⟩ | ⟨⟨r, h1, h2, h4⟩, h3⟩ | ⟨h1, h2⟩
  · rw [h1]; simp [h2]
  · rw [h1]
    by_cases hr : r = s
    · subst hr; simp [h2, h3, h4]
    · have : r = !s := by cases r <;> cases s <;> simp_all
      subst this
      have h4 : inf s ∉ l := by simpa using h4
      simp [h4, hr]
  · rw [h1]
    rcases h2 with h2 | h2
    · simp [h2]
    · simp [h2]

theorem num_mul_eq_inf {a : α} {b : Flt α} {s : Bool} : num a * b = inf s ↔ Pulls a b s := by
  cases b with
  | num b => exact iff_of_false (fun h => by cases h) (fun h => by rcases h with ⟨_, h⟩ | ⟨_, h⟩ <;> cases h)
  | nan => exact iff_of_false (fun h => by cases h) (fun h => by rcases h with ⟨_, h⟩ | ⟨_, h⟩ <;> cases h)
  | inf r =>
    rw [num_mul_inf]
    unfold Pulls
    rcases lt_trichotomy a 0 with h | h | h
    · simp [h, h.ne, h.le]
    · simp [h]
    · simp [h, h.ne', not_lt.2 h.le]

theorem num_mul_eq_nan {a : α} {b : Flt α} : num a * b = nan ↔ b = nan ∨ a = 0 ∧ ¬ IsFinite b := by
  cases b with
  | num b => exact iff_of_false (fun h => by cases h) (fun h => by
      rcases h with h | ⟨_, h⟩
      · cases h
      · exact h ⟨b, rfl⟩)
  | nan => exact iff_of_true rfl (Or.inl rfl)
  | inf r =>
    have : ¬ IsFinite (inf r : Flt α) := fun ⟨_, h⟩ => by cases h
    rw [num_mul_inf]
    by_cases h : a = 0 <;> simp [h, this]

theorem le_iff {b c : Flt α} (hb : b ≠ nan) (hc : c ≠ nan) : b.le c = true ↔ FltLe b c := by
  constructor
  · intro h
    cases b with
    | nan => exact absurd rfl hb
    | inf s =>
      cases s with
      | true => exact .low _ hc
      | false =>
        cases c with
        | nan => exact absurd rfl hc
        | num c => simp [Flt.le] at h
        | inf r =>
          cases r with
          | true => simp [Flt.le] at h
          | false => exact .high _ hb
    | num b =>
      cases c with
      | nan => exact absurd rfl hc
      | num c => exact .num (by simpa [Flt.le] using h)
      | inf r =>
        cases r with
        | true => simp [Flt.le] at h
        | false => exact .high _ hb
  · intro h
    cases h with
    | low b hb => rfl
    | high b hb => cases b with
      | inf s => cases s <;> rfl
      | _ => rfl
    | num h => simpa [Flt.le] using h

theorem fltLe_total {b c : Flt α} (hb : b ≠ nan) (hc : c ≠ nan) : FltLe b c ∨ FltLe c b := by
  cases b with
  | nan => exact absurd rfl hb
  | inf s => cases s with
    | true => exact Or.inl (.low _ hc)
    | false => exact Or.inr (.high _ hc)
  | num b => cases c with
    | nan => exact absurd rfl hc
    | inf r => cases r with
      | true => exact Or.inr (.low _ hb)
      | false => exact Or.inl (.high _ hb)
    | num c => rcases le_total b c with h | h
               · exact Or.inl (.num h)
               · exact Or.inr (.num h)

theorem fltLe_trans {b c d : Flt α} (h : FltLe b c) (h' : FltLe c d) : FltLe b d := by
  cases h with
  | low b hb =>
    refine .low d ?_
    cases h' with
    | low _ h => exact h
    | high _ h => simp
    | num _ => simp
  | high b hb => cases h' with
    | high _ h => exact .high _ hb
  | num h => cases h' with
    | high _ _ => exact .high _ (by simp)
    | num h' => exact .num (h.trans h')

theorem fltLe_refl {b : Flt α} (hb : b ≠ nan) : FltLe b b := (fltLe_total hb hb).elim id id

/-- a fold that keeps the better of two entries -/
theorem foldl_best {P : Flt α → Flt α → Prop} {step : Flt α → Flt α → Flt α} (hr : ∀ b : Flt α, b ≠ nan → P b b) (ht : ∀ b c d, P b c → P c d → P b d)
    (hs : ∀ a b : Flt α, a ≠ nan → b ≠ nan → (step a b = a ∨ step a b = b) ∧ P a (step a b) ∧ P b (step a b)) :
    ∀ (l : List (Flt α)) (a : Flt α), a ≠ nan → nan ∉ l → (l.foldl step a = a ∨ l.foldl step a ∈ l) ∧ P a (l.foldl step a) ∧ ∀ b ∈ l, P b (l.foldl step a)
  | [], a, ha, _ => ⟨Or.inl rfl, hr a ha, by simp⟩
  | c :: l, a, ha, hl => by
    have hc : c ≠ nan := fun h => hl (by simp [h])
    obtain ⟨s1, s2, s3⟩ := hs a c ha hc
    have hn : step a c ≠ nan := by rcases s1 with h | h <;> rw [h] <;> assumption
    obtain ⟨i1, i2, i3⟩ := foldl_best hr ht hs l (step a c) hn fun h => hl (by simp [h])
    refine ⟨?_, ht _ _ _ s2 i2, ?_⟩
    · rw [List.foldl_cons]
      rcases i1 with h | h
      · rcases s1 with h' | h'
        · exact Or.inl (h.trans h')
        · exact Or.inr (by rw [h, h']; simp)
      · exact Or.inr (by simp [h])
    · intro b hb
      rcases List.mem_cons.1 hb with rfl | hb
      · exact ht _ _ _ s3 i2
      · exact i3 b hb

theorem any_isNan_false {l : List (Flt α)} (h : nan ∉ l) : l.any isNan = false := by
  rw [List.any_eq_false]
  intro b hb
  cases b with
  | nan => exact absurd hb h
  | _ => simp [isNan]

end Flt

section
variable {α : Type} [Field α] [LinearOrder α] [IsStrictOrderedRing α]
variable {pool : SepPool α} {g : PoolArgs α} {m : Nat} {X : Tensor (Flt α)} {axes : List Nat}

/-- `slide` for floating-point numbers -/
def slideFlt (X : Tensor (Flt α)) (o : PoolOp α) : Tensor (Flt α) :=
  if o.kernel = [] then X
  else Tensor.ofFn (X.shape.set o.axis (windowCount (X.shape.getD o.axis 0) o.kernel.length o.stride 1)) fun ix =>
    ((List.range o.kernel.length).map fun j => .num (o.kernel.getD j 0) * X.get (ix.set o.axis (ix.getD o.axis 0 * o.stride + j))).sum

def poolSeqFlt (X : Tensor (Flt α)) (ops : List (PoolOp α)) : Tensor (Flt α) := ops.foldl slideFlt X

theorem slideFlt_shape (x : Tensor α) (hs : x.shape = X.shape) (o : PoolOp α) : (slide x o).shape = (slideFlt X o).shape := by
  unfold slide slideFlt
  split_ifs
  · exact hs
  · simp only [shape_ofFn, hs]

theorem unfold_matvecFlt {a s : Nat} {w : List α} (ha : a < X.ndim) (hw : w ≠ []) (hs : 0 < s) (hf : w.length ≤ X.shape.getD a 0) :
    (X.unfold a (w.length : Int) (s : Int)).bind (fun y => y.matvec (w.map Flt.num)) = .ok (slideFlt X ⟨a, w, s⟩) := by
  have hpos : 0 < w.length := List.length_pos_iff.2 hw
  have hu : X.unfold a (w.length : Int) (s : Int) = .ok (ofFn (X.shape.set a ((X.shape.getD a 0 - w.length) / s + 1) ++ [w.length]) fun ix =>
        X.get (ix.dropLast.set a (ix.getD a 0 * s + ix.getLastD 0))) := by
    rw [Tensor.unfold, if_pos ha, if_neg (by omega)]
    simp
  rw [hu]
  simp only [Except.bind]
  rw [Tensor.matvec, if_pos ⟨by simp [ofFn], by simp [ofFn, List.getLastD_eq_getLast?]⟩]
  congr 1
  rw [slideFlt, if_neg hw]
  have hsh : (ofFn (X.shape.set a ((X.shape.getD a 0 - w.length) / s + 1) ++ [w.length]) fun ix =>
      X.get (ix.dropLast.set a (ix.getD a 0 * s + ix.getLastD 0))).shape.dropLast =
      X.shape.set a (windowCount (X.shape.getD a 0) w.length s 1) := by
    rw [windowCount_pos hs hpos hf]
    simp [ofFn]
  rw [hsh]
  apply ofFn_congr
  intro ix hix
  rw [List.length_map]
  congr 1
  apply List.map_congr_left
  intro j hj
  rw [windowCount_pos hs hpos hf] at hix
  rw [get_ofFn (inB_concat hix (List.mem_range.1 hj)), Flt.mul_num_comm]
  have hl : a < ix.length := by
    rw [hix.length_eq]
    simpa [Tensor.ndim] using ha
  have hj := List.mem_range.1 hj
  rw [List.dropLast_concat, getD_append_lt hl]
  simp [hj]

theorem PoolIs.stepFlt_eq (h : PoolIs pool g m) {i : Nat} (hi : g.isMany = true → i < m) {axes : List Nat}
    (hf : (g.op axes i).kernel ≠ [] → (g.op axes i).axis < X.ndim ∧ 0 < (g.op axes i).stride ∧
      (g.op axes i).kernel.length ≤ X.shape.getD (g.op axes i).axis 0) :
    SepPool.poolStepFlt pool i ((axes.getD i 0 : Nat) : Int) X = .ok (slideFlt X (g.op axes i)) := by
  have e1 := h.getSize hi
  have e2 := h.getStride hi axes
  have e3 := h.getKernel hi
  cases hk : pool.kernelSize.get (i : Int) with
  | error e => rw [hk] at e1; simp [Except.bind] at e1
  | ok k =>
  rw [hk] at e1
  simp only [Except.bind] at e1
  simp only [SepPool.poolStepFlt, hk, e1, bind, Except.bind]
  by_cases h0 : g.kernel.entry [] i = []
  · rw [if_pos (by simp [h0])]
    simp [slideFlt, PoolArgs.op, h0, pure, Except.pure]
  · have hpos : 0 < (g.kernel.entry [] i).length := List.length_pos_iff.2 h0
    rw [if_neg (by omega)]
    obtain ⟨f1, f2, f3⟩ := hf h0
    cases hs : pool.stride.get (i : Int) with
    | error e => rw [hs] at e2; simp [Except.bind] at e2
    | ok s =>
    rw [hs] at e2
    simp only [Except.bind] at e2
    cases hw : pool.kernel.get (i : Int) with
    | error e => rw [hw] at e3; simp [Except.bind] at e3
    | ok w =>
    rw [hw] at e3
    simp only [Except.bind] at e3
    have hsl := unfold_matvecFlt (X := X) (a := (g.op axes i).axis) (s := (g.op axes i).stride) (w := g.kernel.entry [] i) f1 h0 f2 f3
    have hax : convDim X.ndim ((axes.getD i 0 : Nat) : Int) = .ok (g.op axes i).axis := convDim_nat f1
    simp only [e2, hax, e3]
    exact hsl

theorem PoolIs.loopFlt_eq (h : PoolIs pool g m) {axes : List Nat} (hi : g.isMany = true → axes.length ≤ m) :
    ∀ (n i : Nat) (x : Tensor α) (X : Tensor (Flt α)), x.shape = X.shape → i + n = axes.length →
      Fitting x ((List.range n).map fun j => g.op axes (i + j)) →
      SepPool.poolLoopFlt pool i (castV (axes.drop i)) X = .ok (poolSeqFlt X ((List.range n).map fun j => g.op axes (i + j)))
  | 0, i, x, X, hx, hn, _ => by
    rw [List.drop_eq_nil_of_le (by omega)]
    rfl
  | n + 1, i, x, X, hx, hn, hf => by
    have hlt : i < axes.length := by omega
    rw [List.range_succ_eq_map, List.map_cons, List.map_map] at hf ⊢
    have hd : axes.drop i = axes.getD i 0 :: axes.drop (i + 1) := by
      rw [List.drop_eq_getElem_cons hlt]
      simp [hlt]
    have hfun : (fun j => g.op axes (i + j)) ∘ Nat.succ = fun j => g.op axes (i + 1 + j) := by
      funext j
      simp only [Function.comp, Nat.succ_eq_add_one]
      congr 1
      omega
    rw [hfun] at hf ⊢
    rw [hd, castV, List.map_cons, SepPool.poolLoopFlt]
    simp only [Nat.add_zero] at hf ⊢
    have z1 := h.stepFlt_eq (X := X) (fun hm => by have := hi hm; omega) (axes := axes) (i := i) (by
      have := hf.1
      rwa [Tensor.ndim, hx] at this)
    rw [z1]
    exact PoolIs.loopFlt_eq h hi n (i + 1) _ _ (slideFlt_shape x hx _) (by omega) hf.2

theorem PoolIs.loopFlt_all_eq (h : PoolIs pool g m) {x : Tensor α} (hx : x.shape = X.shape) (hi : g.isMany = true → axes.length ≤ m) (hf : Fitting x (g.ops axes)) :
    SepPool.poolLoopFlt pool 0 (castV axes) X = .ok (poolSeqFlt X (g.ops axes)) := by
  have := h.loopFlt_eq hi axes.length 0 x X hx (by omega) (by simpa [PoolArgs.ops] using hf)
  simpa [PoolArgs.ops] using this

theorem slideFlt_get {o : PoolOp α} (hk : o.kernel ≠ []) {x : Tensor α} (hx : x.shape = X.shape) {ix : List Nat} (hix : InB (slide x o).shape ix) : (slideFlt X o).get ix =
    ((List.range o.kernel.length).map fun j => .num (o.kernel.getD j 0) * X.get (ix.set o.axis (ix.getD o.axis 0 * o.stride + j))).sum := by
  rw [slideFlt, if_neg hk, get_ofFn]
  rw [slide_shape, if_neg hk, hx] at hix
  exact hix

/-- pooling one axis after the other is one sum over the window with the products of the weights, also for terms that are not finite -/
theorem poolSeqFlt_get : ∀ {ops : List (PoolOp α)} {x : Tensor α} {X : Tensor (Flt α)}, x.shape = X.shape → PoolOps x ops → (∀ o ∈ ops, o.kernel ≠ []) →
    (poolSeqFlt X ops).shape = (corrNd x ops).shape ∧ ∀ ix, InB (corrNd x ops).shape ix → (poolSeqFlt X ops).get ix = (windowTerms X ops ix).sum
  | [], x, X, hx, _, _ => by
    refine ⟨hx.symm, fun ix _ => ?_⟩
    have h1 : ∀ b : Flt α, .num 1 * b = b := by
      intro b
      cases b with
      | num b => exact congrArg Flt.num (one_mul b)
      | inf s => rw [Flt.num_mul_inf, if_neg one_ne_zero]; simp [not_lt.2 (zero_le_one (α := α))]
      | nan => rfl
    simp [poolSeqFlt, windowTerms, indices, corrWeight, corrSource, h1]
  | o :: ops, x, X, hx, h, hne => by
    have hk := hne o (by simp)
    have hne' : ∀ p ∈ ops, p.kernel ≠ [] := fun p hp => hne p (by simp [hp])
    obtain ⟨i1, i2⟩ := poolSeqFlt_get (slideFlt_shape x hx o) h.tail hne'
    refine ⟨by rw [corrNd_shape_cons h.nodup hk]; exact i1, fun ix hix => ?_⟩
    rw [corrNd_shape_cons h.nodup hk] at hix
    change (poolSeqFlt (slideFlt X o) ops).get ix = _
    rw [i2 ix hix, windowTerms, windowTerms, List.map_cons, indices, sum_flatMap]
    have l1 : ((indices (ops.map fun o => o.kernel.length)).map fun j => Flt.num (corrWeight ops j) * (slideFlt X o).get (corrSource ops ix j)) =
        (indices (ops.map fun o => o.kernel.length)).map fun j => ((List.range o.kernel.length).map fun i =>
          Flt.num (corrWeight (o :: ops) (i :: j)) * X.get (corrSource (o :: ops) ix (i :: j))).sum := by
      apply List.map_congr_left
      intro j hj
      rw [slideFlt_get hk hx (corrSource_inB h.tail hne' hix (mem_indices.1 hj)), Flt.num_mul_sum]
      congr 1
      apply List.map_congr_left
      intro i _
      rw [corrSource_cons h.nodup, corrWeight, corrWeight, List.zipWith_cons_cons, List.prod_cons, Flt.num_mul_mul, mul_comm]
    rw [l1, sum_map_comm]
    congr 1
    apply List.map_congr_left
    intro i _
    rw [List.map_map]
    rfl

end

end TI
