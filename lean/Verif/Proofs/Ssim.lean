import Verif.Proofs.SsimSym
import Verif.Spec.Ssim

/-!
# SSIM: the map in terms of the blur, bounds, cropping
-/

set_option linter.unusedSectionVars false

namespace TI
open Tensor Spec

variable {α : Type} [Field α] [LinearOrder α] [IsStrictOrderedRing α]

/-! ## the map -/

/-- On tensors of shape `S` and with padders satisfying `P` the blur returns `b x`, of shape `T`, and leaves the padder `q`. -/
structure Steady (s : SSIM α) (junk : List Nat → α) (axes : List Int) (P : Option (Padder α) → Prop) (q : Option (Padder α))
    (S T : List Nat) (b : Tensor α → Tensor α) : Prop where
  run : ∀ p, P p → ∀ x : Tensor α, x.shape = S → s.blur junk x axes p = (q, .ok (b x))
  post : P q
  shape : ∀ x : Tensor α, x.shape = S → (b x).shape = T

variable {s : SSIM α} {junk : List Nat → α} {axes : List Int} {P : Option (Padder α) → Prop} {p q : Option (Padder α)}
  {S T : List Nat} {b : Tensor α → Tensor α} {y1 y2 : Tensor α} {c : α}

theorem times_shape (x y : Tensor α) : (times x y).shape = x.shape := rfl

theorem bop_times {x y : Tensor α} (h : x.shape = y.shape) : bop (fun u v : α => u * v) x y = .ok (times x y) := bop_same h

theorem bop_ofFn {β γ δ : Type} [Zero β] [Zero γ] (f : β → γ → δ) (S : List Nat) (u : List Nat → β) (v : List Nat → γ) :
    bop f (ofFn S u) (ofFn S v) = .ok (ofFn S fun ix => f (u ix) (v ix)) := by
  have hb : bshape S S = some S := by
    have h1 : padOnes (max S.length S.length) S = S := by simp [padOnes]
    have h2 : ∀ l : List Nat, (List.zipWith (fun a b : Nat => a == b || a == 1 || b == 1) l l).all id = true := by
      intro l; induction l with
      | nil => rfl
      | cons a l ih => simp [ih]
    have h3 : ∀ l : List Nat, List.zipWith (fun a b : Nat => if a = 1 then b else a) l l = l := by
      intro l; induction l with
      | nil => rfl
      | cons a l ih => simp [ih]
    simp only [bshape, h1, h2, h3, if_true]
  have hi : ∀ ix, InB S ix → bidx S ix = ix := by
    intro ix hix
    rw [bidx, hix.length_eq, Nat.sub_self, List.drop_zero]
    apply list_ext_getD
    · simp [hix.length_eq]
    · intro k hk
      have hk' : k < S.length := by simpa [hix.length_eq] using hk
      have hk'' : k < ix.length := by rw [hix.length_eq]; exact hk'
      have := hix.lt hk'
      simp only [List.getD_eq_getElem?_getD, List.getElem?_zipWith, List.getElem?_eq_getElem hk', List.getElem?_eq_getElem hk'',
        Option.getD_some] at this ⊢
      split_ifs <;> omega
  simp only [bop, shape_ofFn, hb]
  congr 1
  apply ofFn_congr
  intro ix hix
  simp only [hi ix hix, get_ofFn hix]

namespace SSIM

theorem muSigma_eq (h : Steady s junk axes P q S T b) (hp : P p) (h1 : y1.shape = S) (h2 : y2.shape = S) (hc : s.scaleFactor axes = .ok c) :
    s.muSigma junk y1 y2 axes p = (q, .ok
      ⟨ofFn T fun ix => (b y1).get ix ^ 2, ofFn T fun ix => (b y2).get ix ^ 2, ofFn T fun ix => (b y1).get ix * (b y2).get ix,
        ofFn T fun ix => c * ((b (times y1 y1)).get ix - (b y1).get ix ^ 2),
        ofFn T fun ix => c * ((b (times y2 y2)).get ix - (b y2).get ix ^ 2),
        ofFn T fun ix => c * ((b (times y1 y2)).get ix - (b y1).get ix * (b y2).get ix)⟩) := by
  have e : ∀ x : Tensor α, x.shape = S → b x = ofFn T (b x).get := by
    intro x hx
    rw [← h.shape x hx]
    exact eq_ofFn_get _
  have t11 : (times y1 y1).shape = S := h1
  have t22 : (times y2 y2).shape = S := h2
  have t12 : (times y1 y2).shape = S := h1
  have m : ∀ x : Tensor α, x.shape = S → (b x).map (fun v => v ^ 2) = ofFn T fun ix => (b x).get ix ^ 2 := by
    intro x hx
    conv_lhs => rw [e x hx]
    rw [map_ofFn]
  have hs : ∀ f : List Nat → α, (if c ≠ 1 then (ofFn T f).map (fun v => v * c) else ofFn T f) = ofFn T fun ix => c * f ix := by
    intro f
    split_ifs with hc1
    · rw [map_ofFn]
      congr 1
      funext ix
      exact mul_comm _ _
    · rw [not_not] at hc1
      simp [hc1]
  have b12 : bop (fun u v : α => u * v) (b y1) (b y2) = .ok (ofFn T fun ix => (b y1).get ix * (b y2).get ix) := by
    conv_lhs => rw [e y1 h1, e y2 h2]
    exact bop_ofFn _ _ _ _
  have sub : ∀ (x : Tensor α), x.shape = S → ∀ g : List Nat → α, bop (fun u v : α => u - v) (b x) (ofFn T g) =
      .ok (ofFn T fun ix => (b x).get ix - g ix) := by
    intro x hx g
    conv_lhs => rw [e x hx]
    exact bop_ofFn _ _ _ _
  simp only [muSigma]
  rw [Run.bind_ok (h.run p hp y1 h1), Run.bind_ok (h.run q h.post y2 h2), b12, Run.lift_bind, bop_times rfl, Run.lift_bind,
    Run.bind_ok (h.run q h.post _ t11), m y1 h1, sub _ t11, Run.lift_bind, bop_times rfl, Run.lift_bind,
    Run.bind_ok (h.run q h.post _ t22), m y2 h2, sub _ t22, Run.lift_bind, bop_times (h1.trans h2.symm), Run.lift_bind,
    Run.bind_ok (h.run q h.post _ t12), sub _ t12, Run.lift_bind, hc, Run.lift_bind, Run.pure_apply]
  simp only [hs]

theorem addPlus_ofFn (S : List Nat) (u v : List Nat → α) (c : α) : addPlus (ofFn S u) (ofFn S v) c = .ok (ofFn S fun ix => u ix + v ix + c) := by
  rw [addPlus, bop_ofFn, ok_bind, map_ofFn]

theorem twicePlus_ofFn (S : List Nat) (u : List Nat → α) (c : α) : twicePlus (ofFn S u) c = ofFn S fun ix => 2 * u ix + c := by
  rw [twicePlus, map_ofFn]

/-- **the SSIM map**: at every position the SSIM index of the blurred images, squares and product -/
theorem ssimFull_eq (h : Steady s junk axes P q S T b) (hp : P p) (h1 : y1.shape = S) (h2 : y2.shape = S) (hc : s.scaleFactor axes = .ok c) :
    s.ssimFull junk y1 y2 axes p = (q, .ok (ofFn T fun ix => ssimIndex (s.k1 ^ 2) (s.k2 ^ 2) c ((b y1).get ix) ((b y2).get ix)
      ((b (times y1 y1)).get ix) ((b (times y2 y2)).get ix) ((b (times y1 y2)).get ix))) := by
  simp only [ssimFull]
  rw [Run.bind_ok (muSigma_eq h hp h1 h2 hc)]
  simp only [combine, twicePlus_ofFn, addPlus_ofFn, bop_ofFn, ok_bind]
  rfl

theorem csFull_eq (h : Steady s junk axes P q S T b) (hp : P p) (h1 : y1.shape = S) (h2 : y2.shape = S) (hc : s.scaleFactor axes = .ok c) :
    s.csFull junk y1 y2 axes p = (q, .ok (ofFn T fun ix => csIndex (s.k2 ^ 2) c ((b y1).get ix) ((b y2).get ix)
      ((b (times y1 y1)).get ix) ((b (times y2 y2)).get ix) ((b (times y1 y2)).get ix))) := by
  simp only [csFull]
  rw [Run.bind_ok (muSigma_eq h hp h1 h2 hc)]
  simp only [twicePlus_ofFn, addPlus_ofFn, Run.lift_bind, bop_ofFn]
  rfl

end SSIM

/-! ## bounds -/

/-- possible first and second moments of a pair of numbers -/
def Possible (m1 m2 e11 e22 e12 : α) : Prop :=
  ∀ t1 t2 : α, (t1 * m1 + t2 * m2) ^ 2 ≤ t1 ^ 2 * e11 + 2 * (t1 * t2 * e12) + t2 ^ 2 * e22

theorem Possible.point (u v : α) : Possible u v (u * u) (v * v) (u * v) := by
  intro t1 t2
  apply le_of_eq
  ring

theorem Possible.var1 {m1 m2 e11 e22 e12 : α} (h : Possible m1 m2 e11 e22 e12) : 0 ≤ e11 - m1 ^ 2 := by
  have := h 1 0
  nlinarith

theorem Possible.var2 {m1 m2 e11 e22 e12 : α} (h : Possible m1 m2 e11 e22 e12) : 0 ≤ e22 - m2 ^ 2 := by
  have := h 0 1
  nlinarith

theorem Possible.cov {m1 m2 e11 e22 e12 : α} (h : Possible m1 m2 e11 e22 e12) :
    -((e11 - m1 ^ 2) + (e22 - m2 ^ 2)) ≤ 2 * (e12 - m1 * m2) ∧ 2 * (e12 - m1 * m2) ≤ (e11 - m1 ^ 2) + (e22 - m2 ^ 2) := by
  have h1 := h 1 1
  have h2 := h 1 (-1)
  constructor <;> nlinarith

theorem csIndex_bounds {c2 f m1 m2 e11 e22 e12 : α} (hc2 : 0 < c2) (hf : 0 ≤ f) (h : Possible m1 m2 e11 e22 e12) :
    -1 ≤ csIndex c2 f m1 m2 e11 e22 e12 ∧ csIndex c2 f m1 m2 e11 e22 e12 ≤ 1 := by
  have h1 := mul_nonneg hf h.var1
  have h2 := mul_nonneg hf h.var2
  obtain ⟨h3, h4⟩ := h.cov
  have h5 := mul_le_mul_of_nonneg_left h3 hf
  have h6 := mul_le_mul_of_nonneg_left h4 hf
  have hd : 0 < f * (e11 - m1 ^ 2) + f * (e22 - m2 ^ 2) + c2 := by linarith
  rw [csIndex, le_div_iff₀ hd, div_le_iff₀ hd]
  constructor <;> nlinarith

theorem ssimIndex_bounds {c1 c2 f m1 m2 e11 e22 e12 : α} (hc1 : 0 < c1) (hc2 : 0 < c2) (hf : 0 ≤ f) (h : Possible m1 m2 e11 e22 e12) :
    -1 ≤ ssimIndex c1 c2 f m1 m2 e11 e22 e12 ∧ ssimIndex c1 c2 f m1 m2 e11 e22 e12 ≤ 1 := by
  have hl : 0 < m1 ^ 2 + m2 ^ 2 + c1 := by positivity
  have l1 : -1 ≤ (2 * (m1 * m2) + c1) / (m1 ^ 2 + m2 ^ 2 + c1) := by
    rw [le_div_iff₀ hl]
    nlinarith [sq_nonneg (m1 + m2)]
  have l2 : (2 * (m1 * m2) + c1) / (m1 ^ 2 + m2 ^ 2 + c1) ≤ 1 := by
    rw [div_le_iff₀ hl]
    nlinarith [sq_nonneg (m1 - m2)]
  obtain ⟨c3, c4⟩ := csIndex_bounds hc2 hf h
  have e : ssimIndex c1 c2 f m1 m2 e11 e22 e12 = (2 * (m1 * m2) + c1) / (m1 ^ 2 + m2 ^ 2 + c1) * csIndex c2 f m1 m2 e11 e22 e12 := by
    rw [ssimIndex, csIndex, div_mul_div_comm]
  rw [e]
  have := abs_le.2 ⟨l1, l2⟩
  have := abs_le.2 ⟨c3, c4⟩
  rw [← abs_le, abs_mul]
  exact mul_le_one₀ ‹_› (abs_nonneg _) ‹_›

theorem csIndex_self {c2 f m e : α} (hc2 : 0 < c2) (hf : 0 ≤ f) (h : 0 ≤ e - m ^ 2) : csIndex c2 f m m e e e = 1 := by
  have := mul_nonneg hf h
  rw [csIndex, div_eq_one_iff_eq (by nlinarith)]
  ring

theorem ssimIndex_self {c1 c2 f m e : α} (hc1 : 0 < c1) (hc2 : 0 < c2) (hf : 0 ≤ f) (h : 0 ≤ e - m ^ 2) : ssimIndex c1 c2 f m m e e e = 1 := by
  have h1 := mul_nonneg hf h
  have h2 : 0 < f * (e - m ^ 2) + f * (e - m ^ 2) + c2 := by linarith
  have h3 : 0 < m ^ 2 + m ^ 2 + c1 := by positivity
  rw [ssimIndex, div_eq_one_iff_eq (mul_pos h3 h2).ne']
  ring

/-! ## averages keep moments possible -/

/-- at every position the five tensors are possible moments -/
structure PossibleAt (u1 u2 s11 s22 s12 : Tensor α) : Prop where
  shape2 : u2.shape = u1.shape
  shape11 : s11.shape = u1.shape
  shape22 : s22.shape = u1.shape
  shape12 : s12.shape = u1.shape
  possible : ∀ ix, InB u1.shape ix → Possible (u1.get ix) (u2.get ix) (s11.get ix) (s22.get ix) (s12.get ix)

theorem possibleAt_times {x y : Tensor α} (h : x.shape = y.shape) : PossibleAt x y (times x x) (times y y) (times x y) where
  shape2 := h.symm
  shape11 := rfl
  shape22 := h.symm
  shape12 := rfl
  possible := by
    intro ix hix
    rw [times, times, times, get_ofFn hix, get_ofFn hix, get_ofFn (by rw [← h]; exact hix)]
    exact Possible.point _ _

/-- weighted means of possible moments are possible -/
theorem Possible.average {w : List α} (hw : IsAverage w) {m1 m2 e11 e22 e12 : Nat → α}
    (h : ∀ j < w.length, Possible (m1 j) (m2 j) (e11 j) (e22 j) (e12 j)) :
    Possible ((List.range w.length).map fun j => w.getD j 0 * m1 j).sum ((List.range w.length).map fun j => w.getD j 0 * m2 j).sum
      ((List.range w.length).map fun j => w.getD j 0 * e11 j).sum ((List.range w.length).map fun j => w.getD j 0 * e22 j).sum
      ((List.range w.length).map fun j => w.getD j 0 * e12 j).sum := by
  intro t1 t2
  have hsum : ((List.range w.length).map fun j => w.getD j 0).sum = 1 := by rw [map_getD_range]; exact hw.2
  have hnn : ∀ j < w.length, 0 ≤ w.getD j 0 := by
    intro j hj
    apply hw.1
    simp [hj]
  generalize hl : List.range w.length = l at *
  have hlm : ∀ j ∈ l, 0 ≤ w.getD j 0 ∧ Possible (m1 j) (m2 j) (e11 j) (e22 j) (e12 j) := by
    intro j hj
    rw [← hl] at hj
    exact ⟨hnn j (List.mem_range.1 hj), h j (List.mem_range.1 hj)⟩
  clear hl h hnn
  -- the square of a weighted mean: sum of w * (z - c)^2 is not negative for every c
  have key : ∀ c : α, ∀ l : List Nat, (∀ j ∈ l, 0 ≤ w.getD j 0 ∧ Possible (m1 j) (m2 j) (e11 j) (e22 j) (e12 j)) →
      2 * c * (t1 * (l.map fun j => w.getD j 0 * m1 j).sum + t2 * (l.map fun j => w.getD j 0 * m2 j).sum) -
        c ^ 2 * (l.map fun j => w.getD j 0).sum ≤
      t1 ^ 2 * (l.map fun j => w.getD j 0 * e11 j).sum + 2 * (t1 * t2 * (l.map fun j => w.getD j 0 * e12 j).sum) +
        t2 ^ 2 * (l.map fun j => w.getD j 0 * e22 j).sum := by
    intro c l hlm
    induction l with
    | nil => simp
    | cons a l ih =>
      have ih := ih fun j hj => hlm j (by simp [hj])
      obtain ⟨h1, h2⟩ := hlm a (by simp)
      have h3 := h2 t1 t2
      have h4 : 0 ≤ w.getD a 0 * ((t1 * m1 a + t2 * m2 a - c) ^ 2 +
          (t1 ^ 2 * e11 a + 2 * (t1 * t2 * e12 a) + t2 ^ 2 * e22 a - (t1 * m1 a + t2 * m2 a) ^ 2)) :=
        mul_nonneg h1 (add_nonneg (sq_nonneg _) (by linarith))
      simp only [List.map_cons, List.sum_cons]
      nlinarith
  have := key (t1 * (l.map fun j => w.getD j 0 * m1 j).sum + t2 * (l.map fun j => w.getD j 0 * m2 j).sum) l hlm
  rw [hsum] at this
  nlinarith

theorem slide_possible {u1 u2 s11 s22 s12 : Tensor α} (h : PossibleAt u1 u2 s11 s22 s12) {o : PoolOp α} (hk : o.kernel ≠ [] → IsAverage o.kernel)
    (hf : o.kernel ≠ [] → o.axis < u1.ndim ∧ 0 < o.stride) :
    PossibleAt (slide u1 o) (slide u2 o) (slide s11 o) (slide s22 o) (slide s12 o) := by
  by_cases h0 : o.kernel = []
  · simpa [slide, h0] using h
  · have sh : ∀ t : Tensor α, t.shape = u1.shape → (slide t o).shape = (slide u1 o).shape := by
      intro t ht
      rw [slide_shape, slide_shape, ht]
    refine ⟨sh _ h.shape2, sh _ h.shape11, sh _ h.shape22, sh _ h.shape12, ?_⟩
    intro ix hix
    rw [slide_get h0 hix, slide_get h0 (by rw [sh _ h.shape2]; exact hix), slide_get h0 (by rw [sh _ h.shape11]; exact hix),
      slide_get h0 (by rw [sh _ h.shape22]; exact hix), slide_get h0 (by rw [sh _ h.shape12]; exact hix)]
    apply Possible.average (hk h0)
    intro j hj
    exact h.possible _ (slide_inB (hf h0).2 (hf h0).1 h0 hix hj)

theorem poolSeq_possible : ∀ {ops : List (PoolOp α)} {u1 u2 s11 s22 s12 : Tensor α}, PossibleAt u1 u2 s11 s22 s12 →
    (∀ o ∈ ops, o.kernel ≠ [] → IsAverage o.kernel) → Fitting u1 ops →
    PossibleAt (poolSeq u1 ops) (poolSeq u2 ops) (poolSeq s11 ops) (poolSeq s22 ops) (poolSeq s12 ops)
  | [], _, _, _, _, _, h, _, _ => h
  | o :: ops, _, _, _, _, _, h, hk, hf => by
    have hf' : _ ∧ _ := hf
    have h1 := slide_possible h (hk o (by simp)) fun h0 => ⟨(hf'.1 h0).1, (hf'.1 h0).2.1⟩
    have h2 := poolSeq_possible (ops := ops) h1 (fun q hq => hk q (by simp [hq])) hf'.2
    exact h2

/-! ## paddings that keep moments possible -/

theorem Possible.constant {c : α} (h0 : 0 ≤ c) (h1 : c ≤ 1) : Possible c c c c c := by
  intro t1 t2
  have : 0 ≤ (t1 + t2) ^ 2 * (c * (1 - c)) := mul_nonneg (sq_nonneg _) (mul_nonneg h0 (by linarith))
  nlinarith

theorem mean_weighted (k : Nat) (u : Nat → α) : ((List.range k).map u).sum / (((List.range k).map u).length : α) =
    ((List.range (List.replicate k (1 / (k : α))).length).map fun j => (List.replicate k (1 / (k : α))).getD j 0 * u j).sum := by
  rw [List.length_map, List.length_range, List.length_replicate]
  have : ((List.range k).map fun j => (List.replicate k (1 / (k : α))).getD j 0 * u j) = (List.range k).map fun j => (1 / (k : α)) * u j := by
    apply List.map_congr_left
    intro j hj
    have hj := List.mem_range.1 hj
    simp [hj]
  rw [this, ← mul_sum_map]
  field_simp

theorem isAverage_replicate {k : Nat} (hk : 0 < k) : IsAverage (List.replicate k (1 / (k : α))) := by
  constructor
  · intro a ha
    rw [List.eq_of_mem_replicate ha]
    positivity
  · rw [List.sum_replicate, nsmul_eq_mul]
    have : (k : α) ≠ 0 := by exact_mod_cast hk.ne'
    field_simp

theorem Possible.mean {k : Nat} (hk : 0 < k) {m1 m2 e11 e22 e12 : Nat → α} (h : ∀ j < k, Possible (m1 j) (m2 j) (e11 j) (e22 j) (e12 j)) :
    Possible (statVal .mean ((List.range k).map m1)) (statVal .mean ((List.range k).map m2)) (statVal .mean ((List.range k).map e11))
      (statVal .mean ((List.range k).map e22)) (statVal .mean ((List.range k).map e12)) := by
  simp only [statVal]
  rw [mean_weighted k m1, mean_weighted k m2, mean_weighted k e11, mean_weighted k e22, mean_weighted k e12]
  apply Possible.average (isAverage_replicate hk)
  intro j hj
  exact h j (by simpa using hj)

theorem keeps_rule {s : AxisPad α} (h : s.KeepsMoments) {n : Nat} (hn : 0 < n) :
    ∃ E, s.rule? = some E ∧ ∀ (m1 m2 e11 e22 e12 : Nat → α) z, (∀ j < n, Possible (m1 j) (m2 j) (e11 j) (e22 j) (e12 j)) →
      Possible (E n m1 z) (E n m2 z) (E n e11 z) (E n e22 z) (E n e12 z) := by
  have coord : ∀ c, modeC s.mode = some c → (∀ n z, modeS s.mode n z = (1 : α)) →
      ∃ E, s.rule? = some E ∧ ∀ (m1 m2 e11 e22 e12 : Nat → α) z, (∀ j < n, Possible (m1 j) (m2 j) (e11 j) (e22 j) (e12 j)) →
      Possible (E n m1 z) (E n m2 z) (E n e11 z) (E n e22 z) (E n e12 z) := by
    intro c hc hs
    obtain ⟨E, h1, h2, h3⟩ := rule_coord hc hn
    refine ⟨E, h1, fun m1 m2 e11 e22 e12 z hu => ?_⟩
    simp only [h2, hs, one_mul]
    exact hu _ (h3 z)
  obtain ⟨b, a, mode, cv, ev, sl⟩ := s
  cases mode <;> simp only [AxisPad.KeepsMoments] at h
  case replicate => exact coord _ rfl fun _ _ => rfl
  case circular => exact coord _ rfl fun _ _ => rfl
  case periodize => exact coord _ rfl fun _ _ => rfl
  case symmetric => exact coord _ rfl fun _ _ => rfl
  case reflect => exact coord _ rfl fun _ _ => rfl
  case constant =>
    refine ⟨_, rfl, fun m1 m2 e11 e22 e12 z hu => ?_⟩
    simp only [Spec.constant]
    split_ifs with h1 h2
    · exact Possible.constant h.1.1 h.1.2
    · exact hu _ (by omega)
    · exact Possible.constant h.2.1 h.2.2
  case stat st =>
    cases st <;> simp only at h
    refine ⟨_, rfl, fun m1 m2 e11 e22 e12 z hu => ?_⟩
    have hwin : ∀ w, 0 < window n w ∧ window n w ≤ n := by
      intro w
      cases w with
      | none => exact ⟨hn, le_refl _⟩
      | some w => simp only [window]; omega
    simp only [border]
    split_ifs with h1 h2
    · apply Possible.mean (hwin sl.1).1
      intro j hj
      exact hu j (by have := (hwin sl.1).2; omega)
    · exact hu _ (by omega)
    · apply Possible.mean (hwin sl.2).1
      intro j hj
      exact hu _ (by have := (hwin sl.2).2; omega)

theorem keeps_ne {s : AxisPad α} (h : s.KeepsMoments) : s.rule? ≠ none := by
  obtain ⟨E, hE, _⟩ := keeps_rule h (n := 1) (by omega)
  rw [hE]; simp

theorem padStep_possible {u1 u2 s11 s22 s12 : Tensor α} (h : PossibleAt u1 u2 s11 s22 s12) {o : Nat × AxisPad α} (ha : o.1 < u1.ndim)
    (hw : o.2.KeepsMoments) (hn : 0 < u1.shape.getD o.1 0) :
    PossibleAt (padStep u1 o) (padStep u2 o) (padStep s11 o) (padStep s22 o) (padStep s12 o) := by
  obtain ⟨E, hE, hk⟩ := keeps_rule hw hn
  have nd : ∀ t : Tensor α, t.shape = u1.shape → o.1 < t.ndim := by
    intro t ht
    rw [ndim, ht]; exact ha
  have g : ∀ t : Tensor α, t.shape = u1.shape → (padStep t o).shape = (padStep u1 o).shape ∧ ∀ ix, InB (padStep u1 o).shape ix →
      (padStep t o).get ix = E (u1.shape.getD o.1 0) (fun j => t.get (ix.set o.1 j)) ((ix.getD o.1 0 : Int) - o.2.before) := by
    intro t ht
    rw [padStep_eq (nd t ht) hE, padStep_eq ha hE]
    refine ⟨by simp [extendAxis, ht], ?_⟩
    intro ix hix
    have hix' : InB (t.shape.set o.1 (o.2.before + t.shape.getD o.1 0 + o.2.total (t.shape.getD o.1 0))) ix := by rw [ht]; exact hix
    rw [extendAxis, get_ofFn hix', ht]
  refine ⟨(g _ h.shape2).1, (g _ h.shape11).1, (g _ h.shape22).1, (g _ h.shape12).1, ?_⟩
  intro ix hix
  rw [(g _ rfl).2 ix hix, (g _ h.shape2).2 ix hix, (g _ h.shape11).2 ix hix, (g _ h.shape22).2 ix hix, (g _ h.shape12).2 ix hix]
  apply hk
  intro j hj
  apply h.possible
  rw [padStep_eq ha hE] at hix
  have hix' : InB (u1.shape.set o.1 (o.2.before + u1.shape.getD o.1 0 + o.2.total (u1.shape.getD o.1 0))) ix := hix
  have := hix'.set (i := j) (m := u1.shape.getD o.1 0) hj
  rwa [set_getD_self] at this

theorem padSeq_possible : ∀ {ops : List (Nat × AxisPad α)} {u1 u2 s11 s22 s12 : Tensor α}, (ops.map Prod.fst).Nodup →
    (∀ o ∈ ops, o.1 < u1.ndim) → (∀ o ∈ ops, 0 < u1.shape.getD o.1 0) → (∀ o ∈ ops, o.2.KeepsMoments) → PossibleAt u1 u2 s11 s22 s12 →
    PossibleAt (padSeq u1 ops) (padSeq u2 ops) (padSeq s11 ops) (padSeq s22 ops) (padSeq s12 ops)
  | [], _, _, _, _, _, _, _, _, _, h => h
  | o :: ops, u1, u2, s11, s22, s12, hnd, ha, hn, hw, h => by
    simp only [padSeq_cons]
    have hsx := padStep_shape (x := u1) (o := o) (fun _ => keeps_ne (hw o (by simp)))
    rw [List.map_cons, List.nodup_cons] at hnd
    have hne : ∀ q ∈ ops, q.1 ≠ o.1 := fun q hq e => hnd.1 (List.mem_map.2 ⟨q, hq, e⟩)
    apply padSeq_possible hnd.2
    · intro q hq
      simpa [ndim, hsx] using ha q (by simp [hq])
    · intro q hq
      rw [hsx, getD_set_ne _ _ _ _ _ (hne q hq)]
      exact hn q (by simp [hq])
    · intro q hq
      exact hw q (by simp [hq])
    · exact padStep_possible h (ha o (by simp)) (hw o (by simp)) (hn o (by simp))

end TI
