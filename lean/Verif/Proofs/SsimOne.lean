import Verif.Props.Ssim

/-!
# When the SSIM index is one
-/

set_option linter.unusedSectionVars false

namespace TI
open Tensor Spec

section
variable {α : Type} [Field α] [LinearOrder α] [IsStrictOrderedRing α]

/-- the structure part is one exactly if the mean squared deviation of the difference from its mean is zero -/
theorem csIndex_eq_one {c2 f m1 m2 e11 e22 e12 : α} (hc2 : 0 < c2) (hf : 0 < f) (h : Possible m1 m2 e11 e22 e12) :
    csIndex c2 f m1 m2 e11 e22 e12 = 1 ↔ e11 + e22 - 2 * e12 = (m1 - m2) ^ 2 := by
  have h1 := mul_nonneg hf.le h.var1
  have h2 := mul_nonneg hf.le h.var2
  rw [csIndex, div_eq_one_iff_eq (by linarith)]
  constructor
  · intro e
    have : f * (e11 + e22 - 2 * e12 - (m1 - m2) ^ 2) = 0 := by linear_combination -e
    have := (mul_eq_zero.1 this).resolve_left hf.ne'
    linarith
  · intro e
    linear_combination (-f) * e

/-- the index is one exactly if the mean squared difference is zero -/
theorem ssimIndex_eq_one {c1 c2 f m1 m2 e11 e22 e12 : α} (hc1 : 0 < c1) (hc2 : 0 < c2) (hf : 0 < f) (h : Possible m1 m2 e11 e22 e12) :
    ssimIndex c1 c2 f m1 m2 e11 e22 e12 = 1 ↔ e11 + e22 - 2 * e12 = 0 := by
  have hl : 0 < m1 ^ 2 + m2 ^ 2 + c1 := by positivity
  have l1 : -1 < (2 * (m1 * m2) + c1) / (m1 ^ 2 + m2 ^ 2 + c1) := by
    rw [lt_div_iff₀ hl]
    nlinarith [sq_nonneg (m1 + m2)]
  have l2 : (2 * (m1 * m2) + c1) / (m1 ^ 2 + m2 ^ 2 + c1) ≤ 1 := by
    rw [div_le_iff₀ hl]
    nlinarith [sq_nonneg (m1 - m2)]
  have l3 : (2 * (m1 * m2) + c1) / (m1 ^ 2 + m2 ^ 2 + c1) = 1 ↔ m1 = m2 := by
    rw [div_eq_one_iff_eq hl.ne']
    constructor
    · intro e
      have : (m1 - m2) ^ 2 = 0 := by linear_combination -e
      exact sub_eq_zero.1 (pow_eq_zero_iff two_ne_zero |>.1 this)
    · rintro rfl; ring
  obtain ⟨c3, c4⟩ := csIndex_bounds hc2 hf.le h
  have e : ssimIndex c1 c2 f m1 m2 e11 e22 e12 = (2 * (m1 * m2) + c1) / (m1 ^ 2 + m2 ^ 2 + c1) * csIndex c2 f m1 m2 e11 e22 e12 := by
    rw [ssimIndex, csIndex, div_mul_div_comm]
  rw [e]
  have hcs := csIndex_eq_one hc2 hf h
  have hd := h 1 (-1)
  generalize (2 * (m1 * m2) + c1) / (m1 ^ 2 + m2 ^ 2 + c1) = l at *
  generalize csIndex c2 f m1 m2 e11 e22 e12 = c at *
  constructor
  · intro hlc
    have hl1 : l = 1 := by
      by_contra hne
      have hlt : l < 1 := lt_of_le_of_ne l2 hne
      have habs : |l| < 1 := abs_lt.2 ⟨l1, hlt⟩
      have hc : |c| ≤ 1 := abs_le.2 ⟨c3, c4⟩
      have : |l| * |c| = 1 := by rw [← abs_mul, hlc, abs_one]
      nlinarith [abs_nonneg l, abs_nonneg c]
    rw [hl1, one_mul] at hlc
    have := hcs.1 hlc
    rw [this, l3.1 hl1, sub_self]
    ring
  · intro h0
    have hm : m1 = m2 := by
      have : (m1 - m2) ^ 2 ≤ 0 := by nlinarith
      exact sub_eq_zero.1 (pow_eq_zero_iff two_ne_zero |>.1 (le_antisymm this (sq_nonneg _)))
    rw [l3.2 hm, hcs.2 (by rw [h0, hm, sub_self]; ring), one_mul]

theorem poolSeq_lincomb_fitting {a b : α} : ∀ {ops : List (PoolOp α)} {x y : Tensor α}, x.shape = y.shape → Fitting x ops →
    poolSeq (lincomb a x b y) ops = lincomb a (poolSeq x ops) b (poolSeq y ops)
  | [], _, _, _, _ => rfl
  | o :: ops, x, y, hs, h => by
    have h' : _ ∧ _ := h
    change poolSeq (slide _ o) ops = lincomb a (poolSeq (slide x o) ops) b (poolSeq (slide y o) ops)
    rw [slide_lincomb hs (fun hk => ⟨(h'.1 hk).1, (h'.1 hk).2.1⟩), poolSeq_lincomb_fitting (by simp only [slide_shape, hs]) h'.2]

/-- a sum of products of positive weights and non-negative numbers is zero only if the numbers are -/
theorem sum_pos_weights {k : Nat} {w u : Nat → α} (hw : ∀ j < k, 0 < w j) (hu : ∀ j < k, 0 ≤ u j)
    (h : ((List.range k).map fun j => w j * u j).sum = 0) : ∀ j < k, u j = 0 := by
  intro j hj
  have h1 : w j * u j ≤ ((List.range k).map fun j => w j * u j).sum := by
    apply List.single_le_sum
    · intro b hb
      obtain ⟨i, hi, rfl⟩ := List.mem_map.1 hb
      exact mul_nonneg (hw i (List.mem_range.1 hi)).le (hu i (List.mem_range.1 hi))
    · exact List.mem_map.2 ⟨j, List.mem_range.2 hj, rfl⟩
  rw [h] at h1
  have h2 := mul_nonneg (hw j hj).le (hu j hj)
  exact (mul_eq_zero.1 (le_antisymm h1 h2)).resolve_left (hw j hj).ne'

/-- a window with positive weights sliding over non-negative samples by single steps gives zeros only if all samples are zero -/
theorem slide_zeros {x : Tensor α} {o : PoolOp α} (hfit : o.kernel ≠ [] → o.axis < x.ndim ∧ 0 < o.stride ∧ o.kernel.length ≤ x.shape.getD o.axis 0)
    (h1 : o.kernel ≠ [] → o.stride = 1) (hw : ∀ v ∈ o.kernel, 0 < v) (hx : ∀ ix, InB x.shape ix → 0 ≤ x.get ix)
    (h0 : ∀ ix, InB (slide x o).shape ix → (slide x o).get ix = 0) : ∀ ix, InB x.shape ix → x.get ix = 0 := by
  intro jx hjx
  by_cases hk : o.kernel = []
  · simp only [slide, hk, if_true] at h0
    exact h0 jx hjx
  · obtain ⟨ha, _, hl⟩ := hfit hk
    have hs := h1 hk
    have hlen : o.kernel.length ≠ 0 := by simpa using hk
    have hj := hjx.lt (k := o.axis) ha
    -- the window that contains the sample
    set t := min (jx.getD o.axis 0) (x.shape.getD o.axis 0 - o.kernel.length) with ht
    have hsh : (slide x o).shape = x.shape.set o.axis (x.shape.getD o.axis 0 - o.kernel.length + 1) := by
      rw [slide_shape, if_neg hk, hs, windowCount_one hlen hl]
    have hix : InB (slide x o).shape (jx.set o.axis t) := by
      rw [hsh]
      have hjx' : InB (x.shape.set o.axis (x.shape.getD o.axis 0)) jx := by rw [set_getD_self]; exact hjx
      exact hjx'.set (by omega)
    have hz := h0 _ hix
    rw [slide_get hk hix] at hz
    have hax : o.axis < jx.length := by rw [hjx.length_eq]; exact ha
    have := sum_pos_weights (w := fun j => o.kernel.getD j 0) (fun j hj => hw _ (by simp [hj])) (fun j hj => hx _ ?_) hz
      (jx.getD o.axis 0 - t) (by omega)
    · simp only [getD_set_self _ _ _ _ hax, hs, List.set_set, Nat.mul_one] at this
      rw [show t + (jx.getD o.axis 0 - t) = jx.getD o.axis 0 by omega, set_getD_self] at this
      exact this
    · exact slide_inB (by omega) ha hk hix hj

theorem slide_nonneg {x : Tensor α} {o : PoolOp α} (hfit : o.kernel ≠ [] → o.axis < x.ndim ∧ 0 < o.stride ∧ o.kernel.length ≤ x.shape.getD o.axis 0)
    (hw : ∀ v ∈ o.kernel, 0 < v) (hx : ∀ ix, InB x.shape ix → 0 ≤ x.get ix) : ∀ ix, InB (slide x o).shape ix → 0 ≤ (slide x o).get ix := by
  intro ix hix
  by_cases hk : o.kernel = []
  · simp only [slide, hk, if_true] at hix ⊢
    exact hx ix hix
  · obtain ⟨ha, hs, _⟩ := hfit hk
    rw [slide_get hk hix]
    apply List.sum_nonneg
    intro b hb
    obtain ⟨j, hj, rfl⟩ := List.mem_map.1 hb
    have hj := List.mem_range.1 hj
    exact mul_nonneg (hw _ (by simp [hj])).le (hx _ (slide_inB hs ha hk hix hj))

theorem poolSeq_zeros : ∀ {ops : List (PoolOp α)} {x : Tensor α}, Fitting x ops → (∀ o ∈ ops, o.stride = 1) → (∀ o ∈ ops, ∀ v ∈ o.kernel, 0 < v) →
    (∀ ix, InB x.shape ix → 0 ≤ x.get ix) → (∀ ix, InB (poolSeq x ops).shape ix → (poolSeq x ops).get ix = 0) → ∀ ix, InB x.shape ix → x.get ix = 0
  | [], _, _, _, _, _, h => h
  | o :: ops, x, hf, hs, hw, hx, h => by
    have hf' : _ ∧ _ := hf
    have h1 := poolSeq_zeros (x := slide x o) (ops := ops) hf'.2 (fun q hq => hs q (by simp [hq])) (fun q hq => hw q (by simp [hq]))
      (slide_nonneg hf'.1 (hw o (by simp)) hx) h
    exact slide_zeros hf'.1 (fun _ => hs o (by simp)) (hw o (by simp)) hx h1

/-- if the moments after sliding windows allow no difference, neither do the moments before -/
theorem poolSeq_apart {ops : List (PoolOp α)} {u1 u2 s11 s22 s12 : Tensor α} (h : PossibleAt u1 u2 s11 s22 s12) (hf : Fitting u1 ops)
    (hs : ∀ o ∈ ops, o.stride = 1) (hw : ∀ o ∈ ops, ∀ v ∈ o.kernel, 0 < v)
    (h0 : ∀ ix, InB (poolSeq u1 ops).shape ix → (poolSeq s11 ops).get ix + (poolSeq s22 ops).get ix - 2 * (poolSeq s12 ops).get ix = 0) :
    ∀ ix, InB u1.shape ix → s11.get ix + s22.get ix - 2 * s12.get ix = 0 := by
  have hsh : ∀ t : Tensor α, t.shape = u1.shape → (poolSeq t ops).shape = (poolSeq u1 ops).shape := fun t ht => poolSeq_shape_congr ht
  have e1 : poolSeq (lincomb 1 s11 1 s22) ops = lincomb 1 (poolSeq s11 ops) 1 (poolSeq s22 ops) :=
    poolSeq_lincomb_fitting (by rw [h.shape11, h.shape22]) (Fitting_congr h.shape11.symm hf)
  have e2 : poolSeq (lincomb 1 (lincomb 1 s11 1 s22) (-2) s12) ops = lincomb 1 (lincomb 1 (poolSeq s11 ops) 1 (poolSeq s22 ops)) (-2) (poolSeq s12 ops) := by
    rw [poolSeq_lincomb_fitting (show (lincomb 1 s11 1 s22).shape = s12.shape from h.shape11.trans h.shape12.symm)
      (Fitting_congr (show u1.shape = (lincomb 1 s11 1 s22).shape from h.shape11.symm) hf), e1]
  have hval : ∀ ix, InB u1.shape ix → (lincomb 1 (lincomb 1 s11 1 s22) (-2) s12).get ix = s11.get ix + s22.get ix - 2 * s12.get ix := by
    intro ix hix
    have hix' : InB s11.shape ix := by rw [h.shape11]; exact hix
    rw [lincomb_get (show InB (lincomb 1 s11 1 s22).shape ix from hix'), lincomb_get hix']
    ring
  intro ix hix
  rw [← hval ix hix]
  refine poolSeq_zeros (x := lincomb 1 (lincomb 1 s11 1 s22) (-2) s12) (ops := ops)
    (Fitting_congr (show u1.shape = (lincomb 1 (lincomb 1 s11 1 s22) (-2) s12).shape from h.shape11.symm) hf) hs hw ?_ ?_ ix
    (show InB s11.shape ix by rw [h.shape11]; exact hix)
  · intro jx hjx
    have hjx' : InB u1.shape jx := by rw [← h.shape11]; exact hjx
    rw [hval jx hjx']
    have := h.possible jx hjx' 1 (-1)
    nlinarith [sq_nonneg (1 * u1.get jx + -1 * u2.get jx)]
  · intro jx hjx
    rw [e2] at hjx ⊢
    have hjx' : InB (poolSeq s11 ops).shape jx := hjx
    rw [lincomb_get (show InB (lincomb 1 (poolSeq s11 ops) 1 (poolSeq s22 ops)).shape jx from hjx'), lincomb_get hjx']
    have := h0 jx (by rw [← hsh _ h.shape11]; exact hjx')
    linarith

/-- a mean of numbers that are at most one is one only if all are -/
theorem mean_eq_one {l : List α} (hne : l ≠ []) (h : ∀ v ∈ l, v ≤ 1) (h1 : Spec.mean l = 1) : ∀ v ∈ l, v = 1 := by
  have hlen : (0 : α) < (l.length : α) := by
    have := List.length_pos_iff.2 hne
    exact_mod_cast this
  have hsum : (l.map fun v => 1 - v).sum = 0 := by
    rw [Spec.mean, div_eq_one_iff_eq hlen.ne'] at h1
    have : ∀ l : List α, (l.map fun v => 1 - v).sum = (l.length : α) - l.sum := by
      intro l
      induction l with
      | nil => simp
      | cons a l ih => simp only [List.map_cons, List.sum_cons, ih, List.length_cons]; push_cast; ring
    rw [this, h1, sub_self]
  intro v hv
  have h2 : 1 - v ≤ (l.map fun v => 1 - v).sum := by
    apply List.single_le_sum
    · intro b hb
      obtain ⟨u, hu, rfl⟩ := List.mem_map.1 hb
      exact sub_nonneg.2 (h u hu)
    · exact List.mem_map.2 ⟨v, hv, rfl⟩
  rw [hsum] at h2
  exact le_antisymm (h v hv) (by linarith)

end

end TI
