import Verif.Spec.Waves
import Verif.Proofs.Interior
import Verif.Props.Axiswise

/-!
# Filtering waves
-/

set_option linter.unusedSectionVars false

namespace TI
open Tensor Spec

section
variable {α : Type} [Field α] [LinearOrder α] [IsStrictOrderedRing α] {x : Tensor α}

theorem periodic_mod {F : Int → α} {N : Int} (h : ∀ z, F (z + N) = F z) (z : Int) : F (z % N) = F z := by
  have step : ∀ (k : Nat) (z : Int), F (z + k * N) = F z := by
    intro k
    induction k with
    | zero => intro z; simp
    | succ k ih => intro z; rw [show z + ((k + 1 : Nat) : Int) * N = (z + k * N) + N by push_cast; ring, h, ih]
  have all : ∀ (k z : Int), F (z + k * N) = F z := by
    intro k z
    rcases Int.eq_nat_or_neg k with ⟨m, rfl | rfl⟩
    · exact step m z
    · rw [← step m (z + -(m : Int) * N)]
      congr 1
      ring
  have := all (z / N) (z % N)
  rw [← this]
  congr 1
  have := Int.emod_add_mul_ediv z N
  linarith [mul_comm N (z / N)]

/-- the rules extend these sequences, times any factor -/
theorem continued_rule {st : AxisPad α} {n : Nat} (hn : 0 < n) {F : Int → α} (h : ContinuedBy n F st.mode) {u : Nat → α} {c : α}
    (hu : ∀ j < n, u j = c * F j) : ∃ E, st.rule? = some E ∧ ∀ z : Int, E n u z = c * F z := by
  have mod : ∀ (N : Nat), 0 < N → ∀ z : Int, ((z % (N : Int)).toNat : Int) = z % N ∧ (z % (N : Int)).toNat < N := by
    intro N hN z
    have h1 := Int.emod_nonneg z (show (N : Int) ≠ 0 by omega)
    have h2 := Int.emod_lt_of_pos z (show (0 : Int) < N by omega)
    omega
  cases hm : st.mode with
  | circular =>
    rw [hm] at h
    refine ⟨Spec.circular, by simp [AxisPad.rule?, hm], fun z => ?_⟩
    obtain ⟨h1, h2⟩ := mod n hn z
    simp only [Spec.circular]
    rw [hu _ h2, h1, periodic_mod h]
  | symmetric =>
    rw [hm] at h
    refine ⟨Spec.symmetric, by simp [AxisPad.rule?, hm], fun z => ?_⟩
    obtain ⟨h1, h2⟩ := mod (2 * n) (by omega) z
    have e : ((2 * n : Nat) : Int) = 2 * (n : Int) := by push_cast; rfl
    rw [e] at h1 h2
    have hF : F ((z % (2 * (n : Int))).toNat : Int) = F z := by rw [h1]; exact periodic_mod h.2 z
    simp only [Spec.symmetric]
    split_ifs with h3
    · rw [hu _ h3, hF]
    · rw [hu _ (by omega), ← hF]
      congr 1
      rw [← h.1, ← h.2 (-1 - _)]
      congr 1
      omega
  | antisymmetric =>
    rw [hm] at h
    refine ⟨Spec.antisymmetric, by simp [AxisPad.rule?, hm], fun z => ?_⟩
    obtain ⟨h1, h2⟩ := mod (2 * n) (by omega) z
    have e : ((2 * n : Nat) : Int) = 2 * (n : Int) := by push_cast; rfl
    rw [e] at h1 h2
    have hF : F ((z % (2 * (n : Int))).toNat : Int) = F z := by rw [h1]; exact periodic_mod h.2 z
    simp only [Spec.antisymmetric]
    split_ifs with h3
    · rw [hu _ h3, hF]
    · rw [hu _ (by omega), ← hF, ← mul_neg]
      congr 1
      rw [← h.1, ← h.2 (-1 - _)]
      congr 1
      omega
  | reflect =>
    rw [hm] at h
    refine ⟨Spec.reflect, by simp [AxisPad.rule?, hm], fun z => ?_⟩
    obtain ⟨hn2, h4, h5⟩ := h
    obtain ⟨h1, h2⟩ := mod (2 * (n - 1)) (by omega) z
    have hF : F ((z % ((2 * (n - 1) : Nat) : Int)).toNat : Int) = F z := by
      rw [h1]
      refine periodic_mod (fun z => ?_) z
      rw [← h5 z]
      congr 1
      omega
    simp only [Spec.reflect, if_neg (show n ≠ 1 by omega)]
    split_ifs with h3
    · rw [hu _ h3, hF]
    · rw [hu _ (by omega), ← hF]
      congr 1
      rw [← h4, ← h5]
      congr 1
      omega
  | oddReflect =>
    rw [hm] at h
    refine ⟨Spec.oddReflect, by simp [AxisPad.rule?, hm], fun z => ?_⟩
    obtain ⟨hn2, h4, h5⟩ := h
    obtain ⟨h1, h2⟩ := mod (2 * (n - 1)) (by omega) z
    have hF : F ((z % ((2 * (n - 1) : Nat) : Int)).toNat : Int) = F z := by
      rw [h1]
      refine periodic_mod (fun z => ?_) z
      rw [← h5 z]
      congr 1
      omega
    have half : ∀ v : α, v = -v → v = 0 := fun v hv => by linarith
    have f0 : F 0 = 0 := half _ (by have := h4 0; rwa [neg_zero] at this)
    have f1 : F ((n - 1 : Nat) : Int) = 0 := by
      apply half
      rw [← h4, ← h5 (-_)]
      congr 1
      omega
    simp only [Spec.oddReflect, if_neg (show n ≠ 1 by omega)]
    rw [hu (n - 1) (by omega), hu 0 (by omega), f1, Nat.cast_zero, f0]
    split_ifs with h3
    · rw [hu _ h3, hF]; ring
    · rw [hu _ (by omega), ← hF]
      have : F ((2 * (n - 1) - (z % ((2 * (n - 1) : Nat) : Int)).toNat : Nat) : Int) = -F ((z % ((2 * (n - 1) : Nat) : Int)).toNat : Int) := by
        rw [← h4, ← h5 (-_)]
        congr 1
        omega
      rw [this]; ring
  | _ => rw [hm] at h; exact h.elim

theorem continued_linear {st : AxisPad α} {n : Nat} {F : Int → α} (h : ContinuedBy n F st.mode) : st.Linear := by
  cases hm : st.mode <;> rw [hm] at h <;> first | exact h.elim | simp [AxisPad.Linear, hm]

theorem continued_total {st : AxisPad α} {n : Nat} {F : Int → α} (h : ContinuedBy n F st.mode) (N : Nat) : st.total N = st.after := by
  have : st.mode.isPeriodize = false := by
    cases hm : st.mode <;> rw [hm] at h <;> first | exact h.elim | rfl
  rw [AxisPad.total]
  split_ifs with h1 h2
  · exact h1.2.symm
  · rw [this] at h2; cases h2
  · rfl

/-- widen and filter one axis along which the image follows a sequence -/
theorem sameStep_follows {d : Nat} {st : AxisPad α} {w : List α} (hd : d < x.ndim) (hn : 0 < x.shape.getD d 0) (hw : w ≠ [])
    (hb : st.before = w.length / 2) (ha : st.after = w.length - 1 - w.length / 2) {F : Int → α} (hF : ContinuedBy (x.shape.getD d 0) F st.mode)
    {A : List Nat → α} (hx : ∀ ix, InB x.shape ix → x.get ix = A (ix.set d 0) * F (ix.getD d 0)) :
    (sameStep x (⟨d, w, 1⟩, (d, st))).shape = x.shape ∧
      ∀ ix, InB x.shape ix → (sameStep x (⟨d, w, 1⟩, (d, st))).get ix = A (ix.set d 0) * response w F (ix.getD d 0) := by
  have hk : 0 < w.length := List.length_pos_of_ne_nil hw
  obtain ⟨E0, hE0, _⟩ := continued_rule (st := st) hn hF (u := fun j => 0 * F j) (c := 0) (fun _ _ => rfl)
  have hps : (padStep x (d, st)).shape = x.shape.set d (x.shape.getD d 0 + (w.length - 1)) := by
    rw [padStep_shape (fun _ => by simp [hE0]), continued_total hF]
    simp only
    congr 1
    omega
  have hwc : windowCount (x.shape.getD d 0 + (w.length - 1)) w.length 1 1 = x.shape.getD d 0 := by
    rw [windowCount_pos (by decide) hk (by omega), Nat.div_one]
    omega
  have hsh : (sameStep x (⟨d, w, 1⟩, (d, st))).shape = x.shape := by
    rw [sameStep, slide_shape, if_neg hw]
    simp only
    rw [hps, getD_set_self _ _ _ _ hd, hwc, List.set_set, set_getD_self]
  refine ⟨hsh, fun ix hix => ?_⟩
  have hdl : d < ix.length := by rw [hix.length_eq]; exact hd
  have hil : ix.getD d 0 < x.shape.getD d 0 := hix.lt hd
  rw [sameStep, slide_get hw (by rw [← sameStep, hsh]; exact hix), response, mul_sum_map]
  congr 1
  apply List.map_congr_left
  intro j hj
  have hj : j < w.length := List.mem_range.1 hj
  simp only [Nat.mul_one]
  have hin : ∀ i < x.shape.getD d 0, InB x.shape (ix.set d i) := fun i hi => hix.set_same hi
  have key : (padStep x (d, st)).get (ix.set d (ix.getD d 0 + j)) = A (ix.set d 0) * F (ix.getD d 0 + j - (w.length / 2 : Nat)) := by
    rw [padStep]
    split_ifs with hz
    · have hj0 : j = 0 := by simp only at hz; omega
      have hw1 : w.length / 2 = 0 := by simp only at hz; omega
      subst hj0
      rw [hw1, Nat.add_zero, set_getD_self, hx ix hix]
      simp
    · obtain ⟨E, hE, hEv⟩ := continued_rule (st := st) hn hF (u := fun i => x.get (ix.set d i)) (c := A (ix.set d 0)) (by
        intro i hi
        rw [hx _ (hin i hi), List.set_set, getD_set_self _ _ _ _ hdl])
      simp only [hE]
      rw [extendAxis, get_ofFn]
      · rw [getD_set_self _ _ _ _ hdl]
        simp only [List.set_set]
        rw [hEv, hb]
        push_cast
        rfl
      · apply hix.set'
        rw [continued_total hF]
        omega
  rw [key]
  ring

/-- widen and filter the axes one after the other, all of them multiplying the image by a number -/
theorem sameEach_follows (γ : Nat → α) (F : Nat → Int → α) :
    ∀ (l : List (PoolOp α × (Nat × AxisPad α))) (x : Tensor α),
      (∀ q ∈ l, q.2.1 < x.ndim ∧ 0 < x.shape.getD q.2.1 0 ∧ q.1.axis = q.2.1 ∧ q.1.stride = 1 ∧ q.1.kernel ≠ [] ∧
        q.2.2.before = q.1.kernel.length / 2 ∧ q.2.2.after = q.1.kernel.length - 1 - q.1.kernel.length / 2 ∧
        ContinuedBy (x.shape.getD q.2.1 0) (F q.2.1) q.2.2.mode ∧ Follows x q.2.1 (F q.2.1) ∧
        ∀ z : Nat, z < x.shape.getD q.2.1 0 → response q.1.kernel (F q.2.1) z = γ q.2.1 * F q.2.1 z) →
      (sameEach x l).shape = x.shape ∧
        ∀ ix, InB x.shape ix → (sameEach x l).get ix = (l.map fun q => γ q.2.1).prod * x.get ix
  | [], x, _ => ⟨rfl, fun ix _ => by simp [sameEach]⟩
  | (o, (d, st)) :: l, x, h => by
    obtain ⟨hd, hn, ho, hs, hw, hb, ha, hF, ⟨A, hA⟩, hg⟩ := h _ List.mem_cons_self
    obtain ⟨oa, w, os⟩ := o
    simp only at ho hs hw hb ha hd hn hF hA hg
    subst ho hs
    obtain ⟨h1, h2⟩ := sameStep_follows hd hn hw hb ha hF hA
    have h3 : ∀ ix, InB x.shape ix → (sameStep x (⟨oa, w, 1⟩, (oa, st))).get ix = γ oa * x.get ix := by
      intro ix hix
      rw [h2 ix hix, hA ix hix, hg _ (hix.lt hd)]
      ring
    obtain ⟨h4, h5⟩ := sameEach_follows γ F l (sameStep x (⟨oa, w, 1⟩, (oa, st))) (by
      intro q hq
      obtain ⟨g1, g2, g3, g4, g5, g6, g7, g8, ⟨B, hB⟩, g10⟩ := h q (List.mem_cons_of_mem _ hq)
      rw [h1]
      refine ⟨by rw [Tensor.ndim, h1]; exact g1, g2, g3, g4, g5, g6, g7, g8, ⟨fun ix => γ oa * B ix, fun ix hix => ?_⟩, g10⟩
      rw [h1] at hix
      rw [h3 ix hix, hB ix hix]
      ring)
    rw [h1] at h4 h5
    refine ⟨h4, fun ix hix => ?_⟩
    rw [show sameEach x ((⟨oa, w, 1⟩, (oa, st)) :: l) = sameEach (sameStep x (⟨oa, w, 1⟩, (oa, st))) l from rfl, h5 ix hix, h3 ix hix,
      List.map_cons, List.prod_cons]
    ring

variable {g : Given (List α)} {gp : PadArgs α} {ax : Axes} {axes : List Nat}

/-- same-padded filtering of an image that follows, along every axis, a sequence which the padding continues and the kernel multiplies -/
theorem filtered_follows (hc : SameCall (PoolArgs.filter g) gp x ax axes) {γ : Nat → α} {F : Nat → Int → α}
    (hF : ∀ i < axes.length, ContinuedBy (x.shape.getD (axes.getD i 0) 0) (F (axes.getD i 0)) (gp.mode.entry .unknown i))
    (hx : ∀ a ∈ axes, Follows x a (F a)) (hw : ∀ i < axes.length, g.entry [] i ≠ [])
    (hg : ∀ i < axes.length, ∀ z : Nat, z < x.shape.getD (axes.getD i 0) 0 →
      response (g.entry [] i) (F (axes.getD i 0)) z = γ (axes.getD i 0) * F (axes.getD i 0) z) :
    (filtered g gp x axes).shape = x.shape ∧
      ∀ ix, InB x.shape ix → (filtered g gp x axes).get ix = (axes.map γ).prod * x.get ix := by
  have hl : ∀ o ∈ (PoolArgs.filter g).ops axes, ∀ q ∈ sameOps (PoolArgs.filter g) gp x.shape axes, Passes o q.2 := by
    intro o _ q hq
    obtain ⟨i, hi, rfl⟩ := sameOps_mem hq
    exact Or.inl (continued_linear (st := sameSetting (PoolArgs.filter g) gp x.shape axes i) (hF i hi))
  have hz : ((PoolArgs.filter g).ops axes).zip (sameOps (PoolArgs.filter g) gp x.shape axes) =
      (List.range axes.length).map fun i => ((PoolArgs.filter g).op axes i, (axes.getD i 0, sameSetting (PoolArgs.filter g) gp x.shape axes i)) := by
    rw [sameOps_eq, PoolArgs.ops, List.zip_map', ]
  have h := sameEach_follows γ F (((PoolArgs.filter g).ops axes).zip (sameOps (PoolArgs.filter g) gp x.shape axes)) x (by
    intro q hq
    rw [hz] at hq
    obtain ⟨i, hi, rfl⟩ := List.mem_map.1 hq
    have hi := List.mem_range.1 hi
    have hm : axes.getD i 0 ∈ axes := by simp [hi]
    refine ⟨hc.lt _ (mem_sameOps hi), hc.pos _ hm, rfl, rfl, hw i hi, ?_, ?_, hF i hi, hx _ hm, hg i hi⟩
    · simp only [sameSetting, PoolArgs.samePair, filter_stride, sameTotal_one]
      exact half_before _
    · simp only [sameSetting, PoolArgs.samePair, filter_stride, sameTotal_one]
      omega)
  rw [filtered, poolSeq_each (hc.eachOK hl)]
  have hp : ((((PoolArgs.filter g).ops axes).zip (sameOps (PoolArgs.filter g) gp x.shape axes)).map fun q => γ q.2.1) = axes.map γ := by
    rw [hz, List.map_map]
    apply List.ext_getElem (by simp)
    intro i h1 h2
    have hi : i < axes.length := by simpa using h2
    simp [hi]
  rw [hp] at h
  exact h

/-- one axis, any kernel -/
theorem filtered_response {a : Nat} {w : List α} (hc : SameCall (PoolArgs.filter (.one w)) gp x ax [a]) {F : Int → α}
    (hF : ContinuedBy (x.shape.getD a 0) F (gp.mode.entry .unknown 0)) (hw : w ≠ []) {A : List Nat → α}
    (hA : ∀ ix, InB x.shape ix → x.get ix = A (ix.set a 0) * F (ix.getD a 0)) :
    (filtered (.one w) gp x [a]).shape = x.shape ∧
      ∀ ix, InB x.shape ix → (filtered (.one w) gp x [a]).get ix = A (ix.set a 0) * response w F (ix.getD a 0) := by
  have hl : ∀ o ∈ (PoolArgs.filter (.one w)).ops [a], ∀ q ∈ sameOps (PoolArgs.filter (.one w)) gp x.shape [a], Passes o q.2 := by
    intro o _ q hq
    obtain ⟨i, hi, rfl⟩ := sameOps_mem hq
    obtain rfl : i = 0 := by simpa using hi
    exact Or.inl (continued_linear (st := sameSetting (PoolArgs.filter (.one w)) gp x.shape [a] 0) hF)
  rw [filtered, poolSeq_each (hc.eachOK hl)]
  have hz : ((PoolArgs.filter (.one w)).ops [a]).zip (sameOps (PoolArgs.filter (.one w)) gp x.shape [a]) =
      [(⟨a, w, 1⟩, (a, sameSetting (PoolArgs.filter (.one w)) gp x.shape [a] 0))] := by
    rw [sameOps_eq]
    rfl
  rw [hz]
  refine sameStep_follows (d := a) (st := sameSetting (PoolArgs.filter (.one w)) gp x.shape [a] 0)
    (hc.lt _ (mem_sameOps (g := PoolArgs.filter (.one w)) (axes := [a]) (i := 0) (by simp))) (hc.pos a (by simp)) hw ?_ ?_ hF hA
  · simp only [sameSetting, PoolArgs.samePair, filter_stride, sameTotal_one]
    exact half_before _
  · simp only [sameSetting, PoolArgs.samePair, filter_stride, sameTotal_one]
    change (w.length - 1) / 2 = _
    omega

end

/-! ## Cosine waves -/

section
variable {w : List ℝ} {θ : ℝ}

theorem response_wave (w : List ℝ) (θ φ : ℝ) (z : Int) :
    response w (wave θ φ) z = waveGain w θ * Real.cos (θ * z + φ) - quadrature w θ * Real.sin (θ * z + φ) := by
  simp only [response, waveGain, quadrature, list_sum_range, Finset.sum_mul, ← Finset.sum_sub_distrib]
  apply Finset.sum_congr rfl
  intro j _
  simp only [wave]
  rw [show θ * ((z + (j : Int) - ((w.length / 2 : Nat) : Int) : Int) : ℝ) + φ = (θ * z + φ) + θ * ((j : ℝ) - ((w.length / 2 : Nat) : ℝ)) by
    simp only [Int.cast_sub, Int.cast_add, Int.cast_natCast]; ring, Real.cos_add]
  ring

theorem sum_reverse_range (f : Nat → ℝ) (k : Nat) : ((List.range k).map fun j => f (k - 1 - j)).sum = ((List.range k).map f).sum := by
  rw [list_sum_range, list_sum_range, Finset.sum_range_reflect]

theorem quadrature_symmetric (hs : w.reverse = w) (ho : w.length % 2 = 1) (θ : ℝ) : quadrature w θ = 0 := by
  have h : quadrature w θ = -quadrature w θ := by
    conv_lhs => rw [quadrature, ← sum_reverse_range]
    simp only [quadrature, list_sum_range, ← Finset.sum_neg_distrib]
    apply Finset.sum_congr rfl
    intro j hj
    have hj := Finset.mem_range.1 hj
    have h1 : w.getD (w.length - 1 - j) 0 = w.getD j 0 := by
      have e : w.reverse.getD j 0 = w.getD j 0 := by rw [hs]
      simp only [List.getD, List.getElem?_reverse hj] at e
      exact e
    rw [h1, ← mul_neg, ← Real.sin_neg]
    congr 2
    rw [Nat.cast_sub (by omega), Nat.cast_sub (by omega)]
    have h2 : (w.length : ℝ) = 2 * ((w.length / 2 : Nat) : ℝ) + 1 := by
      have : w.length = 2 * (w.length / 2) + 1 := by omega
      exact_mod_cast this
    rw [h2]
    push_cast
    ring
  linarith

theorem gain_antisymmetric (hs : w.reverse = w.map (fun v => -v)) (ho : w.length % 2 = 1) (θ : ℝ) : waveGain w θ = 0 := by
  have h : waveGain w θ = -waveGain w θ := by
    conv_lhs => rw [waveGain, ← sum_reverse_range]
    simp only [waveGain, list_sum_range, ← Finset.sum_neg_distrib]
    apply Finset.sum_congr rfl
    intro j hj
    have hj := Finset.mem_range.1 hj
    have h1 : w.getD (w.length - 1 - j) 0 = -w.getD j 0 := by
      have e : w.reverse.getD j 0 = (w.map (fun v => -v)).getD j 0 := by rw [hs]
      simp only [List.getD, List.getElem?_map, List.getElem?_reverse hj] at e
      rw [List.getD, e]
      simp [hj]
    rw [h1, neg_mul]
    congr 2
    rw [← Real.cos_neg]
    congr 1
    rw [Nat.cast_sub (by omega), Nat.cast_sub (by omega)]
    have h2 : (w.length : ℝ) = 2 * ((w.length / 2 : Nat) : ℝ) + 1 := by
      have : w.length = 2 * (w.length / 2) + 1 := by omega
      exact_mod_cast this
    rw [h2]
    push_cast
    ring
  linarith

theorem sum_getD_range (w : List ℝ) (f : ℝ → ℝ) : ((List.range w.length).map fun j => f (w.getD j 0)).sum = (w.map f).sum := by
  congr 1
  apply List.ext_getElem (by simp)
  intro i h1 h2
  have : i < w.length := by simpa using h2
  simp [this]

/-- the answer to a wave is no larger than the sum of the sizes of the weights -/
theorem gain_bound (w : List ℝ) (θ : ℝ) : waveGain w θ ^ 2 + quadrature w θ ^ 2 ≤ (w.map fun v => |v|).sum ^ 2 := by
  set C := waveGain w θ
  set S := quadrature w θ
  set R := Real.sqrt (C ^ 2 + S ^ 2)
  have hR : R ^ 2 = C ^ 2 + S ^ 2 := Real.sq_sqrt (by positivity)
  have hR0 : 0 ≤ R := Real.sqrt_nonneg _
  have hc : ∀ t : ℝ, C * Real.cos t + S * Real.sin t ≤ R := by
    intro t
    apply Real.le_sqrt_of_sq_le
    nlinarith [Real.sin_sq_add_cos_sq t, sq_nonneg (C * Real.sin t - S * Real.cos t)]
  have hc' : ∀ t : ℝ, |C * Real.cos t + S * Real.sin t| ≤ R := by
    intro t
    rw [abs_le]
    refine ⟨?_, hc t⟩
    have := hc (t + Real.pi)
    rw [Real.cos_add_pi, Real.sin_add_pi] at this
    linarith
  have key : R ^ 2 ≤ (w.map fun v => |v|).sum * R := by
    have e : R ^ 2 = ((List.range w.length).map fun j : Nat => w.getD j 0 *
        (C * Real.cos (θ * ((j : ℝ) - (w.length / 2 : Nat))) + S * Real.sin (θ * ((j : ℝ) - (w.length / 2 : Nat))))).sum := by
      rw [hR]
      have e1 : C ^ 2 = ((List.range w.length).map fun j : Nat => C * (w.getD j 0 * Real.cos (θ * ((j : ℝ) - (w.length / 2 : Nat))))).sum := by
        rw [← mul_sum_map, sq]; rfl
      have e2 : S ^ 2 = ((List.range w.length).map fun j : Nat => S * (w.getD j 0 * Real.sin (θ * ((j : ℝ) - (w.length / 2 : Nat))))).sum := by
        rw [← mul_sum_map, sq]; rfl
      rw [e1, e2, ← List.sum_map_add]
      congr 1
      apply List.map_congr_left
      intro j _
      ring
    rw [e, ← sum_getD_range, mul_comm, mul_sum_map]
    apply List.sum_le_sum
    intro j _
    calc _ ≤ |w.getD j 0 * (C * Real.cos (θ * ((j : ℝ) - (w.length / 2 : Nat))) + S * Real.sin (θ * ((j : ℝ) - (w.length / 2 : Nat))))| := le_abs_self _
      _ = |w.getD j 0| * _ := abs_mul _ _
      _ ≤ _ := by rw [mul_comm R]; exact mul_le_mul_of_nonneg_left (hc' _) (abs_nonneg _)
  rw [← hR]
  rcases hR0.eq_or_lt with h | h
  · rw [← h, zero_pow (by decide)]
    positivity
  · have h2 : R ≤ (w.map fun v => |v|).sum := by
      rw [sq] at key
      exact le_of_mul_le_mul_right key h
    exact pow_le_pow_left₀ hR0 h2 2

end

end TI
