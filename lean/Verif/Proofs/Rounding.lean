import Verif.Spec.Rounding
import Verif.Spec.Energy
import Verif.Model.Rounded
import Verif.Proofs.PoolSame
import Mathlib.Tactic.Linarith
import Mathlib.Tactic.Ring

/-!
# Rounding errors of pooling
-/

set_option linter.unusedSectionVars false

namespace TI
open Tensor Spec

section
variable {α : Type} [Field α] [LinearOrder α] [IsStrictOrderedRing α] {u : α}

theorem bound_mono (hu : 0 ≤ u) {n k : Nat} (h : n ≤ k) : (1 + u) ^ n ≤ (1 + u) ^ k := pow_le_pow_right₀ (by linarith) h

theorem one_le_pow_u (hu : 0 ≤ u) (n : Nat) : 1 ≤ (1 + u) ^ n := one_le_pow₀ (by linarith)

theorem roundingBound_nonneg (hu : 0 ≤ u) (n : Nat) : 0 ≤ roundingBound u n := by
  have := one_le_pow_u hu n
  rw [roundingBound]
  linarith

theorem roundingBound_le (hu : 0 ≤ u) (n : Nat) (h : (n : α) * u < 1) : roundingBound u n ≤ n * u / (1 - n * u) := by
  have key : ∀ n : Nat, (1 + u) ^ n * (1 - n * u) ≤ 1 := by
    intro n
    induction n with
    | zero => simp
    | succ n ih =>
      have hp : 0 ≤ (1 + u) ^ n := by linarith [one_le_pow_u hu n]
      have h0 : (0 : α) ≤ ((n : α) + 1) * u ^ 2 := by positivity
      have : (1 + u) ^ (n + 1) * (1 - ((n + 1 : Nat) : α) * u) = (1 + u) ^ n * (1 - n * u) - (1 + u) ^ n * (((n : α) + 1) * u ^ 2) := by
        push_cast
        ring
      rw [this]
      nlinarith [mul_nonneg hp h0]
  have hd : 0 < 1 - (n : α) * u := by linarith
  rw [roundingBound, le_div_iff₀ hd]
  have := key n
  nlinarith

theorem absSum_nonneg' (l : List α) : 0 ≤ (l.map abs).sum := List.sum_nonneg (by
  intro a ha
  obtain ⟨b, _, rfl⟩ := List.mem_map.1 ha
  exact abs_nonneg b)

theorem abs_sum_le : ∀ l : List α, |l.sum| ≤ (l.map abs).sum
  | [] => by simp
  | a :: l => by
    rw [List.sum_cons, List.map_cons, List.sum_cons]
    exact (abs_add_le _ _).trans (by linarith [abs_sum_le l])

theorem Spec.Evaluates.ne_nil {l : List α} {v : α} (h : Evaluates u l v) : l ≠ [] := by
  induction h with
  | term => simp
  | add _ _ _ h1 _ => simp [h1]
  | fused => simp
  | perm hp _ ih =>
    intro h
    rw [h] at hp
    exact ih hp.eq_nil

/-- every term goes through at most as many roundings as there are terms -/
theorem Spec.Evaluates.error (hu : 0 ≤ u) {l : List α} {v : α} (h : Evaluates u l v) : |v - l.sum| ≤ roundingBound u l.length * (l.map abs).sum := by
  induction h with
  | term h => simpa [roundingBound, Rounds] using h
  | @add l l' a b v h1 h2 h i1 i2 =>
    have n1 : 1 ≤ l.length := List.length_pos_iff.2 h1.ne_nil
    have n2 : 1 ≤ l'.length := List.length_pos_iff.2 h2.ne_nil
    have L1 := absSum_nonneg' l
    have L2 := absSum_nonneg' l'
    have a1 : |a| ≤ (1 + u) ^ l.length * (l.map abs).sum := by
      have := abs_sub_abs_le_abs_sub a l.sum
      have := abs_sum_le l
      rw [roundingBound] at i1
      linarith
    have a2 : |b| ≤ (1 + u) ^ l'.length * (l'.map abs).sum := by
      have := abs_sub_abs_le_abs_sub b l'.sum
      have := abs_sum_le l'
      rw [roundingBound] at i2
      linarith
    have hr : |v - (a + b)| ≤ u * (|a| + |b|) := le_trans h (mul_le_mul_of_nonneg_left (abs_add_le a b) hu)
    have ht : |v - (l.sum + l'.sum)| ≤ |v - (a + b)| + |a - l.sum| + |b - l'.sum| := by
      have e : v - (l.sum + l'.sum) = (v - (a + b)) + (a - l.sum) + (b - l'.sum) := by ring
      rw [e]
      exact (abs_add_le _ _).trans (by linarith [abs_add_le (v - (a + b)) (a - l.sum)])
    have b1 : (1 + u) ^ (l.length + 1) * (l.map abs).sum ≤ (1 + u) ^ (l.length + l'.length) * (l.map abs).sum :=
      mul_le_mul_of_nonneg_right (bound_mono hu (by omega)) L1
    have b2 : (1 + u) ^ (l'.length + 1) * (l'.map abs).sum ≤ (1 + u) ^ (l.length + l'.length) * (l'.map abs).sum :=
      mul_le_mul_of_nonneg_right (bound_mono hu (by omega)) L2
    have c1 := mul_le_mul_of_nonneg_left a1 hu
    have c2 := mul_le_mul_of_nonneg_left a2 hu
    rw [List.sum_append, List.map_append, List.sum_append, List.length_append, roundingBound]
    rw [roundingBound] at i1 i2
    rw [pow_succ] at b1 b2
    nlinarith
  | @fused l t a v h1 h i1 =>
    have n1 : 1 ≤ l.length := List.length_pos_iff.2 h1.ne_nil
    have L1 := absSum_nonneg' l
    have a1 : |a| ≤ (1 + u) ^ l.length * (l.map abs).sum := by
      have := abs_sub_abs_le_abs_sub a l.sum
      have := abs_sum_le l
      rw [roundingBound] at i1
      linarith
    have hr : |v - (t + a)| ≤ u * (|t| + |a|) := le_trans h (mul_le_mul_of_nonneg_left (abs_add_le t a) hu)
    have ht : |v - (t + l.sum)| ≤ |v - (t + a)| + |a - l.sum| := by
      have e : v - (t + l.sum) = (v - (t + a)) + (a - l.sum) := by ring
      rw [e]
      exact abs_add_le _ _
    have b1 : (1 + u) ^ 1 * |t| ≤ (1 + u) ^ (l.length + 1) * |t| :=
      mul_le_mul_of_nonneg_right (bound_mono hu (by omega)) (abs_nonneg t)
    have c1 := mul_le_mul_of_nonneg_left a1 hu
    rw [List.sum_cons, List.map_cons, List.sum_cons, List.length_cons, roundingBound]
    rw [roundingBound] at i1
    rw [pow_one, pow_succ] at b1
    rw [pow_succ]
    nlinarith
  | @perm l l' v hp _ ih =>
    rw [← hp.sum_eq, ← (hp.map abs).sum_eq, ← hp.length_eq]
    exact ih

/-- a sum of terms which are themselves off by a relative error -/
theorem Spec.Evaluates.chain (hu : 0 ≤ u) {e : α} {n : Nat} {f f' F : Nat → α} {v : α}
    (hv : Evaluates u ((List.range n).map f') v) (hf : ∀ j < n, |f' j - f j| ≤ e * F j) (hF : ∀ j < n, |f j| ≤ F j) :
    |v - ((List.range n).map f).sum| ≤ ((1 + e) * (1 + u) ^ n - 1) * ((List.range n).map F).sum := by
  have h1 := hv.error hu
  rw [List.length_map, List.length_range, List.map_map, roundingBound] at h1
  have h2 : ((List.range n).map (abs ∘ f')).sum ≤ (1 + e) * ((List.range n).map F).sum := by
    rw [← List.sum_map_mul_left]
    apply List.sum_le_sum
    intro j hj
    have hj := List.mem_range.1 hj
    have := abs_sub_abs_le_abs_sub (f' j) (f j)
    have := hf j hj
    have := hF j hj
    simp only [Function.comp]
    linarith
  have h3 : |((List.range n).map f').sum - ((List.range n).map f).sum| ≤ e * ((List.range n).map F).sum := by
    have e1 : ((List.range n).map f').sum - ((List.range n).map f).sum = ((List.range n).map fun j => f' j - f j).sum := by
      rw [sub_eq_iff_eq_add, ← List.sum_map_add]
      simp
    rw [e1]
    refine (abs_sum_le _).trans ?_
    rw [List.map_map, ← List.sum_map_mul_left]
    apply List.sum_le_sum
    intro j hj
    exact hf j (List.mem_range.1 hj)
  have h4 : |v - ((List.range n).map f).sum| ≤ |v - ((List.range n).map f').sum| + |((List.range n).map f').sum - ((List.range n).map f).sum| := by
    have := abs_add_le (v - ((List.range n).map f').sum) (((List.range n).map f').sum - ((List.range n).map f).sum)
    simpa using this
  have h5 := mul_le_mul_of_nonneg_left h2 (show 0 ≤ (1 + u) ^ n - 1 by linarith [one_le_pow_u hu n])
  have h6 : ((1 + e) * (1 + u) ^ n - 1) * ((List.range n).map F).sum = ((1 + u) ^ n - 1) * ((1 + e) * ((List.range n).map F).sum) + e * ((List.range n).map F).sum := by
    ring
  rw [h6]
  linarith

/-! ## the loop with given scalar products -/

/-- one pass with a given scalar product -/
def slideWith (dot : List Nat → List α → List α → α) (x : Tensor α) (o : PoolOp α) : Tensor α :=
  if o.kernel = [] then x
  else ofFn (x.shape.set o.axis (windowCount (x.shape.getD o.axis 0) o.kernel.length o.stride 1)) fun ix =>
    dot ix ((List.range o.kernel.length).map fun j => x.get (ix.set o.axis (ix.getD o.axis 0 * o.stride + j))) o.kernel

/-- all passes -/
def seqWith (dot : Nat → List Nat → List α → List α → α) : Nat → Tensor α → List (PoolOp α) → Tensor α
  | _, x, [] => x
  | i, x, o :: ops => seqWith dot (i + 1) (slideWith (dot i) x o) ops

theorem slideWith_shape (dot : List Nat → List α → List α → α) {x y : Tensor α} (h : x.shape = y.shape) (o : PoolOp α) :
    (slideWith dot x o).shape = (slide y o).shape := by
  rw [slide_shape, slideWith, ← h]
  split_ifs <;> rfl

theorem Fitting.congr : ∀ {ops : List (PoolOp α)} {x y : Tensor α}, x.shape = y.shape → Fitting x ops → Fitting y ops
  | [], _, _, _, _ => trivial
  | o :: ops, x, y, h, hf => by
    refine ⟨fun hk => ?_, Fitting.congr ?_ hf.2⟩
    · rw [ndim, ← h]
      exact hf.1 hk
    · rw [slide_shape, slide_shape, h]

theorem unfold_matvecWith (dot : List Nat → List α → List α → α) {x : Tensor α} {a s : Nat} {w : List α} (ha : a < x.ndim) (hw : w ≠ []) (hs : 0 < s)
    (hf : w.length ≤ x.shape.getD a 0) :
    (x.unfold a (w.length : Int) (s : Int)).bind (fun y => y.matvecWith dot w) = .ok (slideWith dot x ⟨a, w, s⟩) := by
  have hpos : 0 < w.length := List.length_pos_iff.2 hw
  rw [unfold_eq ha hs hf]
  simp only [Except.bind]
  rw [Tensor.matvecWith, if_pos ⟨by simp [ofFn], by simp [ofFn, List.getLastD_eq_getLast?]⟩]
  congr 1
  rw [slideWith, if_neg hw]
  have hsh : (ofFn (x.shape.set a ((x.shape.getD a 0 - w.length) / s + 1) ++ [w.length]) fun ix =>
      x.get (ix.dropLast.set a (ix.getD a 0 * s + ix.getLastD 0))).shape.dropLast =
      x.shape.set a (windowCount (x.shape.getD a 0) w.length s 1) := by
    rw [windowCount_pos hs hpos hf]
    simp [ofFn]
  rw [hsh]
  apply ofFn_congr
  intro ix hix
  congr 1
  apply List.map_congr_left
  intro j hj
  rw [windowCount_pos hs hpos hf] at hix
  rw [get_ofFn (inB_concat hix (List.mem_range.1 hj))]
  have hl : a < ix.length := by
    rw [hix.length_eq]
    simpa [Tensor.ndim] using ha
  rw [List.dropLast_concat, getD_append_lt hl]
  simp

variable {pool : SepPool α} {g : PoolArgs α} {m : Nat}

theorem PoolIs.stepWith (dot : Nat → List Nat → List α → List α → α) (h : PoolIs pool g m) {i : Nat} (hi : g.isMany = true → i < m) {axes : List Nat}
    {x : Tensor α} (hf : (g.op axes i).kernel ≠ [] → (g.op axes i).axis < x.ndim ∧ 0 < (g.op axes i).stride ∧
      (g.op axes i).kernel.length ≤ x.shape.getD (g.op axes i).axis 0) :
    SepPool.poolStepWith dot pool i ((axes.getD i 0 : Nat) : Int) x = .ok (slideWith (dot i) x (g.op axes i)) := by
  have e1 := h.getSize hi
  have e2 := h.getStride hi axes
  have e3 := h.getKernel hi
  cases hk : pool.kernelSize.get (i : Int) with
  | error e => rw [hk] at e1; simp [Except.bind] at e1
  | ok k =>
  rw [hk] at e1
  simp only [Except.bind] at e1
  simp only [SepPool.poolStepWith, hk, e1, bind, Except.bind]
  by_cases h0 : g.kernel.entry [] i = []
  · rw [if_pos (by simp [h0])]
    simp [slideWith, PoolArgs.op, h0, pure, Except.pure]
  · have hpos : 0 < (g.kernel.entry [] i).length := List.length_pos_iff.2 h0
    rw [if_neg (by omega)]
    obtain ⟨f1, f2, f3⟩ := hf h0
    cases hs : pool.stride.get (i : Int) with
    | error e => rw [hs] at e2; simp [Except.bind] at e2
    | ok s =>
    rw [hs] at e2
    simp only [Except.bind] at e2
    cases hw : pool.kernel.get (i : Int) with
    | error e => rw [hw] at e3; simp [Except.bind] at e3
    | ok w =>
    rw [hw] at e3
    simp only [Except.bind] at e3
    have hsl := unfold_matvecWith (dot i) (x := x) (a := (g.op axes i).axis) (s := (g.op axes i).stride) (w := g.kernel.entry [] i) f1 h0 f2 f3
    have hax : convDim x.ndim ((axes.getD i 0 : Nat) : Int) = .ok (g.op axes i).axis := convDim_nat f1
    simp only [e2, hax]
    cases hu : x.unfold (g.op axes i).axis ((g.kernel.entry [] i).length : Int) ((g.op axes i).stride : Int) with
    | error e => rw [hu] at hsl; simp [Except.bind] at hsl
    | ok y =>
    rw [hu] at hsl
    simp only [Except.bind] at hsl
    simp only [e3]
    exact hsl

theorem PoolIs.loopWith (dot : Nat → List Nat → List α → List α → α) (h : PoolIs pool g m) {axes : List Nat} (hi : g.isMany = true → axes.length ≤ m) :
    ∀ (n i : Nat) (x : Tensor α), i + n = axes.length →
      Fitting x ((List.range n).map fun j => g.op axes (i + j)) →
      SepPool.poolLoopWith dot pool i (castV (axes.drop i)) x = .ok (seqWith dot i x ((List.range n).map fun j => g.op axes (i + j)))
  | 0, i, x, hn, _ => by
    rw [List.drop_eq_nil_of_le (by omega)]
    rfl
  | n + 1, i, x, hn, hf => by
    have hlt : i < axes.length := by omega
    rw [List.range_succ_eq_map, List.map_cons, List.map_map] at hf ⊢
    have hd : axes.drop i = axes.getD i 0 :: axes.drop (i + 1) := by
      rw [List.drop_eq_getElem_cons hlt]
      simp [hlt]
    have hfun : (fun j => g.op axes (i + j)) ∘ Nat.succ = fun j => g.op axes (i + 1 + j) := by
      funext j
      simp only [Function.comp, Nat.succ_eq_add_one]
      congr 1
      omega
    rw [hfun] at hf ⊢
    rw [hd, castV, List.map_cons, SepPool.poolLoopWith]
    simp only [Nat.add_zero] at hf ⊢
    rw [h.stepWith dot (fun hm => by have := hi hm; omega) hf.1]
    simp only [bind, Except.bind]
    exact h.loopWith dot hi n (i + 1) (slideWith (dot i) x (g.op axes i)) (by omega) (Fitting.congr (slideWith_shape (dot i) rfl _).symm hf.2)

theorem PoolIs.loopWith_all (dot : Nat → List Nat → List α → List α → α) (h : PoolIs pool g m) {axes : List Nat}
    (hi : g.isMany = true → axes.length ≤ m) {x : Tensor α} (hf : Fitting x (g.ops axes)) :
    SepPool.poolLoopWith dot pool 0 (castV axes) x = .ok (seqWith dot 0 x (g.ops axes)) := by
  have := h.loopWith dot hi axes.length 0 x (by omega) (by simpa [PoolArgs.ops] using hf)
  simpa [PoolArgs.ops] using this

/-! ## the error of the loop -/

/-- entry by entry: `y'` is `y` up to an error of `e` on the scale `A`, which is at least as large as the entries -/
structure Near (e : α) (y' y A : Tensor α) : Prop where
  shape : y'.shape = y.shape
  scale : A.shape = y.shape
  err : ∀ n, |y'.data.getD n 0 - y.data.getD n 0| ≤ e * A.data.getD n 0
  le : ∀ n, |y.data.getD n 0| ≤ A.data.getD n 0

theorem Near.get {e : α} {y' y A : Tensor α} (h : Near e y' y A) (ix : List Nat) : |y'.get ix - y.get ix| ≤ e * A.get ix ∧ |y.get ix| ≤ A.get ix := by
  rw [Tensor.get, Tensor.get, Tensor.get, h.shape, h.scale]
  exact ⟨h.err _, h.le _⟩

theorem Near.refl (x : Tensor α) : Near 0 x x (x.map abs) := by
  refine ⟨rfl, rfl, fun n => by simp, fun n => ?_⟩
  simp only [Tensor.map, List.getD_eq_getElem?_getD, List.getElem?_map]
  cases x.data[n]? <;> simp

theorem getD_beyond {l : List α} {n : Nat} (h : l.length ≤ n) : l.getD n 0 = 0 := by
  simp [List.getD_eq_getElem?_getD, List.getElem?_eq_none h]

theorem entry_ofFn (s : List Nat) (f : List Nat → α) (n : Nat) :
    (n < (indices s).length ∧ (ofFn s f).data.getD n 0 = f ((indices s).getD n [])) ∨
      ((indices s).length ≤ n ∧ (ofFn s f).data.getD n 0 = 0) := by
  by_cases h : n < (indices s).length
  · left
    simp [ofFn, List.getD_eq_getElem?_getD, h]
  · right
    simp only [ofFn, List.getD_eq_getElem?_getD, List.getElem?_map]
    rw [List.getElem?_eq_none (by omega)]
    exact ⟨by omega, rfl⟩

theorem Near.step (hu : 0 ≤ u) {dot : Nat → List Nat → List α → List α → α} (hd : AccurateDot u dot) (i : Nat) {e : α} (he : 0 ≤ e) {y' y A : Tensor α}
    (h : Near e y' y A) (o : PoolOp α) :
    Near ((1 + e) * (1 + u) ^ (if o.kernel = [] then 0 else o.kernel.length + 1) - 1) (slideWith (dot i) y' o) (slide y o) (slide A (absOp o)) := by
  by_cases hk : o.kernel = []
  · simpa [slideWith, slide, absOp, hk] using h
  have hk' : (absOp o).kernel ≠ [] := by simpa [absOp] using hk
  rw [if_neg hk, slideWith, slide, slide, if_neg hk, if_neg hk, if_neg hk', h.shape, h.scale]
  simp only [absOp, List.length_map]
  refine ⟨rfl, rfl, fun n => ?_, fun n => ?_⟩
  · rcases entry_ofFn (y.shape.set o.axis (windowCount (y.shape.getD o.axis 0) o.kernel.length o.stride 1)) (fun ix =>
      dot i ix ((List.range o.kernel.length).map fun j => y'.get (ix.set o.axis (ix.getD o.axis 0 * o.stride + j))) o.kernel) n with ⟨hn, e1⟩ | ⟨hn, e1⟩
    · rw [e1]
      rcases entry_ofFn (y.shape.set o.axis (windowCount (y.shape.getD o.axis 0) o.kernel.length o.stride 1)) (fun ix =>
        ((List.range o.kernel.length).map fun j => o.kernel.getD j 0 * y.get (ix.set o.axis (ix.getD o.axis 0 * o.stride + j))).sum) n with ⟨_, e2⟩ | ⟨hn', _⟩
      · rw [e2]
        rcases entry_ofFn (y.shape.set o.axis (windowCount (y.shape.getD o.axis 0) o.kernel.length o.stride 1)) (fun ix =>
          ((List.range o.kernel.length).map fun j => (o.kernel.map abs).getD j 0 * A.get (ix.set o.axis (ix.getD o.axis 0 * o.stride + j))).sum) n with
          ⟨_, e3⟩ | ⟨hn', _⟩
        · rw [e3]
          generalize (indices (y.shape.set o.axis (windowCount (y.shape.getD o.axis 0) o.kernel.length o.stride 1))).getD n [] = ix
          obtain ⟨w', hl, hw, hev⟩ := hd i ix ((List.range o.kernel.length).map fun j => y'.get (ix.set o.axis (ix.getD o.axis 0 * o.stride + j)))
            o.kernel hk (by simp)
          have := Evaluates.chain hu (e := (1 + e) * (1 + u) - 1) (f := fun j => o.kernel.getD j 0 * y.get (ix.set o.axis (ix.getD o.axis 0 * o.stride + j)))
            (F := fun j => (o.kernel.map abs).getD j 0 * A.get (ix.set o.axis (ix.getD o.axis 0 * o.stride + j))) hev ?_ ?_
          · refine this.trans (le_of_eq ?_)
            ring
          · intro j hj
            have hy := h.get (ix.set o.axis (ix.getD o.axis 0 * o.stride + j))
            have hwj := hw j hj
            have ew : (o.kernel.map abs).getD j 0 = |o.kernel.getD j 0| := by simp [hj]
            have ey : ((List.range o.kernel.length).map fun j => y'.get (ix.set o.axis (ix.getD o.axis 0 * o.stride + j))).getD j 0 =
                y'.get (ix.set o.axis (ix.getD o.axis 0 * o.stride + j)) := by simp [hj]
            rw [ew, ey]
            generalize y'.get (ix.set o.axis (ix.getD o.axis 0 * o.stride + j)) = b' at *
            generalize y.get (ix.set o.axis (ix.getD o.axis 0 * o.stride + j)) = b at *
            generalize A.get (ix.set o.axis (ix.getD o.axis 0 * o.stride + j)) = B at *
            generalize o.kernel.getD j 0 = a at *
            generalize w'.getD j 0 = a' at *
            rw [Rounds] at hwj
            have e4 : a' * b' - a * b = a' * (b' - b) + (a' - a) * b := by ring
            have e5 : |a'| ≤ (1 + u) * |a| := by
              have := abs_sub_abs_le_abs_sub a' a
              linarith
            have hB : 0 ≤ B := (abs_nonneg b).trans hy.2
            have t1 : |a'| * |b' - b| ≤ ((1 + u) * |a|) * (e * B) := mul_le_mul e5 hy.1 (abs_nonneg _) (mul_nonneg (by linarith) (abs_nonneg a))
            have t2 : |a' - a| * |b| ≤ (u * |a|) * B := mul_le_mul hwj hy.2 (abs_nonneg _) (mul_nonneg hu (abs_nonneg a))
            rw [e4]
            refine (abs_add_le _ _).trans ?_
            rw [abs_mul, abs_mul]
            linarith
          · intro j hj
            have hy := h.get (ix.set o.axis (ix.getD o.axis 0 * o.stride + j))
            have ew : (o.kernel.map abs).getD j 0 = |o.kernel.getD j 0| := by simp [hj]
            rw [ew, abs_mul]
            exact mul_le_mul_of_nonneg_left hy.2 (abs_nonneg _)
        · omega
      · omega
    · rw [e1]
      rw [getD_beyond (by simpa [ofFn] using hn), getD_beyond (by simpa [ofFn] using hn)]
      simp
  · rcases entry_ofFn (y.shape.set o.axis (windowCount (y.shape.getD o.axis 0) o.kernel.length o.stride 1)) (fun ix =>
        ((List.range o.kernel.length).map fun j => o.kernel.getD j 0 * y.get (ix.set o.axis (ix.getD o.axis 0 * o.stride + j))).sum) n with ⟨hn, e2⟩ | ⟨hn, e2⟩
    · rw [e2]
      rcases entry_ofFn (y.shape.set o.axis (windowCount (y.shape.getD o.axis 0) o.kernel.length o.stride 1)) (fun ix =>
          ((List.range o.kernel.length).map fun j => (o.kernel.map abs).getD j 0 * A.get (ix.set o.axis (ix.getD o.axis 0 * o.stride + j))).sum) n with
          ⟨_, e3⟩ | ⟨hn', _⟩
      · rw [e3]
        refine (abs_sum_le _).trans ?_
        rw [List.map_map]
        apply List.sum_le_sum
        intro j hj
        have hj := List.mem_range.1 hj
        have ew : (o.kernel.map abs).getD j 0 = |o.kernel.getD j 0| := by simp [hj]
        simp only [Function.comp]
        rw [ew, abs_mul]
        exact mul_le_mul_of_nonneg_left (h.get _).2 (abs_nonneg _)
      · omega
    · rw [e2]
      rw [getD_beyond (by simpa [ofFn] using hn)]
      simp

theorem Near.seq (hu : 0 ≤ u) {dot : Nat → List Nat → List α → List α → α} (hd : AccurateDot u dot) :
    ∀ (ops : List (PoolOp α)) (i : Nat) {e : α} {y' y A : Tensor α}, 0 ≤ e → Near e y' y A →
      Near ((1 + e) * (1 + u) ^ roundings ops - 1) (seqWith dot i y' ops) (poolSeq y ops) (poolSeq A (ops.map absOp))
  | [], i, e, y', y, A, he, h => by simpa [roundings, seqWith, poolSeq] using h
  | o :: ops, i, e, y', y, A, he, h => by
    have h1 := h.step hu hd i he o
    have he' : 0 ≤ (1 + e) * (1 + u) ^ (if o.kernel = [] then 0 else o.kernel.length + 1) - 1 := by
      have := one_le_pow_u hu (if o.kernel = [] then 0 else o.kernel.length + 1)
      nlinarith
    have h2 := Near.seq hu hd ops (i + 1) he' h1
    have e1 : (1 + ((1 + e) * (1 + u) ^ (if o.kernel = [] then 0 else o.kernel.length + 1) - 1)) * (1 + u) ^ roundings ops - 1 =
        (1 + e) * (1 + u) ^ roundings (o :: ops) - 1 := by
      rw [roundings, roundings, List.map_cons, List.sum_cons, pow_add]
      ring
    rw [e1] at h2
    exact h2

theorem seqWith_shape (dot : Nat → List Nat → List α → List α → α) : ∀ (ops : List (PoolOp α)) (i : Nat) {x y : Tensor α}, x.shape = y.shape →
    (seqWith dot i x ops).shape = (poolSeq y ops).shape
  | [], _, _, _, h => h
  | o :: ops, i, _, _, h => seqWith_shape dot ops (i + 1) (slideWith_shape (dot i) h o)

/-- the error of a whole call, once the padding has succeeded -/
theorem seqWith_near (hu : 0 ≤ u) {dot : Nat → List Nat → List α → List α → α} (hd : AccurateDot u dot) (x : Tensor α) (ops : List (PoolOp α)) :
    Near (roundingBound u (roundings ops)) (seqWith dot 0 x ops) (poolSeq x ops) (magnitudeOf x ops) := by
  have := Near.seq hu hd ops 0 le_rfl (Near.refl x)
  rwa [add_zero, one_mul] at this

/-! ## outcomes do not depend on the arithmetic -/

/-- two outcomes of the same kind: the same exception, or tensors of the same shape -/
def SameKind : Except Err (Tensor α) → Except Err (Tensor α) → Prop
  | .ok x, .ok y => x.shape = y.shape
  | .error e, .error e' => e = e'
  | _, _ => False

theorem unfold_kind {x y : Tensor α} (h : x.shape = y.shape) (a : Nat) (k s : Int) : SameKind (x.unfold a k s) (y.unfold a k s) := by
  rw [Tensor.unfold, Tensor.unfold, ndim, ndim, h]
  split_ifs <;> rfl

theorem stepWith_kind (dot : Nat → List Nat → List α → List α → α) (pool : SepPool α) (i : Nat) (axis : Int) {x y : Tensor α} (h : x.shape = y.shape) :
    SameKind (SepPool.poolStepWith dot pool i axis x) (SepPool.poolStep pool i axis y) := by
  simp only [SepPool.poolStepWith, SepPool.poolStep, bind, Except.bind]
  rw [show x.ndim = y.ndim by rw [ndim, ndim, h]]
  cases pool.kernelSize.get (i : Int) with
  | error e => rfl
  | ok k =>
  simp only
  cases SepPool.asSize k with
  | error e => rfl
  | ok k =>
  simp only
  by_cases hk : k = 0
  · simpa [hk, pure, Except.pure, SameKind] using h
  · rw [if_neg hk, if_neg hk]
    cases pool.stride.get (i : Int) with
    | error e => rfl
    | ok s =>
    simp only
    cases SepPool.asSize s with
    | error e => rfl
    | ok s =>
    simp only
    cases convDim y.ndim axis with
    | error e => rfl
    | ok a =>
    simp only
    have hu := unfold_kind h a k s
    cases h1 : x.unfold a k s with
    | error e =>
      cases h2 : y.unfold a k s with
      | error e' => rw [h1, h2] at hu; exact hu
      | ok y' => rw [h1, h2] at hu; exact hu.elim
    | ok x' =>
      cases h2 : y.unfold a k s with
      | error e' => rw [h1, h2] at hu; exact hu.elim
      | ok y' =>
        rw [h1, h2] at hu
        simp only
        cases pool.kernel.get (i : Int) with
        | error e => rfl
        | ok w =>
        simp only
        cases SepPool.asVec w with
        | error e => rfl
        | ok w =>
        simp only [SameKind] at hu
        simp only [Tensor.matvecWith, Tensor.matvec, hu]
        split_ifs <;> rfl

theorem loopWith_kind (dot : Nat → List Nat → List α → List α → α) (pool : SepPool α) : ∀ (axes : List Int) (i : Nat) {x y : Tensor α}, x.shape = y.shape →
    SameKind (SepPool.poolLoopWith dot pool i axes x) (SepPool.poolLoop pool i axes y)
  | [], _, _, _, h => h
  | a :: as, i, x, y, h => by
    have h1 := stepWith_kind dot pool i a h
    simp only [SepPool.poolLoopWith, SepPool.poolLoop, bind, Except.bind]
    cases e1 : SepPool.poolStepWith dot pool i a x with
    | error e =>
      cases e2 : SepPool.poolStep pool i a y with
      | error e' => rw [e1, e2] at h1; exact h1
      | ok y' => rw [e1, e2] at h1; exact h1.elim
    | ok x' =>
      cases e2 : SepPool.poolStep pool i a y with
      | error e' => rw [e1, e2] at h1; exact h1.elim
      | ok y' =>
        rw [e1, e2] at h1
        exact loopWith_kind dot pool as (i + 1) h1

end

end TI
