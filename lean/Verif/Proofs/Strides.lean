import Verif.Spec.Strides
import Verif.Proofs.Wider
import Verif.Proofs.Energy
import Verif.Proofs.PoolBuilt
import Verif.Proofs.SsimCall

/-!
# Strided pooling and filtering
-/

set_option linter.unusedSectionVars false

namespace TI
open Tensor Spec

section
variable {α : Type} [Field α] {y z : Tensor α}

theorem spread_length (st off : Nat → Nat) (ix : List Nat) : (spread st off ix).length = ix.length := by simp [spread]

theorem spread_getD {st off : Nat → Nat} {ix : List Nat} {k : Nat} (hk : k < ix.length) :
    (spread st off ix).getD k 0 = ix.getD k 0 * st k + off k := by
  rw [spread, getD_map_range hk]

theorem spread_one {st off : Nat → Nat} (h : ∀ k, st k = 1) (ix : List Nat) : spread st off ix = further off ix := by
  simp [spread, further, h]

theorem spread_congr {st st' off off' : Nat → Nat} {ix : List Nat} (h : ∀ k < ix.length, st k = st' k ∧ off k = off' k) :
    spread st off ix = spread st' off' ix := by
  apply list_ext_getD (by simp [spread])
  intro k hk
  have hk : k < ix.length := by simpa [spread] using hk
  rw [spread_getD hk, spread_getD hk, (h k hk).1, (h k hk).2]

theorem spread_set {st st' off : Nat → Nat} {ix : List Nat} {a : Nat} (h : ∀ k, k ≠ a → st' k = st k) (h1 : st a = 1) {i j : Nat} (hij : j = i + off a) :
    (spread st' off ix).set a j = spread st off (ix.set a i) := by
  apply list_ext_getD (by simp [spread])
  intro k hk
  have hk' : k < ix.length := by simpa [spread] using hk
  rw [spread_getD (by simpa using hk')]
  by_cases hka : k = a
  · subst hka
    rw [getD_set_self _ _ _ _ (by simpa [spread] using hk'), getD_set_self _ _ _ _ hk', h1, hij, Nat.mul_one]
  · rw [getD_set_ne _ _ _ _ _ hka, getD_set_ne _ _ _ _ _ hka, spread_getD hk', h k hka]

theorem slide_every {st st' off : Nat → Nat} {a s : Nat} {w : List α} (h : EveryOf st off y z) (hnd : z.ndim = y.ndim) (ha : a < y.ndim) (hw : w ≠ [])
    (hs : 0 < s) (hst : ∀ k, k ≠ a → st' k = st k) (h1 : st a = 1) (hs' : st' a = s) :
    EveryOf st' off (slide y ⟨a, w, s⟩) (slide z ⟨a, w, 1⟩) := by
  intro ix hix
  have hwl : 0 < w.length := List.length_pos_iff.2 hw
  have hlen : ix.length = y.shape.length := by rw [hix.length_eq]; exact slide_ndim y _
  have hai : a < ix.length := by rw [hlen]; exact ha
  have read : ∀ j < w.length, InB z.shape ((spread st' off ix).set a ((spread st' off ix).getD a 0 * 1 + j)) ∧
      z.get ((spread st' off ix).set a ((spread st' off ix).getD a 0 * 1 + j)) = y.get (ix.set a (ix.getD a 0 * s + j)) := by
    intro j hj
    have hb := slide_inB (x := y) (o := ⟨a, w, s⟩) hs ha hw hix hj
    rw [spread_set hst h1 (i := ix.getD a 0 * s + j) (by rw [spread_getD hai, hs']; omega)]
    exact h _ hb
  have hin : InB (slide z ⟨a, w, 1⟩).shape (spread st' off ix) := by
    rw [slide_shape, if_neg hw]
    have h0 := (read (w.length - 1) (by omega)).1
    have hz : a < z.shape.length := by have : z.shape.length = y.shape.length := hnd; rw [this]; exact ha
    have hlt := h0.lt hz
    rw [getD_set_self _ _ _ _ (by rw [spread_length]; exact hai)] at hlt
    have := h0.set' (d := a) (i := (spread st' off ix).getD a 0) (m := windowCount (z.shape.getD a 0) w.length 1 1) (by
      rw [windowCount_eq (by omega), if_pos (by omega), Nat.div_one]; omega)
    rwa [List.set_set, set_getD_self] at this
  refine ⟨hin, ?_⟩
  rw [slide_get hw hix, slide_get hw hin]
  congr 1
  apply List.map_congr_left
  intro j hj
  rw [(read j (List.mem_range.1 hj)).2]

/-- the same windows at every position -/
def unstrided (o : PoolOp α) : PoolOp α := { o with stride := 1 }

theorem strideAt_cons_self {o : PoolOp α} (h : o.kernel ≠ []) (ops : List (PoolOp α)) : strideAt (o :: ops) o.axis = o.stride := by
  simp [strideAt, h]

theorem strideAt_cons_ne {o : PoolOp α} {k : Nat} (h : k ≠ o.axis) (ops : List (PoolOp α)) : strideAt (o :: ops) k = strideAt ops k := by
  simp [strideAt, Ne.symm h]

theorem strideAt_cons_nil {o : PoolOp α} (h : o.kernel = []) (ops : List (PoolOp α)) (k : Nat) : strideAt (o :: ops) k = strideAt ops k := by
  simp [strideAt, h]

theorem strideAt_not_mem {ops : List (PoolOp α)} {k : Nat} (h : k ∉ ops.map (·.axis)) : strideAt ops k = 1 := by
  rw [strideAt, List.find?_eq_none.2]
  · rfl
  · intro o ho
    have : o.axis ≠ k := fun e => h (List.mem_map.2 ⟨o, ho, e⟩)
    simp [this]

theorem poolSeq_every : ∀ {ops : List (PoolOp α)} {y z : Tensor α} {st off : Nat → Nat}, EveryOf st off y z → z.ndim = y.ndim →
    (ops.map (·.axis)).Nodup → (∀ o ∈ ops, o.kernel ≠ [] → o.axis < y.ndim ∧ 0 < o.stride ∧ st o.axis = 1) →
    EveryOf (fun k => st k * strideAt ops k) off (poolSeq y ops) (poolSeq z (ops.map unstrided))
  | [], y, z, st, off, h, _, _, _ => by simpa [poolSeq, strideAt] using h
  | o :: ops, y, z, st, off, h, hnd, hdup, hv => by
    simp only [List.map_cons, List.nodup_cons] at hdup
    have hrest : ∀ p ∈ ops, p.axis ≠ o.axis := fun p hp e => hdup.1 (List.mem_map.2 ⟨p, hp, e⟩)
    change EveryOf _ off (poolSeq (slide y o) ops) (poolSeq (slide z (unstrided o)) (ops.map unstrided))
    by_cases hk : o.kernel = []
    · have e1 : slide y o = y := by simp [slide, hk]
      have e2 : slide z (unstrided o) = z := by simp [slide, unstrided, hk]
      rw [e1, e2]
      simp only [strideAt_cons_nil hk]
      exact poolSeq_every h hnd hdup.2 fun p hp => hv p (List.mem_cons_of_mem _ hp)
    · obtain ⟨h1, h2, h3⟩ := hv o List.mem_cons_self hk
      have step : EveryOf (fun k => if k = o.axis then o.stride else st k) off (slide y o) (slide z (unstrided o)) :=
        slide_every (a := o.axis) (s := o.stride) (w := o.kernel) h hnd h1 hk h2 (fun k hne => if_neg hne) h3 (if_pos rfl)
      have ih := poolSeq_every step (by rw [slide_ndim, slide_ndim, hnd]) hdup.2 (by
        intro p hp hpk
        obtain ⟨q1, q2, q3⟩ := hv p (List.mem_cons_of_mem _ hp) hpk
        exact ⟨by rw [slide_ndim]; exact q1, q2, by rw [if_neg (hrest p hp)]; exact q3⟩)
      convert ih using 2 with k
      by_cases hka : k = o.axis
      · subst hka
        rw [if_pos rfl, strideAt_cons_self hk, h3, strideAt_not_mem hdup.1]; omega
      · rw [if_neg hka, strideAt_cons_ne hka]

end

section
variable {α : Type} [Field α] [LinearOrder α] [IsStrictOrderedRing α]

theorem sum_axis {s : List Nat} {a : Nat} (ha : a < s.length) (hp : 0 < s.getD a 0) (F : List Nat → α) :
    ((indices s).map F).sum = ((indices (s.set a 1)).map fun k => ((List.range (s.getD a 0)).map fun t => F (k.set a t)).sum).sum := by
  have hL := lines_all s a
  rw [sum_lines ha hL.nodup hL.inB hL.set F]
  apply List.Perm.sum_eq
  apply List.Perm.map
  rw [List.perm_ext_iff_of_nodup (List.nodup_dedup _) (indices_nodup _)]
  intro k
  rw [List.mem_dedup, List.mem_map, mem_indices]
  constructor
  · rintro ⟨ix, hix, rfl⟩
    exact (mem_indices.1 hix).set' (by omega)
  · intro hk
    refine ⟨k, mem_indices.2 ?_, ?_⟩
    · have hlt := hk.lt (k := a) (by simpa using ha)
      rw [getD_set_self _ _ _ _ ha] at hlt
      have := hk.set (i := k.getD a 0) (m := s.getD a 0) (by omega)
      rwa [set_getD_self, set_getD_self] at this
    · have hlt := hk.lt (k := a) (by simpa using ha)
      rw [getD_set_self _ _ _ _ ha] at hlt
      have : k.getD a 0 = 0 := by omega
      conv_rhs => rw [← set_getD_self (l := k) (d := a), this]

theorem sum_blocks (k : Nat) (u : Nat → α) : ∀ c, ((List.range c).map fun t => ((List.range k).map fun j => u (t * k + j)).sum).sum =
    ((List.range (c * k)).map u).sum
  | 0 => by simp
  | c + 1 => by
    rw [List.range_succ, List.map_append, List.sum_append, sum_blocks k u c, Nat.succ_mul, List.range_add, List.map_append, List.sum_append]
    simp [Function.comp_def]

theorem sum_map_sub' {β : Type} (f g : β → α) : ∀ l : List β, (l.map fun b => f b - g b).sum = (l.map f).sum - (l.map g).sum
  | [] => by simp
  | b :: l => by simp only [List.map_cons, List.sum_cons, sum_map_sub' f g l]; ring

theorem replicate_getD {k j : Nat} (a : α) (h : j < k) : (List.replicate k a).getD j 0 = a := by simp [List.getD_eq_getElem?_getD, h]

theorem blocks_shape {x : Tensor α} {o : PoolOp α} {k c : Nat} (hk : 0 < k) (hc : 0 < c) (hw : o.kernel = List.replicate k (1 / (k : α)))
    (hs : o.stride = k) (hn : x.shape.getD o.axis 0 = c * k) : o.kernel ≠ [] ∧ (slide x o).shape = x.shape.set o.axis c := by
  have hne : o.kernel ≠ [] := by rw [hw]; simp; omega
  refine ⟨hne, ?_⟩
  have hle : k ≤ c * k := Nat.le_mul_of_pos_left k hc
  rw [slide_shape, if_neg hne, hw, List.length_replicate, hs, hn, windowCount_pos hk hk hle]
  congr 1
  obtain ⟨d, rfl⟩ : ∃ d, c = d + 1 := ⟨c - 1, by omega⟩
  rw [Nat.succ_mul, Nat.add_sub_cancel, Nat.mul_div_cancel _ hk]

theorem blocks_get {x : Tensor α} {o : PoolOp α} {k c : Nat} (hk : 0 < k) (hc : 0 < c) (hw : o.kernel = List.replicate k (1 / (k : α)))
    (hs : o.stride = k) (hn : x.shape.getD o.axis 0 = c * k) {ix : List Nat} (h : InB (x.shape.set o.axis c) ix) :
    (slide x o).get ix = ((List.range k).map fun j => 1 / (k : α) * x.get (ix.set o.axis (ix.getD o.axis 0 * k + j))).sum := by
  obtain ⟨hne, hsh⟩ := blocks_shape hk hc hw hs hn
  rw [slide_get hne (by rw [hsh]; exact h), hw, List.length_replicate, hs]
  congr 1
  apply List.map_congr_left
  intro j hj
  rw [replicate_getD _ (List.mem_range.1 hj)]

/-- entries of the block averages of `x`, put through any function, against the average of that function over the block -/
theorem blocks_sum {x : Tensor α} {o : PoolOp α} {k c : Nat} (hk : 0 < k) (hc : 0 < c) (hn : x.shape.getD o.axis 0 = c * k) (ha : o.axis < x.ndim)
    (F : List Nat → α) :
    ((indices (x.shape.set o.axis c)).map fun ix => ((List.range k).map fun j => F (ix.set o.axis (ix.getD o.axis 0 * k + j))).sum).sum =
      ((indices x.shape).map F).sum := by
  have ha' : o.axis < x.shape.length := ha
  rw [sum_axis (s := x.shape) ha' (by rw [hn]; exact Nat.mul_pos hc hk) F,
    sum_axis (s := x.shape.set o.axis c) (a := o.axis) (by simpa using ha') (by rw [getD_set_self _ _ _ _ ha']; exact hc), List.set_set]
  congr 1
  apply List.map_congr_left
  intro q hq
  have hql : o.axis < q.length := by rw [(mem_indices.1 hq).length_eq]; simpa using ha'
  rw [getD_set_self _ _ _ _ ha', hn, ← sum_blocks k (fun t => F (q.set o.axis t)) c]
  congr 1
  apply List.map_congr_left
  intro t _
  congr 1
  apply List.map_congr_left
  intro j _
  rw [List.set_set, getD_set_self _ _ _ _ hql]

theorem indices_blocks {s : List Nat} {a c k : Nat} (ha : a < s.length) (hc : 0 < c) (hk : 0 < k) (hn : s.getD a 0 = c * k) :
    ((indices s).length : α) = k * ((indices (s.set a c)).length : α) := by
  have e1 := sum_axis (α := α) ha (by rw [hn]; exact Nat.mul_pos hc hk) fun _ => 1
  have e2 := sum_axis (α := α) (s := s.set a c) (a := a) (by simpa using ha) (by rw [getD_set_self _ _ _ _ ha]; exact hc) fun _ => 1
  simp only [List.map_const', List.sum_replicate, nsmul_eq_mul, mul_one, List.set_set, getD_set_self _ _ _ _ ha, hn, List.length_range] at e1 e2
  rw [e1, e2]
  push_cast
  ring

theorem slide_blocks_mean {x : Tensor α} {o : PoolOp α} (h : Blocks x.shape o) : Spec.mean (slide x o).data = Spec.mean x.data := by
  obtain ⟨ha, k, c, hk, hc, hw, hs, hn⟩ := h
  obtain ⟨_, hsh⟩ := blocks_shape hk hc hw hs hn
  have hkα : (k : α) ≠ 0 := by exact_mod_cast hk.ne'
  have e : ((indices (x.shape.set o.axis c)).map (slide x o).get).sum = ((indices x.shape).map x.get).sum * (1 / (k : α)) := by
    rw [← blocks_sum hk hc hn ha, sum_map_mul]
    congr 1
    apply List.map_congr_left
    intro ix hix
    rw [blocks_get hk hc hw hs hn (mem_indices.1 hix), ← mul_sum_map, mul_comm]
  rw [Spec.mean, Spec.mean, data_eq_map_get, data_eq_map_get x, hsh, List.length_map, List.length_map, e, indices_blocks ha hc hk hn]
  field_simp

theorem slide_blocks_sq {x y : Tensor α} {o : PoolOp α} (hy : y.shape = x.shape) (h : Blocks x.shape o) :
    Spec.mean ((indices (slide x o).shape).map fun ix => ((slide x o).get ix - (slide y o).get ix) ^ 2) ≤
      Spec.mean ((indices x.shape).map fun ix => (x.get ix - y.get ix) ^ 2) := by
  obtain ⟨ha, k, c, hk, hc, hw, hs, hn⟩ := h
  obtain ⟨_, hsh⟩ := blocks_shape hk hc hw hs hn
  have hkp : (0 : α) < k := by exact_mod_cast hk
  have e : ((indices (x.shape.set o.axis c)).map fun ix => ((slide x o).get ix - (slide y o).get ix) ^ 2).sum ≤
      ((indices x.shape).map fun ix => (x.get ix - y.get ix) ^ 2).sum * (1 / (k : α)) := by
    rw [← blocks_sum hk hc hn ha fun ix => (x.get ix - y.get ix) ^ 2, sum_map_mul]
    apply List.sum_le_sum
    intro ix hix
    have hix := mem_indices.1 hix
    rw [blocks_get hk hc hw hs hn hix, blocks_get hk hc hw hs (by rw [hy]; exact hn) (by rw [hy]; exact hix)]
    have hsub : ((List.range k).map fun j => 1 / (k : α) * x.get (ix.set o.axis (ix.getD o.axis 0 * k + j))).sum -
        ((List.range k).map fun j => 1 / (k : α) * y.get (ix.set o.axis (ix.getD o.axis 0 * k + j))).sum =
        ((List.range k).map fun j => 1 / (k : α) * (x.get (ix.set o.axis (ix.getD o.axis 0 * k + j)) - y.get (ix.set o.axis (ix.getD o.axis 0 * k + j)))).sum := by
      rw [← mul_sum_map, ← mul_sum_map, ← mul_sum_map, ← mul_sub]
      congr 1
      exact (sum_map_sub' _ _ _).symm
    rw [hsub]
    have := weighted_sq_le ((List.range k).map fun j => ((1 / (k : α)),
      (x.get (ix.set o.axis (ix.getD o.axis 0 * k + j)) - y.get (ix.set o.axis (ix.getD o.axis 0 * k + j)))))
    simp only [List.map_map, Function.comp_def] at this
    have ha : |1 / (k : α)| = 1 / (k : α) := abs_of_pos (one_div_pos.2 hkp)
    rw [ha] at this
    have h1 : ((List.range k).map fun _ => 1 / (k : α)).sum = 1 := by
      simp only [List.map_const', List.sum_replicate, nsmul_eq_mul, List.length_range]
      field_simp
    rw [h1, one_mul] at this
    rw [mul_comm _ (1 / (k : α)), mul_sum_map]
    exact this
  have hl : (0 : α) ≤ ((indices (x.shape.set o.axis c)).length : α) := Nat.cast_nonneg _
  rw [Spec.mean, Spec.mean, hsh, List.length_map, List.length_map, indices_blocks ha hc hk hn, ← div_div, div_eq_mul_one_div _ (k : α)]
  exact div_le_div_of_nonneg_right e hl

end

end TI

namespace TI
open Tensor Spec

section
variable {α : Type} [Field α] [LinearOrder α] [IsStrictOrderedRing α]

theorem slide_blocks_keep {x : Tensor α} {o p : PoolOp α} (hne : p.axis ≠ o.axis) (h : p.kernel = [] ∨ Blocks x.shape p) :
    p.kernel = [] ∨ Blocks (slide x o).shape p := by
  rcases h with h | ⟨h1, k, c, h2⟩
  · exact .inl h
  · refine .inr ⟨by have := slide_ndim x o; rw [ndim, ndim] at this; rw [this]; exact h1, k, c, ?_⟩
    have e : (slide x o).shape.getD p.axis 0 = x.shape.getD p.axis 0 := by
      rw [slide_shape]
      split_ifs
      · rfl
      · rw [getD_set_ne _ _ _ _ _ hne]
    rw [e]
    exact h2

theorem poolSeq_blocks : ∀ {ops : List (PoolOp α)} {x y : Tensor α}, y.shape = x.shape → (ops.map (·.axis)).Nodup →
    (∀ o ∈ ops, o.kernel = [] ∨ Blocks x.shape o) →
    (poolSeq y ops).shape = (poolSeq x ops).shape ∧ Spec.mean (poolSeq x ops).data = Spec.mean x.data ∧
      Spec.mean ((indices (poolSeq x ops).shape).map fun ix => ((poolSeq x ops).get ix - (poolSeq y ops).get ix) ^ 2) ≤
        Spec.mean ((indices x.shape).map fun ix => (x.get ix - y.get ix) ^ 2)
  | [], _, _, hy, _, _ => ⟨hy, rfl, le_rfl⟩
  | o :: ops, x, y, hy, hdup, h => by
    simp only [List.map_cons, List.nodup_cons] at hdup
    have hrest : ∀ p ∈ ops, p.axis ≠ o.axis := fun p hp e => hdup.1 (List.mem_map.2 ⟨p, hp, e⟩)
    have hy' : (slide y o).shape = (slide x o).shape := by rw [slide_shape, slide_shape, hy]
    obtain ⟨h1, h2, h3⟩ := poolSeq_blocks hy' hdup.2 fun p hp => slide_blocks_keep (hrest p hp) (h p (List.mem_cons_of_mem _ hp))
    refine ⟨h1, h2.trans ?_, h3.trans ?_⟩
    · rcases h o List.mem_cons_self with hk | hb
      · rw [slide, if_pos hk]
      · exact slide_blocks_mean hb
    · rcases h o List.mem_cons_self with hk | hb
      · rw [slide, if_pos hk, slide, if_pos hk]
      · exact slide_blocks_sq hy hb

theorem blocks_poolOps {ops : List (PoolOp α)} {x : Tensor α} (hdup : (ops.map (·.axis)).Nodup) (h : ∀ o ∈ ops, o.kernel = [] ∨ Blocks x.shape o) :
    PoolOps x ops := by
  refine ⟨hdup, ?_, ?_, ?_⟩ <;> intro o ho hk <;> rcases h o ho with h0 | ⟨h1, k, c, h2, h3, h4, h5, h6⟩
  · exact absurd h0 hk
  · exact h1
  · exact absurd h0 hk
  · rw [h5]; exact h2
  · exact absurd h0 hk
  · rw [h4, List.length_replicate, h6]; exact Nat.le_mul_of_pos_left k h3

theorem samePair_le (k : Nat) {s n : Nat} (hs : 0 < s) (hn : 0 < n) :
    (PoolArgs.samePair k s n).1 ≤ (PoolArgs.samePair k 1 n).1 ∧ (PoolArgs.samePair k s n).2 ≤ (PoolArgs.samePair k 1 n).2 := by
  have h : PoolArgs.sameTotal k s n ≤ k - 1 := by
    obtain ⟨h1, h2, _⟩ := ceilDiv_bounds hs hn
    rw [PoolArgs.sameTotal]
    generalize ceilDiv n s = c at *
    obtain ⟨d, rfl⟩ : ∃ d, c = d + 1 := ⟨c - 1, by omega⟩
    rw [Nat.add_sub_cancel] at h2
    have e : ((d + 1 : Nat) : Int) * s - s = ((d * s : Nat) : Int) := by push_cast; ring
    rw [e]
    omega
  simp only [PoolArgs.samePair, sameTotal_one]
  omega

theorem find_op {ops : List (PoolOp α)} (hdup : (ops.map (·.axis)).Nodup) {o : PoolOp α} (ho : o ∈ ops) (hk : o.kernel ≠ []) :
    (ops.find? fun p => p.axis = o.axis && !p.kernel.isEmpty) = some o := by
  induction ops with
  | nil => simp at ho
  | cons p ops ih =>
    simp only [List.map_cons, List.nodup_cons] at hdup
    rcases List.mem_cons.1 ho with rfl | ho
    · simp [hk]
    · have : p.axis ≠ o.axis := fun e => hdup.1 (List.mem_map.2 ⟨o, ho, e.symm⟩)
      rw [List.find?_cons_of_neg (by simp [this])]
      exact ih hdup.2 ho

theorem find_op_none {ops : List (PoolOp α)} {k : Nat} (h : ∀ o ∈ ops, o.axis = k → o.kernel = []) :
    (ops.find? fun p => p.axis = k && !p.kernel.isEmpty) = none := by
  rw [List.find?_eq_none]
  intro o ho
  simp only [Bool.and_eq_true, decide_eq_true_eq, Bool.not_eq_eq_eq_not, Bool.not_true, List.isEmpty_eq_false_iff, not_and, not_not]
  exact fun e => h o ho e

end

end TI
