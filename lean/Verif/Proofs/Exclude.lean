import Verif.Proofs.WindowMean
import Verif.Proofs.AnyConv
import Verif.Proofs.Chunk
import Mathlib.Data.List.Sort

/-!
# `AvgPoolNd(count_include_pad=False)`
-/

set_option linter.unusedSectionVars false

namespace TI
open Tensor Spec

/-! ## sorted axes -/

theorem argsort_perm (l : List Int) : (SepPool.argsort l).Perm (List.range l.length) := List.perm_insertionSort _ _

theorem argsort_sorted {axes : List Nat} {n : Nat} (hnd : axes.Nodup) (hlt : ∀ a ∈ axes, a < n) :
    (SepPool.argsort (castV axes)).map (fun i => axes.getD i 0) = (List.range n).filter fun k => decide (k ∈ axes) := by
  have hp := argsort_perm (castV axes)
  have hlen : (castV axes).length = axes.length := by simp [castV]
  have hmap : (List.range axes.length).map (fun i => axes.getD i 0) = axes := by
    apply List.ext_getElem (by simp)
    intro i h1 h2
    simp [h2]
  have hp' : ((SepPool.argsort (castV axes)).map fun i => axes.getD i 0).Perm axes := by
    have := hp.map fun i => axes.getD i 0
    rwa [hlen, hmap] at this
  have hs : ((SepPool.argsort (castV axes)).map fun i => axes.getD i 0).Pairwise (· ≤ ·) := by
    rw [List.pairwise_map]
    haveI : Std.Total fun i j : Nat => (castV axes).getD i 0 ≤ (castV axes).getD j 0 := ⟨fun a b => le_total _ _⟩
    haveI : IsTrans Nat fun i j : Nat => (castV axes).getD i 0 ≤ (castV axes).getD j 0 := ⟨fun a b c h1 h2 => le_trans h1 h2⟩
    have := List.pairwise_insertionSort (fun i j : Nat => (castV axes).getD i 0 ≤ (castV axes).getD j 0) (List.range (castV axes).length)
    refine List.Pairwise.imp ?_ this
    intro a b hab
    have e : ∀ i, (castV axes).getD i 0 = ((axes.getD i 0 : Nat) : Int) := by
      intro i
      simp only [castV, List.getD_eq_getElem?_getD, List.getElem?_map]
      cases axes[i]? <;> simp
    rw [e, e] at hab
    omega
  apply List.Perm.eq_of_pairwise' hs
  · exact (List.pairwise_le_range (n := n)).filter _
  · rw [List.perm_ext_iff_of_nodup (hp'.nodup_iff.2 hnd) (List.nodup_range.filter _)]
    intro k
    rw [hp'.mem_iff, List.mem_filter, List.mem_range, decide_eq_true_eq]
    exact ⟨fun h => ⟨hlt k h, h⟩, fun h => h.2⟩

/-! ## dropping axes of size one -/

theorem filter_range_succ (n : Nat) (p : Nat → Bool) : (List.range (n + 1)).filter p =
    (if p 0 then [0] else []) ++ ((List.range n).filter fun k => p (k + 1)).map Nat.succ := by
  rw [List.range_succ_eq_map, List.filter_cons, List.filter_map]
  split_ifs <;> rfl

theorem squeeze : ∀ (S : List Nat) (p : Nat → Bool), (∀ k < S.length, p k = false → S.getD k 0 = 1) →
    numel (((List.range S.length).filter p).map fun k => S.getD k 0) = numel S ∧
    ∀ jx, InB S jx → InB (((List.range S.length).filter p).map fun k => S.getD k 0) (((List.range S.length).filter p).map fun k => jx.getD k 0) ∧
      ravel (((List.range S.length).filter p).map fun k => S.getD k 0) (((List.range S.length).filter p).map fun k => jx.getD k 0) = ravel S jx
  | [], _, _ => by
    refine ⟨rfl, ?_⟩
    intro jx h
    have : jx = [] := List.length_eq_zero_iff.1 h.length_eq
    subst this
    exact ⟨trivial, rfl⟩
  | n :: S, p, h => by
    obtain ⟨ih1, ih2⟩ := squeeze S (fun k => p (k + 1)) (fun k hk hp => by
      have := h (k + 1) (by simpa using hk) hp
      simpa using this)
    rw [List.length_cons, filter_range_succ]
    have em : ∀ (l : List Nat) (a : Nat), ((List.range S.length).filter fun k => p (k + 1)).map ((fun k => (a :: l).getD k 0) ∘ Nat.succ) =
        ((List.range S.length).filter fun k => p (k + 1)).map fun k => l.getD k 0 := by
      intro l a
      apply List.map_congr_left
      intro k _
      simp
    cases hp : p 0 with
    | true =>
      simp only [if_true, List.singleton_append, List.map_cons, List.map_map, em]
      refine ⟨by simp only [numel, ih1]; simp, ?_⟩
      intro jx hjx
      cases jx with
      | nil => exact absurd hjx (by simp [InB])
      | cons j jx =>
        obtain ⟨i1, i2⟩ := ih2 jx hjx.2
        simp only [em]
        refine ⟨⟨by simpa using hjx.1, i1⟩, ?_⟩
        simp only [ravel, i2, ih1]
        simp
    | false =>
      have h1 : n = 1 := by
        have := h 0 (by simp) hp
        simpa using this
      subst h1
      simp only [Bool.false_eq_true, if_false, List.nil_append, List.map_map, em]
      refine ⟨by simp only [numel, ih1]; simp, ?_⟩
      intro jx hjx
      cases jx with
      | nil => exact absurd hjx (by simp [InB])
      | cons j jx =>
        obtain ⟨i1, i2⟩ := ih2 jx hjx.2
        have hj : j = 0 := by have := hjx.1; omega
        subst hj
        simp only [em]
        refine ⟨i1, ?_⟩
        rw [i2]
        simp [ravel]

/-! ## broadcasting against axes of size one -/

theorem bshape_ones {s t : List Nat} (hl : t.length = s.length) (h : ∀ k < s.length, t.getD k 0 = s.getD k 0 ∨ t.getD k 0 = 1) :
    bshape s t = some s := by
  have e1 : padOnes (max s.length t.length) s = s := by simp [padOnes, hl]
  have e2 : padOnes (max s.length t.length) t = t := by simp [padOnes, hl]
  rw [bshape]
  simp only [e1, e2]
  rw [if_pos]
  · congr 1
    apply List.ext_getElem (by simp [hl])
    intro k h1 h2
    have := h k h2
    simp only [List.getD_eq_getElem?_getD, List.getElem?_eq_getElem h2, List.getElem?_eq_getElem (show k < t.length by omega), Option.getD_some] at this
    rw [List.getElem_zipWith]
    split_ifs with h3
    · rcases this with h4 | h4
      · omega
      · rw [h4, h3]
    · rfl
  · rw [List.all_eq_true]
    intro b hb
    obtain ⟨k, hk, rfl⟩ := List.getElem_of_mem hb
    have h2 : k < s.length := by simp at hk; omega
    have := h k h2
    simp only [List.getD_eq_getElem?_getD, List.getElem?_eq_getElem h2, List.getElem?_eq_getElem (show k < t.length by omega), Option.getD_some] at this
    rw [List.getElem_zipWith]
    rcases this with h4 | h4 <;> simp [h4]

theorem bshape_nil (s : List Nat) : bshape s [] = some s := by
  have e1 : padOnes (max s.length ([] : List Nat).length) s = s := by simp [padOnes]
  have e2 : padOnes (max s.length ([] : List Nat).length) [] = List.replicate s.length 1 := by simp [padOnes]
  have := bshape_ones (s := s) (t := List.replicate s.length 1) (by simp) (fun k hk => by right; simp [hk])
  rw [bshape] at this ⊢
  simp only [e1, e2] at this ⊢
  have e3 : padOnes (max s.length (List.replicate s.length 1).length) s = s := by simp [padOnes]
  have e4 : padOnes (max s.length (List.replicate s.length 1).length) (List.replicate s.length 1) = List.replicate s.length 1 := by simp [padOnes]
  rw [e3, e4] at this
  exact this

theorem bidx_ones {s t ix : List Nat} (hix : InB s ix) (hl : t.length = s.length) (h : ∀ k < s.length, t.getD k 0 = s.getD k 0 ∨ t.getD k 0 = 1) :
    InB t (bidx t ix) ∧ ∀ k < s.length, t.getD k 0 = s.getD k 0 → (bidx t ix).getD k 0 = ix.getD k 0 := by
  have hil := hix.length_eq
  have e : bidx t ix = List.zipWith (fun n j => if n = 1 then 0 else j) t ix := by
    rw [bidx, show ix.length - t.length = 0 by omega, List.drop_zero]
  have hval : ∀ k < s.length, (bidx t ix).getD k 0 = if t.getD k 0 = 1 then 0 else ix.getD k 0 := by
    intro k hk
    have h1 : k < t.length := by omega
    have h2 : k < ix.length := by omega
    rw [e]
    simp [h1, h2]
  constructor
  · rw [inB_iff]
    refine ⟨by rw [e]; simp; omega, ?_⟩
    intro k hk
    rw [hval k (by omega)]
    split_ifs with h1
    · omega
    · rcases h k (by omega) with h2 | h2
      · rw [h2]; exact hix.lt (by omega)
      · exact absurd h2 h1
  · intro k hk hk'
    rw [hval k hk]
    split_ifs with h1
    · have := hix.lt hk
      omega
    · rfl

/-! ## the shape of the counts -/

theorem countShape_eq {axes zs : List Nat} : ∀ {idx s : List Nat}, (∀ i ∈ idx, i < axes.length ∧ i < zs.length) → (∀ a ∈ axes, a < s.length) →
    SepPool.countShape (castV axes) zs idx s = .ok (idx.foldl (fun s i => s.set (axes.getD i 0) (zs.getD i 0)) s)
  | [], s, _, _ => rfl
  | i :: idx, s, h, ha => by
    obtain ⟨h1, h2⟩ := h i (by simp)
    have hc : i < (castV axes).length := by simpa [castV] using h1
    have e1 : pyIndex (castV axes) (i : Int) = .ok ((axes.getD i 0 : Nat) : Int) := by
      rw [pyIndex_nat hc]
      simp [castV, h1]
    have hlt : axes.getD i 0 < s.length := ha _ (by simp [h1])
    have e2 : convDim s.length ((axes.getD i 0 : Nat) : Int) = .ok (axes.getD i 0) := convDim_nat hlt
    have e3 : pyIndex zs (i : Int) = .ok (zs.getD i 0) := by
      rw [pyIndex_nat h2]
      simp [h2]
    rw [SepPool.countShape, e1]
    simp only [bind, Except.bind, e2, e3]
    rw [countShape_eq (fun j hj => h j (by simp [hj])) (by simpa using ha), List.foldl_cons]

theorem setFold_length {idx : List Nat} {f v : Nat → Nat} : ∀ {s : List Nat}, (idx.foldl (fun s i => s.set (f i) (v i)) s).length = s.length := by
  induction idx with
  | nil => intro s; rfl
  | cons i idx ih => intro s; rw [List.foldl_cons, ih, List.length_set]

theorem setFold_getD {f v V : Nat → Nat} : ∀ {idx : List Nat} {s : List Nat}, (∀ i ∈ idx, v i = V (f i)) → (∀ i ∈ idx, f i < s.length) →
    ∀ k, (idx.foldl (fun s i => s.set (f i) (v i)) s).getD k 0 = if k ∈ idx.map f then V k else s.getD k 0
  | [], s, _, _, k => by simp
  | i :: idx, s, h, hl, k => by
    rw [List.foldl_cons, setFold_getD (fun j hj => h j (by simp [hj])) (fun j hj => by simpa using hl j (by simp [hj])) k]
    simp only [List.map_cons, List.mem_cons]
    by_cases h1 : k ∈ idx.map f
    · simp [h1]
    · by_cases h2 : k = f i
      · subst h2
        rw [if_neg h1, getD_set_self _ _ _ _ (hl i (by simp)), if_pos (Or.inl rfl), h i (by simp)]
      · rw [if_neg h1, getD_set_ne _ _ _ _ _ h2, if_neg (by simp [h1, h2])]

/-- the two elementwise operations at the end -/
theorem scaled_quotient {α : Type} [Field α] {y : Tensor α} {z : Tensor Int} {p : Nat → Bool} {S : List Nat} (c : α)
    (hl : S.length = y.shape.length) (hS1 : ∀ k < S.length, p k = false → S.getD k 0 = 1)
    (hS2 : ∀ k < S.length, p k = true → S.getD k 0 = y.shape.getD k 0)
    (hz : z.shape = ((List.range S.length).filter p).map fun k => S.getD k 0) :
    ∃ r, (do
      let z ← (z.map fun c => ((c : Int) : α)).reshape S
      let v ← Tensor.bop (· * ·) y (Tensor.scalar c)
      Tensor.bop (· / ·) v z : Except Err (Tensor α)) = .ok r ∧ r.shape = y.shape ∧
      ∀ ix, InB y.shape ix → r.get ix = y.get ix * c / ((z.get (((List.range S.length).filter p).map fun k => ix.getD k 0) : Int) : α) := by
  obtain ⟨q1, q2⟩ := squeeze S p hS1
  obtain ⟨w, h1, h2, h3⟩ := reshape_ok (z.map fun c => ((c : Int) : α)) (s := S) (by rw [shape_map, hz, q1])
  have hor : ∀ k < y.shape.length, S.getD k 0 = y.shape.getD k 0 ∨ S.getD k 0 = 1 := by
    intro k hk
    cases hp : p k with
    | true => exact Or.inl (hS2 k (by omega) hp)
    | false => exact Or.inr (hS1 k (by omega) hp)
  rw [h1]
  have hb1 : Tensor.bop (fun a b => a * b) y (Tensor.scalar c) =
      .ok (ofFn y.shape fun ix => y.get (bidx y.shape ix) * (Tensor.scalar c).get (bidx (Tensor.scalar c).shape ix)) := by
    rw [Tensor.bop, show (Tensor.scalar c).shape = [] from rfl, bshape_nil]
  simp only [bind, Except.bind, hb1]
  rw [Tensor.bop, shape_ofFn, h2, bshape_ones (by omega) hor]
  refine ⟨_, rfl, rfl, ?_⟩
  intro ix hix
  rw [get_ofFn hix, bidx_self hix, get_ofFn hix, bidx_self hix, get_scalar]
  obtain ⟨b1, b2⟩ := bidx_ones hix (by omega) hor
  obtain ⟨s1, s2⟩ := q2 _ b1
  have e : ((List.range S.length).filter p).map (fun k => (bidx S ix).getD k 0) = ((List.range S.length).filter p).map fun k => ix.getD k 0 := by
    apply List.map_congr_left
    intro k hk
    rw [List.mem_filter, List.mem_range] at hk
    exact b2 k (by omega) (hS2 k hk.1 hk.2)
  rw [e] at s1 s2
  rw [← hz] at s1 s2
  congr 1
  rw [← get_map (fun c => ((c : Int) : α)) z s1]
  rw [Tensor.get, Tensor.get, h2, h3, shape_map, s2]

/-! ## the counts -/

section
variable {α : Type} [Field α] [LinearOrder α] [IsStrictOrderedRing α]

theorem original_all {shape : List Nat} : ∀ {ops : List (PoolOp α)} {ix : List Nat}, (ops.map (·.axis)).Nodup → (∀ o ∈ ops, o.axis < ix.length) →
    ∀ {j : List Nat}, j.length = ops.length →
    (((ops.map fun o => (shape.getD o.axis 0, o.before shape, o.kernel.length, o.stride)).zip ((ops.map fun o => ix.getD o.axis 0).zip j)).all fun p =>
      decide (p.1.2.1 ≤ p.2.1 * p.1.2.2.2 + p.2.2 ∧ p.2.1 * p.1.2.2.2 + p.2.2 < p.1.2.1 + p.1.1)) =
      decide (Original shape ops (corrSource ops ix j))
  | [], ix, _, _, [], _ => by simp [Original]
  | o :: ops, ix, hnd, hlt, i :: j, h => by
    have hnd' := List.nodup_cons.1 hnd
    have ih := original_all (shape := shape) hnd'.2 (fun p hp => hlt p (by simp [hp])) (j := j) (by simpa using h)
    simp only [List.map_cons, List.zip_cons_cons, List.all_cons, ih]
    rw [← Bool.decide_and]
    congr 1
    rw [eq_iff_iff, corrSource_cons' hnd, Original, Original, List.forall_mem_cons]
    rw [getD_set_self _ _ _ _ (by rw [corrSource_length]; exact hlt o (by simp))]
    refine and_congr Iff.rfl ?_
    constructor
    · intro h p hp
      rw [getD_set_ne _ _ _ _ _ (fun e => hnd'.1 (List.mem_map.2 ⟨p, hp, e⟩))]
      exact h p hp
    · intro h p hp
      have := h p hp
      rwa [getD_set_ne _ _ _ _ _ (fun e => hnd'.1 (List.mem_map.2 ⟨p, hp, e⟩))] at this

theorem originalsNd_ops {shape ix : List Nat} {ops : List (PoolOp α)} (hnd : (ops.map (·.axis)).Nodup) (hlt : ∀ o ∈ ops, o.axis < ix.length) :
    originalsNd (ops.map fun o => (shape.getD o.axis 0, o.before shape, o.kernel.length, o.stride)) (ops.map fun o => ix.getD o.axis 0) =
      (indices (ops.map fun o => o.kernel.length)).countP fun j => decide (Original shape ops (corrSource ops ix j)) := by
  rw [originalsNd, List.map_map]
  apply List.countP_congr
  intro j hj
  rw [original_all hnd hlt (by have := (mem_indices.1 hj).length_eq; simpa using this)]

/-- every window of a same-padded axis contains an original sample -/
theorem originals_pos {n k s t : Nat} (hn : 0 < n) (hk : 0 < k) (hs : 0 < s) (ht : t < ceilDiv n s) :
    0 < originals n (PoolArgs.samePair k s n).1 k s t := by
  obtain ⟨c1, c2, c3⟩ := ceilDiv_bounds hs hn
  rw [originals, List.countP_pos_iff]
  have hT : PoolArgs.sameTotal k s n ≤ k - 1 := by
    rw [PoolArgs.sameTotal]
    generalize hc : ceilDiv n s = c at *
    obtain ⟨c, rfl⟩ : ∃ c', c = c' + 1 := ⟨c - 1, by omega⟩
    simp only [Nat.add_sub_cancel] at c2 c3
    have e : ((c + 1 : Nat) : Int) * s - s + k - n = ((c * s : Nat) : Int) + k - n := by push_cast; ring
    rw [e]
    omega
  have hts : t * s < n := by
    have : t * s ≤ (ceilDiv n s - 1) * s := Nat.mul_le_mul_right _ (by omega)
    omega
  have hb : (PoolArgs.samePair k s n).1 ≤ k - 1 := by
    simp only [PoolArgs.samePair]
    omega
  generalize (PoolArgs.samePair k s n).1 = b at *
  generalize t * s = q at *
  by_cases h : b ≤ q
  · exact ⟨0, by simp [hk], by simp; omega⟩
  · refine ⟨b - q, by simp; omega, ?_⟩
    simp only [decide_eq_true_eq]
    omega

theorem prod_pos' : ∀ {l : List Nat}, (∀ a ∈ l, 0 < a) → 0 < l.prod
  | [], _ => by simp
  | a :: l, h => by
    rw [List.prod_cons]
    exact Nat.mul_pos (h a (by simp)) (prod_pos' fun b hb => h b (by simp [hb]))

variable {pool : SepPool α} {g : PoolArgs α} {m : Nat} {gp : PadArgs α} {x : Tensor α} {ax : Axes} {axes : List Nat}

/-- number of windows on the `i`-th axis -/
def Spec.PoolArgs.outSize (g : PoolArgs α) (shape axes : List Nat) (i : Nat) : Nat :=
  ceilDiv (shape.getD (axes.getD i 0) 0) (g.op axes i).stride

theorem getD_mem_lt {l : List Nat} {i : Nat} (h : i < l.length) : l.getD i 0 ∈ l := by simp [h]

theorem ok_bind {ε β γ : Type} (a : β) (f : β → Except ε γ) : ((Except.ok a : Except ε β) >>= f) = f a := rfl

theorem map_index_range (l : List Nat) {γ : Type} (f : Nat → γ) : (List.range l.length).map (fun i => f (l.getD i 0)) = l.map f := by
  apply List.ext_getElem (by simp)
  intro i h1 h2
  have : i < l.length := by simpa using h2
  simp [this]

theorem Spec.SameCall.padsFor (h : SameCall g gp x ax axes) {ops : List (PoolOp α)} (hp : ops.Perm (g.ops axes)) :
    PadsFor x.shape ops (sameOps g gp x.shape axes) where
  nodup := by rw [sameOps_fst]; exact h.nodup
  has := by
    intro o ho
    obtain ⟨i, hi, rfl⟩ := mem_ops.1 (hp.mem_iff.1 ho)
    exact ⟨_, mem_sameOps hi, rfl⟩
  only := by
    intro q hq
    obtain ⟨i, hi, rfl⟩ := sameOps_mem hq
    exact ⟨g.op axes i, hp.mem_iff.2 (mem_ops.2 ⟨i, hi, rfl⟩), rfl, rfl⟩

theorem Spec.SameCall.outSize_eq (hc : SameCall g gp x ax axes) (hne : ∀ o ∈ g.ops axes, o.kernel ≠ [])
    (hz : ∀ i < axes.length, gp.mode.entry .unknown i = .constant) {i : Nat} (hi : i < axes.length) :
    (poolSeq (padSeq x (sameOps g gp x.shape axes)) (g.ops axes)).shape.getD (axes.getD i 0) 0 = g.outSize x.shape axes i := by
  have hmem : g.op axes i ∈ g.ops axes := mem_ops.2 ⟨i, hi, rfl⟩
  have hk := hne _ hmem
  have hfind : (g.ops axes).find? (fun o => o.axis = axes.getD i 0 ∧ o.kernel ≠ []) = some (g.op axes i) := by
    rw [PoolArgs.ops, List.find?_map, Option.map_eq_some_iff]
    refine ⟨i, ?_, rfl⟩
    rw [List.find?_range_eq_some]
    refine ⟨?_, by simpa using hi, ?_⟩
    · simp only [Function.comp, PoolArgs.op] at hk ⊢
      simp [hk]
    · intro j hj
      have : axes.getD j 0 ≠ axes.getD i 0 := by
        have hj' : j < axes.length := by omega
        simp only [List.getD_eq_getElem?_getD, List.getElem?_eq_getElem hj', List.getElem?_eq_getElem hi, Option.getD_some]
        intro e
        have := (List.Nodup.getElem_inj_iff hc.nodup).1 e
        omega
      simp only [Function.comp, PoolArgs.op] at *
      simp only [List.getD_eq_getElem?_getD] at this
      simp [this]
  rw [poolSeq_shape hc.poolOps, hfind]
  simp only
  rw [hc.padded_size hi (Or.inl (by rw [hz i hi]; rfl))]
  exact sameTotal_windows (List.length_pos_iff.2 hk) (hc.stride i hi) (hc.pos _ (by simp [hi]))

theorem PoolIs.exclude (h : PoolIs pool g m) (hc : SameCall g gp x ax axes) (hm : g.isMany = true → axes.length = m)
    {p : Padder α} (hp : Holds p gp) (hne : ∀ o ∈ g.ops axes, o.kernel ≠ []) (havg : ∀ o ∈ g.ops axes, o.kernel = avgKernel o.kernel.length)
    (hz : ∀ i < axes.length, gp.mode.entry .unknown i = .constant ∧ gp.cv.entry (0, 0) i = (0, 0))
    (hsh : ∀ i < axes.length, g.outSize x.shape axes ((SepPool.argsort (castV axes)).getD i 0) = g.outSize x.shape axes i) (junk : List Nat → α) :
    ∃ r, SepPool.avgForwardExclude pool (some p) junk x ax = (some ((gp.withWidths (g.widths x.shape axes)).padder axes.length), .ok r) ∧
      r.shape = (poolSeq (padSeq x (sameOps g gp x.shape axes)) (g.ops axes)).shape ∧
      ∀ ix, InB r.shape ix → r.get ix = mean ((seen x.shape (g.ops axes) ix).map x.get) ∧ seen x.shape (g.ops axes) ix ≠ [] := by
  obtain ⟨hca, hlt⟩ := checkAxes_spec hc.axes_eq
  have hpos : 0 < axes.length := List.length_pos_iff.2 hc.ne
  set idx := SepPool.argsort (castV axes) with hidx
  have hidxp : idx.Perm (List.range axes.length) := by
    have := argsort_perm (castV axes)
    rwa [show (castV axes).length = axes.length by simp [castV]] at this
  have hidxl : idx.length = axes.length := by rw [hidxp.length_eq, List.length_range]
  have hidxm : ∀ i ∈ idx, i < axes.length := fun i hi => List.mem_range.1 (hidxp.mem_iff.1 hi)
  have hsort : idx.map (fun i => axes.getD i 0) = (List.range x.ndim).filter fun k => decide (k ∈ axes) := argsort_sorted hc.nodup hlt
  have hmany : ∀ {i}, i < axes.length → (g.isMany = true → i < m) := fun hi hh => by rw [← hm hh]; exact hi
  -- the call
  have hfw := h.forward_same (ax := .seq (castV axes)) { hc with axes_eq := normAxes_castV hlt } hm hp junk
  set y := poolSeq (padSeq x (sameOps g gp x.shape axes)) (g.ops axes) with hy
  set p' : Padder α := (gp.withWidths (g.widths x.shape axes)).padder axes.length with hp'
  have hperm : (idx.map (g.op axes)).Perm (g.ops axes) := hidxp.map _
  set ops := idx.map (g.op axes) with hops
  have hyc : y = corrNd (padSeq x (sameOps g gp x.shape axes)) ops := by
    rw [hy, poolSeq_perm hperm.symm hc.poolOps]
    exact poolSeq_eq_corrNd (hc.poolOps.perm hperm.symm) (fun o ho => hne o (hperm.mem_iff.1 ho))
  have hnd : axes.Nodup := hc.nodup
  have hyndim : y.shape.length = x.ndim := by
    have : y.ndim = x.ndim := by rw [hy, poolSeq_ndim, padSeq_ndim hc.opsOK]
    exact this
  -- lists over the sorted axes
  have hks : SepPool.collect (fun i => (pool.kernelSize.get (i : Int)).bind SepPool.asSize) (List.range (castV axes).length) =
      .ok ((List.range axes.length).map fun i => ((g.op axes i).kernel.length : Int)) := by
    rw [SepPool.collect, show (castV axes).length = axes.length by simp [castV]]
    apply sequence_map
    intro i hi
    exact h.getSize (hmany (List.mem_range.1 hi))
  have e1 : SepPool.collect (fun i => (pyIndex (castV axes) (i : Int)).bind fun a => pyIndex x.shape a) idx =
      .ok (idx.map fun i => x.shape.getD (axes.getD i 0) 0) := by
    apply sequence_map
    intro i hi
    have hi' := hidxm i hi
    have hcl : i < (castV axes).length := by simpa [castV] using hi'
    have ha : axes.getD i 0 < x.shape.length := hlt _ (by simp [hi'])
    rw [pyIndex_nat hcl, show (castV axes)[i] = ((axes.getD i 0 : Nat) : Int) by simp [castV, hi']]
    simp only [Except.bind]
    rw [pyIndex_nat ha]
    simp only [List.getD_eq_getElem?_getD] at ha ⊢
    simp [ha]
  have e2 : SepPool.collect (fun i => p'.padWidth.get (i : Int)) idx = .ok (idx.map fun i => PadArgs.pyWidth
      (PoolArgs.samePair (g.op axes i).kernel.length (g.op axes i).stride (x.shape.getD (axes.getD i 0) 0))) := by
    apply sequence_map
    intro i hi
    have hi' := hidxm i hi
    have := (isSpec_specOf [2] PadArgs.pyWidth (.many (g.widths x.shape axes))).get (m := axes.length)
      (by simp [Given.Fits, PoolArgs.widths]) (0, 0) (i := i) (fun _ => hi')
    refine Eq.trans this ?_
    simp [Given.entry, PoolArgs.widths, hi']
  have e3 : SepPool.collect (fun i => (pool.kernelSize.get (i : Int)).bind SepPool.asSize) idx =
      .ok (idx.map fun i => ((g.op axes i).kernel.length : Int)) := by
    apply sequence_map
    intro i hi
    exact h.getSize (hmany (hidxm i hi))
  have e4 : SepPool.collect (fun i => (pool.stride.get (i : Int)).bind SepPool.asSize) idx =
      .ok (idx.map fun i => ((g.op axes i).stride : Int)) := by
    apply sequence_map
    intro i hi
    exact h.getStride (hmany (hidxm i hi)) axes
  -- the counts
  let c : CountArgs := ⟨.many (idx.map fun i => x.shape.getD (axes.getD i 0) 0), .many (idx.map fun i =>
    PoolArgs.samePair (g.op axes i).kernel.length (g.op axes i).stride (x.shape.getD (axes.getD i 0) 0)),
    .many (idx.map fun i => (g.op axes i).kernel.length), .many (idx.map fun i => (g.op axes i).stride)⟩
  have hcount : c.count axes.length = axes.length := by simp [c, CountArgs.count, CountArgs.isMany, Given.isMany]
  have cent : ∀ {γ : Type} (f : Nat → γ) (d : γ) {i : Nat}, i < axes.length → (Given.many (idx.map f)).entry d i = f (idx.getD i 0) := by
    intro γ f d i hi
    have hi' : i < idx.length := by omega
    simp [Given.entry, hi']
  have hidxg : ∀ {i}, i < axes.length → idx.getD i 0 < axes.length := fun hi => hidxm _ (getD_mem_lt (by omega))
  obtain ⟨z, z1, z2, z3⟩ := nOriginalNd_spec (c := c) hpos ⟨by simp [c, Given.Fits, hidxl], by simp [c, Given.Fits, hidxl],
    by simp [c, Given.Fits, hidxl], by simp [c, Given.Fits, hidxl]⟩
    (by
      intro i hi
      rw [hcount] at hi
      rw [cent _ _ hi]
      exact List.length_pos_iff.2 (hne _ (mem_ops.2 ⟨_, hidxg hi, rfl⟩)))
    (by
      intro i hi
      rw [hcount] at hi
      rw [cent _ _ hi]
      exact hc.stride _ (hidxg hi))
  have hz1 : ∀ i < axes.length, gp.mode.entry .unknown i = .constant := fun i hi => (hz i hi).1
  have hwin : ∀ i < axes.length, c.windows i = g.outSize x.shape axes (idx.getD i 0) := by
    intro i hi
    simp only [CountArgs.windows, c]
    rw [cent _ _ hi, cent _ _ hi, cent _ _ hi, cent _ _ hi, PoolArgs.outSize]
    have hk := List.length_pos_iff.2 (hne _ (mem_ops.2 ⟨_, hidxg hi, rfl⟩))
    rw [← sameTotal_windows hk (hc.stride _ (hidxg hi)) (hc.pos _ (getD_mem_lt (hidxg hi)))]
    congr 1
    simp only [PoolArgs.samePair]
    generalize PoolArgs.sameTotal _ _ _ = T
    omega
  have hout : ∀ i < axes.length, y.shape.getD (axes.getD i 0) 0 = g.outSize x.shape axes i := fun i hi => hc.outSize_eq hne hz1 hi
  have z2' : z.shape = idx.map fun i => y.shape.getD (axes.getD i 0) 0 := by
    rw [z2, hcount, ← map_index_range idx, hidxl]
    apply List.map_congr_left
    intro i hi
    rw [List.mem_range] at hi
    rw [hwin i hi, hout _ (hidxg hi)]
  have hzl : z.shape.length = axes.length := by rw [z2']; simp [hidxl]
  have hzg : ∀ i < axes.length, z.shape.getD i 0 = y.shape.getD (axes.getD i 0) 0 := by
    intro i hi
    have hi' : i < idx.length := by omega
    rw [hout i hi, ← hsh i hi, ← hout _ (hidxg hi), z2']
    simp [hi']
  -- the shape
  have hcs := countShape_eq (axes := axes) (zs := z.shape) (idx := idx) (s := List.replicate y.ndim 1)
    (fun i hi => ⟨hidxm i hi, by rw [hzl]; exact hidxm i hi⟩) (by
      intro a ha
      rw [List.length_replicate]
      change a < y.shape.length
      rw [hyndim]
      exact hlt a ha)
  set S := idx.foldl (fun s i => s.set (axes.getD i 0) (z.shape.getD i 0)) (List.replicate y.ndim 1) with hS
  have hSl : S.length = y.shape.length := by
    rw [hS, setFold_length (f := fun i => axes.getD i 0) (v := fun i => z.shape.getD i 0), List.length_replicate]
    rfl
  have hmem : ∀ k, k ∈ idx.map (fun i => axes.getD i 0) ↔ k ∈ axes := by
    intro k
    rw [hsort, List.mem_filter, List.mem_range, decide_eq_true_eq]
    exact ⟨fun h => h.2, fun h => ⟨hlt k h, h⟩⟩
  have hSg : ∀ k, S.getD k 0 = if k ∈ idx.map (fun i => axes.getD i 0) then y.shape.getD k 0 else (List.replicate y.ndim 1).getD k 0 := by
    intro k
    rw [hS]
    exact setFold_getD (f := fun i => axes.getD i 0) (v := fun i => z.shape.getD i 0) (V := fun k => y.shape.getD k 0)
      (fun i hi => hzg i (hidxm i hi)) (by
        intro i hi
        rw [List.length_replicate]
        change axes.getD i 0 < y.shape.length
        rw [hyndim]
        exact hlt _ (by simp [hidxm i hi])) k
  have hfil : (List.range S.length).filter (fun k => decide (k ∈ axes)) = idx.map fun i => axes.getD i 0 := by
    rw [hSl, hyndim, hsort]
  obtain ⟨r, r1, r2, r3⟩ := scaled_quotient (y := y) (z := z) (p := fun k => decide (k ∈ axes)) (S := S)
    ((((List.range axes.length).map fun i => ((g.op axes i).kernel.length : Int)).prod : Int) : α) hSl
    (by
      intro k hk hpk
      have hk' : k ∉ axes := by simpa using hpk
      rw [hSg k, if_neg (by rw [hmem]; exact hk')]
      have : k < y.ndim := by rw [hSl] at hk; exact hk
      simp [this])
    (by
      intro k hk hpk
      have hk' : k ∈ axes := by simpa using hpk
      rw [hSg k, if_pos (by rw [hmem]; exact hk')])
    (by
      rw [hfil, z2', List.map_map]
      apply List.map_congr_left
      intro i hi
      simp only [Function.comp]
      rw [hSg, if_pos (List.mem_map.2 ⟨i, hi, rfl⟩)])
  refine ⟨r, ?_, r2, ?_⟩
  · have hcnd : (castV axes).Nodup := hnd.map Nat.cast_injective
    simp only [SepPool.avgForwardExclude, hca, hks, if_pos hcnd, hfw]
    refine Prod.ext rfl ?_
    simp only [← hidx]
    rw [← r1]
    simp only [e1, e2, e3, e4, ok_bind]
    have hn : nOriginalNd (.seq ((idx.map fun i => x.shape.getD (axes.getD i 0) 0).map fun (n : Nat) => Py.leaf (n : Int)))
        (.seq (idx.map fun i => PadArgs.pyWidth
          (PoolArgs.samePair (g.op axes i).kernel.length (g.op axes i).stride (x.shape.getD (axes.getD i 0) 0))))
        (.seq ((idx.map fun i => ((g.op axes i).kernel.length : Int)).map Py.leaf))
        (.seq ((idx.map fun i => ((g.op axes i).stride : Int)).map Py.leaf)) = .ok z := by
      rw [← z1]
      simp only [c, Given.toPy, List.map_map]
      rfl
    simp only [hn, hcs, ok_bind]
  · intro ix hix
    rw [r2] at hix
    have hixl : ix.length = x.ndim := by rw [hix.length_eq, hyndim]
    have hnd' : (ops.map (·.axis)).Nodup := (hc.poolOps.perm hperm.symm).nodup
    have haxm : ∀ o ∈ ops, o.axis < ix.length := by
      intro o ho
      obtain ⟨i, hi, rfl⟩ := List.mem_map.1 ho
      rw [hixl]
      exact hlt _ (getD_mem_lt (hidxm i hi))
    have hcax : (List.range (c.count axes.length)).map c.axis =
        ops.map fun o => (x.shape.getD o.axis 0, o.before x.shape, o.kernel.length, o.stride) := by
      rw [hcount, hops, List.map_map, ← map_index_range idx, hidxl]
      apply List.map_congr_left
      intro i hi
      rw [List.mem_range] at hi
      simp only [CountArgs.axis, c]
      rw [cent _ _ hi, cent _ _ hi, cent _ _ hi, cent _ _ hi]
      rfl
    have hpix : ((List.range S.length).filter (fun k => decide (k ∈ axes))).map (fun k => ix.getD k 0) = ops.map fun o => ix.getD o.axis 0 := by
      rw [hfil, hops, List.map_map, List.map_map]
      rfl
    have hzin : InB z.shape (ops.map fun o => ix.getD o.axis 0) := by
      rw [inB_iff]
      refine ⟨by rw [hzl]; simp [hops, hidxl], ?_⟩
      intro i hi
      rw [hzl] at hi
      have hi' : i < idx.length := by omega
      rw [z2']
      have : ix.getD (axes.getD (idx.getD i 0) 0) 0 < y.shape.getD (axes.getD (idx.getD i 0) 0) 0 :=
        hix.lt (by rw [hyndim]; exact hlt _ (getD_mem_lt (hidxg hi)))
      simpa [hops, hi', PoolArgs.op] using this
    have hix' : InB (corrNd (padSeq x (sameOps g gp x.shape axes)) ops).shape ix := by rw [← hyc]; exact hix
    have hzf : ∀ o ∈ sameOps g gp x.shape axes, ZeroFill o.2 := by
      intro o ho
      obtain ⟨i, hi, rfl⟩ := sameOps_mem ho
      exact hz i hi
    have hseen : seen x.shape ops ix = seen x.shape (g.ops axes) ix := by
      rw [seen, seen]
      apply List.filter_congr
      intro jx _
      congr 1
      rw [eq_iff_iff, Sees, Sees]
      constructor
      · rintro ⟨a, b⟩
        exact ⟨fun o ho => a o (hperm.mem_iff.2 ho), fun k hk hn => b k hk (fun hm => hn ((hperm.map _).mem_iff.1 hm))⟩
      · rintro ⟨a, b⟩
        exact ⟨fun o ho => a o (hperm.mem_iff.1 ho), fun k hk hn => b k hk (fun hm => hn ((hperm.map _).mem_iff.2 hm))⟩
    have hne' : ∀ o ∈ ops, o.kernel ≠ [] := fun o ho => hne o (hperm.mem_iff.1 ho)
    have hmean := pooled_mean hzf hc.lt (hc.padsFor hperm) (hc.poolOps.perm hperm.symm) hne' (fun o ho => havg o (hperm.mem_iff.1 ho)) hix'
    have hlen := seen_length hc.opsOK hc.lt (hc.padsFor hperm) (hc.poolOps.perm hperm.symm) hne' hix'
    have hzget : z.get (ops.map fun o => ix.getD o.axis 0) = ((indices (ops.map fun o => o.kernel.length)).countP
        fun j => decide (Original x.shape ops (corrSource ops ix j)) : Nat) := by
      rw [z3 _ hzin, hcax, originalsNd_ops hnd' haxm]
    refine ⟨?_, ?_⟩
    · have hprod : ((((List.range axes.length).map fun i => ((g.op axes i).kernel.length : Int)).prod : Int) : α) =
          (ops.map fun o => (o.kernel.length : α)).prod := by
        rw [(hperm.map fun o : PoolOp α => (o.kernel.length : α)).prod_eq, PoolArgs.ops, List.map_map]
        push_cast
        rw [List.map_map]
        congr 1
        apply List.map_congr_left
        intro i _
        simp
      rw [r3 ix hix, hpix, hzget, ← hseen, ← hmean, hyc, hprod]
      simp
    · rw [← hseen]
      intro h0
      rw [h0, List.length_nil, ← originalsNd_ops hnd' haxm, originalsNd_eq (by simp)] at hlen
      have : 0 < (List.zipWith (fun (a : Nat × Nat × Nat × Nat) t => originals a.1 a.2.1 a.2.2.1 a.2.2.2 t)
          (ops.map fun o => (x.shape.getD o.axis 0, o.before x.shape, o.kernel.length, o.stride)) (ops.map fun o => ix.getD o.axis 0)).prod := by
        apply prod_pos'
        intro a ha
        rw [List.zipWith_map, List.zipWith_self] at ha
        obtain ⟨o, ho, rfl⟩ := List.mem_map.1 ha
        obtain ⟨i, hi, rfl⟩ := List.mem_map.1 ho
        have hi' := hidxm i hi
        apply originals_pos (hc.pos _ (getD_mem_lt hi')) (List.length_pos_iff.2 (hne' _ ho)) (hc.stride i hi')
        have : ix.getD (axes.getD i 0) 0 < y.shape.getD (axes.getD i 0) 0 := hix.lt (by rw [hyndim]; exact hlt _ (getD_mem_lt hi'))
        rw [hout i hi'] at this
        exact this
      omega

end

end TI
