import Verif.Spec.Interior
import Verif.Proofs.SsimQuiet
import Verif.Proofs.EdgesMag

/-!
# Away from the border; straight-line images
-/

set_option linter.unusedSectionVars false

namespace TI
open Tensor Spec

section
variable {α : Type} [Field α] [LinearOrder α] [IsStrictOrderedRing α] {x y : Tensor α}

/-! ## positions -/

theorem getD_past {β : Type} {l : List β} {k : Nat} (h : l.length ≤ k) (d : β) : l.getD k d = d := by
  rw [List.getD_eq_getElem?_getD, List.getElem?_eq_none h, Option.getD_none]

theorem half_before (k : Nat) : (k - 1) - (k - 1) / 2 = k / 2 := by omega

theorem filter_before {g : Given (List α)} {gp : PadArgs α} {shape axes : List Nat} (hnd : axes.Nodup) {i : Nat} (hi : i < axes.length) :
    beforeAt (sameOps (PoolArgs.filter g) gp shape axes) (axes.getD i 0) = (g.entry [] i).length / 2 := by
  rw [beforeAt, settingAt_some (o := (axes.getD i 0, sameSetting (PoolArgs.filter g) gp shape axes i)) (by rw [sameOps_fst]; exact hnd) (mem_sameOps hi)]
  simp only [sameSetting, PoolArgs.samePair, filter_stride, sameTotal_one]
  exact half_before _

theorem filter_before_none {g : Given (List α)} {gp : PadArgs α} {shape axes : List Nat} {k : Nat} (hk : k ∉ axes) :
    beforeAt (sameOps (PoolArgs.filter g) gp shape axes) k = 0 := by
  rw [beforeAt, settingAt_none (by rw [sameOps_fst]; exact hk)]

theorem Spec.Moved.embed {g : Given (List α)} {gp : PadArgs α} {shape axes ix jx : List Nat} (hnd : axes.Nodup) (h : Moved g axes ix jx) :
    jx = embed (sameOps (PoolArgs.filter g) gp shape axes) ix := by
  apply list_ext_getD (by rw [h.length, Spec.embed]; simp)
  intro k hk
  rw [embed_getD _ (by rw [← h.length]; exact hk)]
  by_cases hka : k ∈ axes
  · obtain ⟨i, hi, rfl⟩ := List.mem_iff_getElem.1 hka
    have e : axes[i] = axes.getD i 0 := by simp [hi]
    rw [e, h.filtered i hi, filter_before hnd hi]
  · rw [h.other k hka, filter_before_none hka, Nat.add_zero]

/-- the position from which an interior position is moved -/
def movedBack (g : Given (List α)) (axes jx : List Nat) : List Nat :=
  (List.range jx.length).map fun k => jx.getD k 0 - beforeAt (sameOps (PoolArgs.filter g) (⟨.one (0, 0), .one .replicate, .one (0, 0), .one (0, 0), .one (none, none)⟩ : PadArgs α) [] axes) k

theorem movedBack_moved {g : Given (List α)} {axes jx : List Nat} (hnd : axes.Nodup)
    (h : ∀ i < axes.length, (g.entry [] i).length / 2 ≤ jx.getD (axes.getD i 0) 0) : Moved g axes (movedBack g axes jx) jx where
  length := by simp [movedBack]
  filtered := by
    intro i hi
    by_cases hk : axes.getD i 0 < jx.length
    · rw [movedBack, getD_map_range hk, filter_before hnd hi]
      have := h i hi
      omega
    · have := h i hi
      have e : jx.getD (axes.getD i 0) 0 = 0 := getD_past (not_lt.1 hk) _
      have e2 : (movedBack g axes jx).getD (axes.getD i 0) 0 = 0 :=
        getD_past (by rw [movedBack, List.length_map, List.length_range]; exact not_lt.1 hk) _
      rw [e] at this ⊢
      omega
  other := by
    intro k hk
    by_cases hkl : k < jx.length
    · rw [movedBack, getD_map_range hkl, filter_before_none hk, Nat.sub_zero]
    · rw [getD_past (not_lt.1 hkl),
        getD_past (show (movedBack g axes jx).length ≤ k by simpa [movedBack] using not_lt.1 hkl)]

/-! ## locality -/

theorem poolSeq_local : ∀ {ops : List (PoolOp α)} {x y : Tensor α} {ix : List Nat}, PoolOps x ops → y.shape = x.shape → InB (poolSeq x ops).shape ix →
    (∀ kx, InB x.shape kx → InWindow ops ix kx → x.get kx = y.get kx) → (poolSeq x ops).get ix = (poolSeq y ops).get ix
  | [], x, y, ix, _, _, hix, h => h ix hix ⟨rfl, by simp, fun _ _ => rfl⟩
  | o :: ops, x, y, ix, hp, hs, hix, h => by
    change (poolSeq (slide x o) ops).get ix = (poolSeq (slide y o) ops).get ix
    have hs' : (slide y o).shape = (slide x o).shape := by rw [slide_shape, slide_shape, hs]
    refine poolSeq_local hp.tail hs' hix ?_
    intro kx hkx hw
    by_cases hk : o.kernel = []
    · simp only [slide, hk, if_true] at hkx ⊢
      refine h kx hkx ⟨hw.length, ?_, ?_⟩
      · intro q hq hne
        rcases List.mem_cons.1 hq with rfl | hq
        · exact absurd hk hne
        · exact hw.pooled q hq hne
      · exact fun k hk' => hw.other k fun q hq => hk' q (by simp [hq])
    · have ha := hp.axis o (by simp) hk
      have hst := hp.stride o (by simp) hk
      have hax : ∀ q ∈ ops, q.axis ≠ o.axis := by
        intro q hq e
        apply (List.nodup_cons.1 hp.nodup).1
        change o.axis ∈ _
        rw [← e]
        exact List.mem_map_of_mem hq
      have hkl : o.axis < kx.length := by
        rw [hkx.length_eq]
        exact lt_of_lt_of_eq ha (slide_ndim x o).symm
      rw [slide_get hk hkx, slide_get hk (by rw [hs']; exact hkx)]
      congr 1
      apply List.map_congr_left
      intro j hj
      have hj := List.mem_range.1 hj
      congr 1
      refine h _ (slide_inB hst ha hk hkx hj) ⟨by simpa using hw.length, ?_, ?_⟩
      · intro q hq hne
        rcases List.mem_cons.1 hq with rfl | hq
        · rw [getD_set_self _ _ _ _ hkl, hw.other _ fun p hp' _ => hax p hp']
          omega
        · rw [getD_set_ne _ _ _ _ _ (hax q hq)]
          exact hw.pooled q hq hne
      · intro k hk'
        rw [getD_set_ne _ _ _ _ _ (hk' o (by simp) hk).symm]
        exact hw.other k fun q hq => hk' q (by simp [hq])

/-! ## straight-line images -/

theorem rise_set (s : Nat → α) {ix : List Nat} {a : Nat} (ha : a < ix.length) (v : Nat) :
    rise s (ix.set a v) = rise s ix + s a * ((v : α) - (ix.getD a 0 : α)) := by
  simp only [rise, List.length_set]
  rw [← Finset.add_sum_erase _ _ (Finset.mem_range.2 ha), ← Finset.add_sum_erase (Finset.range ix.length) (fun k => s k * (ix.getD k 0 : α)) (Finset.mem_range.2 ha),
    getD_set_self _ _ _ _ ha, Finset.sum_congr rfl (g := fun k => s k * (ix.getD k 0 : α))]
  · ring
  · intro k hk
    rw [getD_set_ne _ _ _ _ _ (Finset.ne_of_mem_erase hk)]

theorem slide_affine {o : PoolOp α} (hk : o.kernel ≠ []) (ha : o.axis < x.ndim) (hst : o.stride = 1) {c : α} {s : Nat → α} (hx : Affine c s x) :
    Affine (o.kernel.sum * c + s o.axis * moment o.kernel) (fun k => o.kernel.sum * s k) (slide x o) := by
  intro ix hix
  have hl : o.axis < ix.length := by
    rw [hix.length_eq]
    exact lt_of_lt_of_eq ha (slide_ndim x o).symm
  have e : rise (fun k => o.kernel.sum * s k) ix = o.kernel.sum * rise s ix := by
    rw [rise, rise, Finset.mul_sum]
    exact Finset.sum_congr rfl fun k _ => mul_assoc _ _ _
  rw [slide_get hk hix, e]
  have : ∀ j ∈ List.range o.kernel.length, o.kernel.getD j 0 * x.get (ix.set o.axis (ix.getD o.axis 0 * o.stride + j)) =
      (c + rise s ix) * o.kernel.getD j 0 + s o.axis * ((j : α) * o.kernel.getD j 0) := by
    intro j hj
    rw [hx _ (slide_inB (by omega) ha hk hix (List.mem_range.1 hj)), rise_set s hl, hst]
    push_cast
    ring
  rw [List.map_congr_left this, List.sum_map_add, List.sum_map_mul_left, List.sum_map_mul_left, ← moment, map_getD_range]
  ring

/-- the kernels have sum one or are empty -/
theorem poolSeq_affine : ∀ {ops : List (PoolOp α)} {x : Tensor α}, PoolOps x ops → (∀ o ∈ ops, o.stride = 1) →
    (∀ o ∈ ops, o.kernel ≠ [] → o.kernel.sum = 1) → ∀ {c : α} {s : Nat → α}, Affine c s x →
    Affine (c + (ops.map fun o => s o.axis * moment o.kernel).sum) s (poolSeq x ops)
  | [], x, _, _, _, c, s, hx => by
    change Affine _ s x
    simpa using hx
  | o :: ops, x, hp, h1, hw, c, s, hx => by
    change Affine _ s (poolSeq (slide x o) ops)
    have ih : ∀ {c}, Affine c s (slide x o) → _ := fun {c} => poolSeq_affine (c := c) (s := s) hp.tail (fun q hq => h1 q (by simp [hq])) (fun q hq => hw q (by simp [hq]))
    by_cases hk : o.kernel = []
    · have := ih (c := c) (by simpa [slide, hk] using hx)
      simpa [hk, moment] using this
    · have h2 := slide_affine hk (hp.axis o (by simp) hk) (h1 o (by simp)) hx
      simp only [hw o (by simp) hk, one_mul] at h2
      have := ih h2
      rwa [List.map_cons, List.sum_cons, ← add_assoc]

/-- constant images -/
theorem poolSeq_weight [FloorRing α] : ∀ {ops : List (PoolOp α)} {x : Tensor α}, PoolOps x ops → ∀ {k : α}, Constant k x →
    Constant (k * totalWeight ops) (poolSeq x ops)
  | [], x, _, k, hx => by
    change Constant _ x
    simpa [totalWeight] using hx
  | o :: ops, x, hp, k, hx => by
    change Constant _ (poolSeq (slide x o) ops)
    by_cases hk : o.kernel = []
    · have := poolSeq_weight hp.tail (k := k) (by simpa [slide, hk] using hx)
      simpa [totalWeight, hk] using this
    · have := poolSeq_weight hp.tail (slide_constant (hp.axis o (by simp) hk) (hp.stride o (by simp) hk) hk hx)
      have e : o.kernel.sum * k * totalWeight ops = k * totalWeight (o :: ops) := by
        simp only [totalWeight, List.map_cons, List.prod_cons, if_neg hk]
        ring
      rwa [e] at this

/-- the modes `smooth` and `odd_reflect` continue straight lines -/
theorem straight_rule {st : AxisPad α} (h : st.mode = .smooth ∨ st.mode = .oddReflect) {n : Nat} (hn : 2 ≤ n) {u : Nat → α} {p q : α}
    (hu : ∀ j < n, u j = p + q * j) : ∃ E, st.rule? = some E ∧ ∀ z : Int, E n u z = p + q * z := by
  rcases h with h | h
  · refine ⟨Spec.smooth, by simp [AxisPad.rule?, h], ?_⟩
    intro z
    have h0 := hu 0 (by omega)
    have h1 := hu 1 (by omega)
    have h2 := hu (n - 1) (by omega)
    have h3 := hu (n - 2) (by omega)
    have c1 : ((n - 1 : Nat) : α) = (n : α) - 1 := by rw [Nat.cast_sub (by omega)]; simp
    have c2 : ((n - 2 : Nat) : α) = (n : α) - 2 := by rw [Nat.cast_sub (by omega)]; simp
    simp only [Spec.smooth, if_neg (show n ≠ 1 by omega)]
    split_ifs with h4 h5
    · rw [h0, h1]; push_cast; ring
    · rw [hu _ (by omega)]
      have : ((z.toNat : Nat) : α) = (z : α) := by
        rw [← Int.cast_natCast, Int.toNat_of_nonneg (by omega)]
      rw [this]
    · rw [h2, h3]
      push_cast
      rw [c1, c2]
      ring
  · refine ⟨Spec.oddReflect, by simp [AxisPad.rule?, h], ?_⟩
    intro z
    simp only [Spec.oddReflect, if_neg (show n ≠ 1 by omega)]
    set N : Nat := 2 * (n - 1) with hN
    have hN0 : (N : Int) ≠ 0 := by omega
    have hz := Int.mul_ediv_add_emod z N
    have hj0 := Int.emod_nonneg z hN0
    have hj1 := Int.emod_lt_of_pos z (show (0 : Int) < N by omega)
    obtain ⟨j, hj⟩ : ∃ j : Nat, z % (N : Int) = j := ⟨_, (Int.toNat_of_nonneg hj0).symm⟩
    rw [hj] at hj1 hz ⊢
    have hjN : j < N := by omega
    have hcast : (z : α) = (N : α) * ((z / (N : Int) : Int) : α) + (j : α) := by
      rw [← hz]; push_cast
      rw [hz]
    have cN : (N : α) = 2 * ((n : α) - 1) := by
      rw [hN]; push_cast
      rw [Nat.cast_sub (by omega)]; push_cast; ring
    rw [Int.toNat_natCast, hu (n - 1) (by omega), hu 0 (by omega), hcast, cN, Nat.cast_sub (show 1 ≤ n by omega)]
    split_ifs with h1
    · rw [hu j h1]; push_cast; ring
    · rw [hu (N - j) (by omega), Nat.cast_sub (le_of_lt hjN), cN]; push_cast; ring

theorem padStep_affine {d : Nat} {st : AxisPad α} (h : st.mode = .smooth ∨ st.mode = .oddReflect) (hd : d < x.ndim)
    (hn : ¬ (st.before = 0 ∧ st.after = 0) → 2 ≤ x.shape.getD d 0) {c : α} {s : Nat → α} (hx : Affine c s x) :
    Affine (c - s d * (st.before : α)) s (padStep x (d, st)) := by
  by_cases hz : st.before = 0 ∧ st.after = 0
  · rw [padStep, if_pos hz]
    simpa [hz.1] using hx
  have hn := hn hz
  intro ix hix
  obtain ⟨E0, hE0, _⟩ := straight_rule h hn (u := fun j => (0 : α) + 0 * (j : α)) (p := 0) (q := 0) (by simp)
  have hsh : (padStep x (d, st)).shape = x.shape.set d (st.before + x.shape.getD d 0 + st.total (x.shape.getD d 0)) := by
    simp only [padStep, if_neg hz, hE0]; rfl
  have hdl : d < ix.length := by
    rw [hix.length_eq, hsh, List.length_set]; exact hd
  have hin : ∀ j < x.shape.getD d 0, InB x.shape (ix.set d j) := by
    intro j hj
    rw [hsh] at hix
    have := hix.set' (d := d) hj
    rwa [List.set_set, set_getD_self] at this
  obtain ⟨E, hE, key⟩ := straight_rule h hn (u := fun j => x.get (ix.set d j)) (p := c + rise s ix - s d * (ix.getD d 0 : α)) (q := s d) (by
    intro j hj
    rw [hx _ (hin j hj), rise_set s hdl]
    ring)
  have : (padStep x (d, st)).get ix = E (x.shape.getD d 0) (fun j => x.get (ix.set d j)) ((ix.getD d 0 : Int) - st.before) := by
    have hix' := hix
    rw [hsh] at hix'
    simp only [padStep, if_neg hz, hE]
    exact get_ofFn hix'
  rw [this, key]
  push_cast
  ring

theorem padSeq_affine : ∀ {ops : List (Nat × AxisPad α)} {x : Tensor α}, (ops.map Prod.fst).Nodup → (∀ o ∈ ops, o.1 < x.ndim) →
    (∀ o ∈ ops, o.2.mode = .smooth ∨ o.2.mode = .oddReflect) → (∀ o ∈ ops, ¬ (o.2.before = 0 ∧ o.2.after = 0) → 2 ≤ x.shape.getD o.1 0) →
    ∀ {c : α} {s : Nat → α}, Affine c s x → Affine (c - (ops.map fun o => s o.1 * (o.2.before : α)).sum) s (padSeq x ops)
  | [], x, _, _, _, _, c, s, hx => by
    change Affine _ s x
    simpa using hx
  | (d, st) :: ops, x, hnd, hlt, hm, hn, c, s, hx => by
    have hnd' := List.nodup_cons.1 (show (d :: ops.map Prod.fst).Nodup from hnd)
    have h1 := padStep_affine (hm (d, st) (by simp)) (hlt (d, st) (by simp)) (hn (d, st) (by simp)) hx
    have hr : ¬ (st.before = 0 ∧ st.after = 0) → st.rule? ≠ none := by
      intro _
      rcases hm (d, st) (by simp) with h | h <;> simp only at h <;> simp [AxisPad.rule?, h]
    have hsh := padStep_shape (x := x) (o := (d, st)) hr
    have h2 := padSeq_affine (ops := ops) (x := padStep x (d, st)) hnd'.2 (by
        intro o ho
        rw [ndim, hsh, List.length_set]
        exact hlt o (by simp [ho])) (fun o ho => hm o (by simp [ho])) (by
        intro o ho hw
        have hne : o.1 ≠ d := fun e => hnd'.1 (by rw [← e]; exact List.mem_map_of_mem ho)
        rw [hsh, getD_set_ne _ _ _ _ _ hne]
        exact hn o (by simp [ho]) hw) h1
    rw [padSeq_cons]
    rw [List.map_cons, List.sum_cons, ← sub_sub]
    exact h2

/-! ## sums over axes -/

theorem sum_axes {axes : List Nat} (hnd : axes.Nodup) {n : Nat} (hlt : ∀ a ∈ axes, a < n) {f : Nat → α} (h0 : ∀ k, k ∉ axes → f k = 0) :
    ∑ k ∈ Finset.range n, f k = ((List.range axes.length).map fun i => f (axes.getD i 0)).sum := by
  have e : ((List.range axes.length).map fun i => f (axes.getD i 0)) = axes.map f := by
    apply List.ext_getElem (by simp)
    intro i h1 h2
    have hi : i < axes.length := by simpa using h2
    simp [hi]
  rw [e, ← List.sum_toFinset f hnd]
  symm
  apply Finset.sum_subset
  · intro a ha
    exact Finset.mem_range.2 (hlt a (List.mem_toFinset.1 ha))
  · intro k _ hk
    exact h0 k fun h => hk (List.mem_toFinset.2 h)

theorem rise_moved {g : Given (List α)} {axes ix jx : List Nat} (hnd : axes.Nodup) (hlt : ∀ a ∈ axes, a < ix.length) (h : Moved g axes ix jx) (s : Nat → α) :
    rise s jx = rise s ix + ((List.range axes.length).map fun i : Nat => s (axes.getD i 0) * (((g.entry [] i).length / 2 : Nat) : α)).sum := by
  have h1 : rise s jx - rise s ix = ∑ k ∈ Finset.range ix.length, s k * ((jx.getD k 0 : α) - (ix.getD k 0 : α)) := by
    rw [rise, rise, h.length, ← Finset.sum_sub_distrib]
    exact Finset.sum_congr rfl fun k _ => by ring
  rw [sum_axes hnd hlt (by intro k hk; rw [h.other k hk]; ring)] at h1
  rw [← sub_eq_iff_eq_add', h1]
  congr 1
  apply List.map_congr_left
  intro i hi
  rw [h.filtered i (List.mem_range.1 hi)]
  push_cast
  ring

theorem moment_nil : moment ([] : List α) = 0 := by simp [moment]

theorem list_sum_range (n : Nat) (f : Nat → α) : ((List.range n).map f).sum = ∑ k ∈ Finset.range n, f k := rfl

theorem sum_getD (w : List α) : w.sum = ∑ k ∈ Finset.range w.length, w.getD k 0 := by
  rw [← list_sum_range, map_getD_range]

theorem moment_symmetric {w : List α} (h : w.reverse = w) : 2 * moment w = ((w.length : α) - 1) * w.sum := by
  rcases Nat.eq_zero_or_pos w.length with h0 | h0
  · rw [List.length_eq_zero_iff.1 h0]; simp [moment]
  have hr : ∀ j < w.length, w.getD (w.length - 1 - j) 0 = w.getD j 0 := by
    intro j hj
    conv_rhs => rw [← h]
    rw [List.getD_eq_getElem?_getD, List.getD_eq_getElem?_getD, List.getElem?_reverse hj]
  have e1 : moment w = ∑ j ∈ Finset.range w.length, (j : α) * w.getD j 0 := list_sum_range _ _
  have e2 : moment w = ∑ j ∈ Finset.range w.length, ((w.length - 1 : α) - j) * w.getD j 0 := by
    rw [e1, ← Finset.sum_range_reflect]
    apply Finset.sum_congr rfl
    intro j hj
    have hj' := Finset.mem_range.1 hj
    rw [hr j hj']
    congr 1
    rw [Nat.sub_sub, Nat.cast_sub (by omega)]
    push_cast
    ring
  rw [two_mul]
  nth_rewrite 1 [e1]
  rw [e2, ← Finset.sum_add_distrib, sum_getD, Finset.mul_sum]
  exact Finset.sum_congr rfl fun j _ => by ring

/-- the weights of an antisymmetric kernel: moment times two -/
theorem drift_symmetric {g : Given (List α)} {axes : List Nat} (s : Nat → α)
    (h : ∀ i < axes.length, g.entry [] i = [] ∨ (g.entry [] i).reverse = g.entry [] i ∧ (g.entry [] i).length % 2 = 1 ∧ (g.entry [] i).sum = 1) :
    drift g axes s = 0 := by
  rw [drift]
  apply List.sum_eq_zero
  intro v hv
  obtain ⟨i, hi, rfl⟩ := List.mem_map.1 hv
  rcases h i (List.mem_range.1 hi) with h0 | ⟨h1, h2, h3⟩
  · rw [h0, moment_nil]; simp
  · have h4 := moment_symmetric h1
    rw [h3, mul_one] at h4
    have h5 : (g.entry [] i).length = 2 * ((g.entry [] i).length / 2) + 1 := by omega
    have h6 : ((g.entry [] i).length : α) = 2 * (((g.entry [] i).length / 2 : Nat) : α) + 1 := by exact_mod_cast h5
    have h7 : moment (g.entry [] i) = (((g.entry [] i).length / 2 : Nat) : α) := by linarith
    rw [h7, sub_self, mul_zero]

theorem sameOps_eq (g : PoolArgs α) (gp : PadArgs α) (shape axes : List Nat) :
    sameOps g gp shape axes = (List.range axes.length).map fun i => (axes.getD i 0, sameSetting g gp shape axes i) := by
  apply List.ext_getElem
  · simp [sameOps]
  · intro i h1 h2
    have hi : i < axes.length := by simpa using h2
    simp only [sameOps, List.getElem_zip, List.getElem_map, List.getElem_range, withWidths_entry _ _ _ _ hi]
    simp [hi]

/-- the constant term of the same-padded filter -/
theorem same_drift (g : Given (List α)) (gp : PadArgs α) (shape axes : List Nat) (c : α) (s : Nat → α) :
    c - ((sameOps (PoolArgs.filter g) gp shape axes).map fun o => s o.1 * (o.2.before : α)).sum +
      (((PoolArgs.filter g).ops axes).map fun o => s o.axis * moment o.kernel).sum = c + drift g axes s := by
  have e1 : ((sameOps (PoolArgs.filter g) gp shape axes).map fun o => s o.1 * (o.2.before : α)).sum =
      ((List.range axes.length).map fun i : Nat => s (axes.getD i 0) * (((g.entry [] i).length / 2 : Nat) : α)).sum := by
    rw [sameOps_eq, List.map_map]
    congr 1
    apply List.map_congr_left
    intro i _
    simp only [Function.comp, sameSetting, PoolArgs.samePair, filter_stride, sameTotal_one]
    rw [half_before]
    rfl
  have e2 : (((PoolArgs.filter g).ops axes).map fun o => s o.axis * moment o.kernel).sum =
      ((List.range axes.length).map fun i : Nat => s (axes.getD i 0) * moment (g.entry [] i)).sum := by
    rw [PoolArgs.ops, List.map_map]
    rfl
  have e3 : drift g axes s = ((List.range axes.length).map fun i : Nat => s (axes.getD i 0) * moment (g.entry [] i)).sum -
      ((List.range axes.length).map fun i : Nat => s (axes.getD i 0) * (((g.entry [] i).length / 2 : Nat) : α)).sum := by
    simp only [drift, list_sum_range, ← Finset.sum_sub_distrib]
    exact Finset.sum_congr rfl fun i _ => by ring
  rw [e1, e2, e3]
  ring

end

end TI
