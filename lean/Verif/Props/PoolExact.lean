import Verif.Proofs.ExcludeShape
import Verif.Props.PoolMore
import Verif.Props.NdSpec

/-!
# The exact conditions of C36 and C74
-/

set_option linter.unusedSectionVars false

namespace TI
open Tensor Spec

section
variable {α : Type} [Field α] [LinearOrder α] [IsStrictOrderedRing α]
variable {m : Nat} {x : Tensor α} {ax : Axes} {axes : List Nat}
variable {size : Given Nat} {st : Given (Option Nat)} {gp : PadArgs α} {pool : SepPool α} {p : Padder α}

/-- **C36**, exactly, for axes in any order: let `out k` be the number of windows along axis `k`.  `AvgPoolNd(count_include_pad=False)` returns the arithmetic mean of the original samples in each window
exactly if these numbers, in the order in which the axes are given, are the same as in increasing order of the axes.  Else it raises, or returns a tensor of another shape. -/
theorem C36_iff (hm0 : 0 < m) (hs : size.Fits m) (hst : st.Fits m) (hv : ∀ s ∈ st.values, s ≠ some 0)
    (hpool : SepPool.avgInit (size.toPy fun k : Nat => .leaf (some (k : Int))) (st.toPy PoolArgs.pyStride) = .ok pool)
    (hc : SameCall (avgArgs α size st) gp x ax axes) (hm : (size.isMany || st.isMany) = true → axes.length = m) (hp : Holds p gp)
    (hk : ∀ i < axes.length, 0 < size.entry 0 i)
    (hz : ∀ i < axes.length, gp.mode.entry .unknown i = .constant ∧ gp.cv.entry (0, 0) i = (0, 0)) {out : Nat → Nat}
    (hout : ∀ i < axes.length, ceilDiv (x.shape.getD (axes.getD i 0) 0) ((avgArgs α size st).op axes i).stride = out (axes.getD i 0)) (junk : List Nat → α) :
    (∃ p' r, SepPool.avgForwardExclude pool (some p) junk x ax = (p', .ok r) ∧ r.ndim = x.ndim ∧
      (∀ k ∈ axes, r.shape.getD k 0 = out k) ∧ (∀ k, k ∉ axes → r.shape.getD k 0 = x.shape.getD k 0) ∧
      ∀ ix, InB r.shape ix → r.get ix = mean ((seen x.shape ((avgArgs α size st).ops axes) ix).map x.get) ∧
        seen x.shape ((avgArgs α size st).ops axes) ix ≠ []) ↔
      axes.map out = ((List.range x.ndim).filter fun k => decide (k ∈ axes)).map out := by
  obtain ⟨hca, hlt⟩ := checkAxes_spec hc.axes_eq
  have hcl : (castV axes).length = axes.length := by simp [castV]
  have hsort := argsort_sorted hc.nodup hlt
  have hidxp := argsort_perm (castV axes)
  rw [hcl] at hidxp
  have hidxl : (SepPool.argsort (castV axes)).length = axes.length := by rw [hidxp.length_eq, List.length_range]
  have hidxg : ∀ {i}, i < axes.length → (SepPool.argsort (castV axes)).getD i 0 < axes.length := fun hi =>
    List.mem_range.1 (hidxp.mem_iff.1 (getD_mem_lt (by omega)))
  have hiff : (axes.map out = ((List.range x.ndim).filter fun k => decide (k ∈ axes)).map out) ↔
      ∀ i < axes.length, (avgArgs α size st).outSize x.shape axes ((SepPool.argsort (castV axes)).getD i 0) = (avgArgs α size st).outSize x.shape axes i := by
    rw [← hsort, List.map_map]
    have hO : ∀ i < axes.length, (avgArgs α size st).outSize x.shape axes i = out (axes.getD i 0) := hout
    constructor
    · intro e i hi
      rw [hO i hi, hO _ (hidxg hi)]
      have := congrArg (fun l => l.getD i 0) e
      have hi' : i < (SepPool.argsort (castV axes)).length := by omega
      simp only [List.getD_eq_getElem?_getD, List.getElem?_map, List.getElem?_eq_getElem hi, List.getElem?_eq_getElem hi', Option.map_some, Option.getD_some, Function.comp] at this ⊢
      exact this.symm
    · intro h
      apply List.ext_getElem (by simp [hidxl])
      intro i h1 h2
      have hi : i < axes.length := by simpa using h1
      have := h i hi
      rw [hO i hi, hO _ (hidxg hi)] at this
      have hi' : i < (SepPool.argsort (castV axes)).length := by omega
      simp only [List.getD_eq_getElem?_getD, List.getElem?_eq_getElem hi, List.getElem?_eq_getElem hi', Option.getD_some] at this
      simp only [List.getElem_map, Function.comp, List.getD_eq_getElem?_getD]
      exact this.symm
  rw [hiff]
  have hb : Built pool (avgArgs α size st) m := .average hm0 hs hst hv hpool
  have hm' : (avgArgs α size st).isMany = true → axes.length = m := by
    intro h
    apply hm
    rwa [PoolArgs.isMany, avgArgs, given_isMany_map] at h
  have hne : ∀ o ∈ (avgArgs α size st).ops axes, o.kernel ≠ [] := by
    intro o ho
    obtain ⟨i, hi, rfl⟩ := mem_ops.1 ho
    rw [← List.length_pos_iff, avgArgs_kernel, avgKernel_length]
    exact hk i hi
  constructor
  · rintro ⟨p', r, h1, h2, h3, h4, -⟩
    refine hb.poolIs.1.exclude_shape hc hm' hp hne (fun i hi => (hz i hi).1) junk (r := r) (by rw [h1]) ?_
    have hnd : ((sameOps (avgArgs α size st) gp x.shape axes).map Prod.fst).Nodup := by rw [sameOps_fst]; exact hc.nodup
    apply list_ext_getD
    · have : (poolSeq (padSeq x (sameOps (avgArgs α size st) gp x.shape axes)) ((avgArgs α size st).ops axes)).ndim = x.ndim := by
        rw [poolSeq_ndim, padSeq_ndim hc.opsOK]
      exact h2.trans this.symm
    · intro k _
      by_cases hka : k ∈ axes
      · obtain ⟨i, hi, rfl⟩ := List.mem_iff_getElem.1 hka
        have e : axes[i] = axes.getD i 0 := by simp [hi]
        rw [e, h3 _ (e ▸ hka), hc.outSize_eq hne (fun i hi => (hz i hi).1) hi]
        exact (hout i hi).symm
      · rw [h4 k hka, poolSeq_shape hc.poolOps, find_ops_none (by
          intro i hi e
          exact absurd (by rw [← e]; exact getD_mem_lt hi) hka)]
        simp only
        rw [padSeq_shape hc.opsOK hnd x hc.lt, settingAt_none (by rw [sameOps_fst]; exact hka)]
  · intro hsh
    obtain ⟨p', r, h1, h2, h3, h4, h5⟩ := exclude_average hm0 hs hst hv hpool hc hm hp hk hz hsh junk
    refine ⟨p', r, h1, h2, ?_, h4, h5⟩
    intro k hka
    obtain ⟨i, hi, rfl⟩ := List.mem_iff_getElem.1 hka
    have e : axes[i] = axes.getD i 0 := by simp [hi]
    rw [e, h3 i hi, hout i hi]

end

/-- with the axes `(1, 0)` of a 2×3 image the numbers of windows are in the wrong order -/
example (junk : List Nat → ℚ) {pool : SepPool ℚ} (hpool : SepPool.avgInit (.leaf (some 3)) (.leaf (some 1)) = .ok pool) :
    ¬ ∃ p' r, SepPool.avgForwardExclude pool (some ((Example.modeArgs .constant).padder 1)) junk Example.x (.seq [-1, 0]) = (p', .ok r) ∧ r.ndim = 2 ∧
      (∀ k ∈ [1, 0], r.shape.getD k 0 = k + 2) ∧ (∀ k, k ∉ [1, 0] → r.shape.getD k 0 = Example.x.shape.getD k 0) ∧
      ∀ ix, InB r.shape ix → r.get ix = mean ((seen Example.x.shape ((avgArgs ℚ (.one 3) (.one (some 1))).ops [1, 0]) ix).map Example.x.get) ∧
        seen Example.x.shape ((avgArgs ℚ (.one 3) (.one (some 1))).ops [1, 0]) ix ≠ [] := by
  have hc : SameCall (avgArgs ℚ (.one 3) (.one (some 1))) (Example.modeArgs .constant) Example.x (.seq [-1, 0]) [1, 0] :=
    { axes_eq := by decide
      ne := by decide
      nodup := by decide
      fits := by intro h; cases h
      rest := ⟨trivial, trivial, trivial, trivial⟩
      stride := by intro i _; exact Nat.one_pos
      pos := by decide
      valued := by
        intro o ho _
        obtain ⟨i, _, rfl⟩ := sameOps_mem ho
        exact ⟨by simp [sameSetting, AxisPad.rule?, Example.modeArgs, Given.entry], by simp [sameSetting, Example.modeArgs, Given.entry]⟩ }
  have := C36_iff (size := .one 3) (st := .one (some 1)) (m := 1) (out := fun k => k + 2) (by decide) trivial trivial (by intro s hs; simp [Given.values] at hs; simp [hs])
    hpool hc (by intro h; cases h) (holds_padder _ 1) (by intro i _; exact (by decide : 0 < 3)) (by intro i _; exact ⟨rfl, rfl⟩)
    (by
      intro i hi
      have : i = 0 ∨ i = 1 := by simp at hi; omega
      rcases this with rfl | rfl <;> rfl) junk
  intro h
  exact absurd (this.1 h) (by decide)

/-! ## C74 -/

/-- **C74**, exactly, for integers and sequences: an integer `a` is never rejected, and gives an existing axis exactly if it lies in `[-ndim, ndim)`; a sequence is rejected exactly if an entry lies
outside `[-ndim, ndim]`, and all its axes exist exactly if no entry is outside `[-ndim, ndim)`. -/
theorem C74_outcome (n : Nat) (a : Int) (l : List Int) :
    (∃ b, checkAxes n (.int a) = .ok [b] ∧ ((0 ≤ b ∧ b < n) ↔ (-(n : Int) ≤ a ∧ a < n))) ∧
    (checkAxes n (.seq l) = .error .assertion ↔ ∃ a ∈ l, a < -(n : Int) ∨ (n : Int) < a) ∧
    ((∃ axes, checkAxes n (.seq l) = .ok axes ∧ ∀ b ∈ axes, 0 ≤ b ∧ b < n) ↔ ∀ a ∈ l, -(n : Int) ≤ a ∧ a < n) := by
  refine ⟨?_, ?_, ?_⟩
  · rw [checkAxes]
    refine ⟨_, rfl, ?_⟩
    split_ifs <;> omega
  · rw [checkAxes]
    split_ifs with h
    · rw [List.all_eq_true] at h
      constructor
      · intro q; cases q
      · rintro ⟨a, ha, hb⟩
        have := h _ (List.mem_map.2 ⟨a, ha, rfl⟩)
        simp only [ge_iff_le, decide_eq_true_eq] at this
        split_ifs at this <;> omega
    · simp only [true_iff]
      by_contra hn
      push Not at hn
      apply h
      rw [List.all_eq_true]
      intro b hb
      obtain ⟨a, ha, rfl⟩ := List.mem_map.1 hb
      have := hn a ha
      simp only [ge_iff_le, decide_eq_true_eq]
      split_ifs <;> omega
  · rw [checkAxes]
    split_ifs with h
    · constructor
      · rintro ⟨axes, e, h2⟩ a ha
        cases e
        have := h2 _ (List.mem_map.2 ⟨a, ha, rfl⟩)
        split_ifs at this <;> omega
      · intro h2
        refine ⟨_, rfl, ?_⟩
        intro b hb
        obtain ⟨a, ha, rfl⟩ := List.mem_map.1 hb
        have := h2 a ha
        split_ifs <;> omega
    · constructor
      · rintro ⟨_, e, _⟩; cases e
      · intro h2
        exfalso
        apply h
        rw [List.all_eq_true]
        intro b hb
        obtain ⟨a, ha, rfl⟩ := List.mem_map.1 hb
        have := h2 a ha
        simp only [ge_iff_le, decide_eq_true_eq]
        split_ifs <;> omega

/-- `(0, 2)` of a matrix is accepted, and not valid; `(0, 3)` is rejected -/
example : checkAxes 2 (.seq [0, 3]) = .error .assertion ∧ ¬ ∃ axes, checkAxes 2 (.seq [0, 2]) = .ok axes ∧ ∀ b ∈ axes, 0 ≤ b ∧ b < ((2 : Nat) : Int) := by
  refine ⟨((C74_outcome 2 0 [0, 3]).2.1).2 ⟨3, by simp, by omega⟩, fun h => ?_⟩
  have := ((C74_outcome 2 0 [0, 2]).2.2).1 h 2 (by simp)
  omega

end TI
