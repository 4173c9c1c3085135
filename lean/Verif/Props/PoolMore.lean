import Verif.Proofs.Exclude
import Verif.Props.Pool

/-!
# Averages without padding, convolution of one axis: C36, C39
-/

set_option linter.unusedSectionVars false

namespace TI
open Tensor Spec

variable {α : Type} [Field α] [LinearOrder α] [IsStrictOrderedRing α]
variable {m : Nat} {x : Tensor α} {ax : Axes} {axes : List Nat}

/-! ## C36 -/

section
variable {size : Given Nat} {st : Given (Option Nat)} {gp : PadArgs α} {pool : SepPool α} {p : Padder α}

/-- the settings of `AvgPoolNd(size, st)` -/
def Spec.avgArgs (α : Type) [Field α] (size : Given Nat) (st : Given (Option Nat)) : PoolArgs α := ⟨size.map avgKernel, st⟩

theorem avgArgs_kernel (size : Given Nat) (st : Given (Option Nat)) (axes : List Nat) (i : Nat) :
    ((avgArgs α size st).op axes i).kernel = avgKernel (size.entry 0 i) := given_entry_map (avgKernel (α := α)) size 0 i

theorem avgKernel_length (k : Nat) : (avgKernel k : List α).length = k := by simp [avgKernel]

/-- general form of the two theorems below: the axis sizes of the output are compared in the order of the axes -/
theorem exclude_average (hm0 : 0 < m) (hs : size.Fits m) (hst : st.Fits m) (hv : ∀ s ∈ st.values, s ≠ some 0)
    (hpool : SepPool.avgInit (size.toPy fun k : Nat => .leaf (some (k : Int))) (st.toPy PoolArgs.pyStride) = .ok pool)
    (hc : SameCall (avgArgs α size st) gp x ax axes) (hm : (size.isMany || st.isMany) = true → axes.length = m) (hp : Holds p gp)
    (hk : ∀ i < axes.length, 0 < size.entry 0 i)
    (hz : ∀ i < axes.length, gp.mode.entry .unknown i = .constant ∧ gp.cv.entry (0, 0) i = (0, 0))
    (hsh : ∀ i < axes.length, (avgArgs α size st).outSize x.shape axes ((SepPool.argsort (castV axes)).getD i 0) =
      (avgArgs α size st).outSize x.shape axes i) (junk : List Nat → α) :
    ∃ p' r, SepPool.avgForwardExclude pool (some p) junk x ax = (p', .ok r) ∧ r.ndim = x.ndim ∧
      (∀ i < axes.length, r.shape.getD (axes.getD i 0) 0 = ceilDiv (x.shape.getD (axes.getD i 0) 0) ((avgArgs α size st).op axes i).stride) ∧
      (∀ k, k ∉ axes → r.shape.getD k 0 = x.shape.getD k 0) ∧
      ∀ ix, InB r.shape ix → r.get ix = mean ((seen x.shape ((avgArgs α size st).ops axes) ix).map x.get) ∧
        seen x.shape ((avgArgs α size st).ops axes) ix ≠ [] := by
  have hb : Built pool (avgArgs α size st) m := .average hm0 hs hst hv hpool
  have hm' : (avgArgs α size st).isMany = true → axes.length = m := by
    intro h
    apply hm
    rwa [PoolArgs.isMany, avgArgs, given_isMany_map] at h
  have hne : ∀ o ∈ (avgArgs α size st).ops axes, o.kernel ≠ [] := by
    intro o ho
    obtain ⟨i, hi, rfl⟩ := mem_ops.1 ho
    rw [← List.length_pos_iff, avgArgs_kernel, avgKernel_length]
    exact hk i hi
  have havg : ∀ o ∈ (avgArgs α size st).ops axes, o.kernel = avgKernel o.kernel.length := by
    intro o ho
    obtain ⟨i, hi, rfl⟩ := mem_ops.1 ho
    rw [avgArgs_kernel, avgKernel_length]
  obtain ⟨r, h1, h2, h3⟩ := hb.poolIs.1.exclude hc hm' hp hne havg hz hsh junk
  refine ⟨_, r, h1, ?_, ?_, ?_, h3⟩
  · have : (poolSeq (padSeq x (sameOps (avgArgs α size st) gp x.shape axes)) ((avgArgs α size st).ops axes)).ndim = x.ndim := by
      rw [poolSeq_ndim, padSeq_ndim hc.opsOK]
    rw [← this]
    exact congrArg List.length h2
  · intro i hi
    rw [h2, hc.outSize_eq hne (fun i hi => (hz i hi).1) hi]
    rfl
  · intro k hk
    have hnd : ((sameOps (avgArgs α size st) gp x.shape axes).map Prod.fst).Nodup := by rw [sameOps_fst]; exact hc.nodup
    rw [h2, poolSeq_shape hc.poolOps, find_ops_none (by
      intro i hi e
      exact absurd (by rw [← e]; exact getD_mem_lt hi) hk)]
    simp only
    rw [padSeq_shape hc.opsOK hnd x hc.lt, settingAt_none (by rw [sameOps_fst]; exact hk)]

theorem argsort_increasing {axes : List Nat} (h : axes.Pairwise (· < ·)) {i : Nat} (hi : i < axes.length) :
    (SepPool.argsort (castV axes)).getD i 0 = i := by
  have hnd : axes.Nodup := h.imp fun h => Nat.ne_of_lt h
  obtain ⟨n, hn⟩ : ∃ n, ∀ a ∈ axes, a < n := ⟨axes.sum + 1, fun a ha => Nat.lt_succ_of_le (List.single_le_sum (by simp) a ha)⟩
  have e := argsort_sorted hnd hn
  have e' : (List.range n).filter (fun k => decide (k ∈ axes)) = axes := by
    apply List.Perm.eq_of_pairwise' ((List.pairwise_le_range (n := n)).filter _) (h.imp fun h => Nat.le_of_lt h)
    rw [List.perm_ext_iff_of_nodup (List.nodup_range.filter _) hnd]
    intro k
    rw [List.mem_filter, List.mem_range, decide_eq_true_eq]
    exact ⟨fun h => h.2, fun h => ⟨hn k h, h⟩⟩
  rw [e'] at e
  have hp := argsort_perm (castV axes)
  have hcl : (castV axes).length = axes.length := by simp [castV]
  have hl : (SepPool.argsort (castV axes)).length = axes.length := by rw [hp.length_eq, List.length_range, hcl]
  have hi' : i < (SepPool.argsort (castV axes)).length := by omega
  have hj : (SepPool.argsort (castV axes)).getD i 0 < axes.length := by
    have := hp.mem_iff.1 (getD_mem_lt hi')
    rwa [List.mem_range, hcl] at this
  generalize (SepPool.argsort (castV axes)) = idx at *
  have e2 : axes.getD (idx.getD i 0) 0 = axes.getD i 0 := by
    conv_rhs => rw [← e]
    simp [hi']
  simp only [List.getD_eq_getElem?_getD] at hj e2 ⊢
  rw [List.getElem?_eq_getElem hj, List.getElem?_eq_getElem hi] at e2
  exact (List.Nodup.getElem_inj_iff hnd).1 e2

/-- **C36**, axes in increasing order: with a zero-filling same padder `AvgPoolNd(count_include_pad=False)` returns the arithmetic
mean of the original samples in each window, and every window has some.

Partial: `C36_unsorted_wrong_shape` and `C36_unsorted_error` show that it is false for other orders of the axes. -/
theorem C36_sorted_axes_partial (hm0 : 0 < m) (hs : size.Fits m) (hst : st.Fits m) (hv : ∀ s ∈ st.values, s ≠ some 0)
    (hpool : SepPool.avgInit (size.toPy fun k : Nat => .leaf (some (k : Int))) (st.toPy PoolArgs.pyStride) = .ok pool)
    (hc : SameCall (avgArgs α size st) gp x ax axes) (hm : (size.isMany || st.isMany) = true → axes.length = m) (hp : Holds p gp)
    (hk : ∀ i < axes.length, 0 < size.entry 0 i)
    (hz : ∀ i < axes.length, gp.mode.entry .unknown i = .constant ∧ gp.cv.entry (0, 0) i = (0, 0))
    (hinc : axes.Pairwise (· < ·)) (junk : List Nat → α) :
    ∃ p' r, SepPool.avgForwardExclude pool (some p) junk x ax = (p', .ok r) ∧ r.ndim = x.ndim ∧
      (∀ i < axes.length, r.shape.getD (axes.getD i 0) 0 = ceilDiv (x.shape.getD (axes.getD i 0) 0) ((avgArgs α size st).op axes i).stride) ∧
      (∀ k, k ∉ axes → r.shape.getD k 0 = x.shape.getD k 0) ∧
      ∀ ix, InB r.shape ix → r.get ix = mean ((seen x.shape ((avgArgs α size st).ops axes) ix).map x.get) ∧
        seen x.shape ((avgArgs α size st).ops axes) ix ≠ [] :=
  exclude_average hm0 hs hst hv hpool hc hm hp hk hz (fun i hi => by rw [argsort_increasing hinc hi]) junk

/-- **C36**, axes in any order, if the output has the same size on all pooled axes -/
theorem C36_equal_sizes_partial (hm0 : 0 < m) (hs : size.Fits m) (hst : st.Fits m) (hv : ∀ s ∈ st.values, s ≠ some 0)
    (hpool : SepPool.avgInit (size.toPy fun k : Nat => .leaf (some (k : Int))) (st.toPy PoolArgs.pyStride) = .ok pool)
    (hc : SameCall (avgArgs α size st) gp x ax axes) (hm : (size.isMany || st.isMany) = true → axes.length = m) (hp : Holds p gp)
    (hk : ∀ i < axes.length, 0 < size.entry 0 i)
    (hz : ∀ i < axes.length, gp.mode.entry .unknown i = .constant ∧ gp.cv.entry (0, 0) i = (0, 0)) {c : Nat}
    (hout : ∀ i < axes.length, ceilDiv (x.shape.getD (axes.getD i 0) 0) ((avgArgs α size st).op axes i).stride = c) (junk : List Nat → α) :
    ∃ p' r, SepPool.avgForwardExclude pool (some p) junk x ax = (p', .ok r) ∧ r.ndim = x.ndim ∧
      (∀ i < axes.length, r.shape.getD (axes.getD i 0) 0 = ceilDiv (x.shape.getD (axes.getD i 0) 0) ((avgArgs α size st).op axes i).stride) ∧
      (∀ k, k ∉ axes → r.shape.getD k 0 = x.shape.getD k 0) ∧
      ∀ ix, InB r.shape ix → r.get ix = mean ((seen x.shape ((avgArgs α size st).ops axes) ix).map x.get) ∧
        seen x.shape ((avgArgs α size st).ops axes) ix ≠ [] := by
  apply exclude_average hm0 hs hst hv hpool hc hm hp hk hz _ junk
  intro i hi
  have hl : (SepPool.argsort (castV axes)).length = axes.length := by rw [(argsort_perm _).length_eq, List.length_range]; simp [castV]
  have hj : (SepPool.argsort (castV axes)).getD i 0 < axes.length := by
    have := (argsort_perm _).mem_iff.1 (getD_mem_lt (l := SepPool.argsort (castV axes)) (i := i) (by omega))
    rwa [List.mem_range, show (castV axes).length = axes.length by simp [castV]] at this
  exact (hout _ hj).trans (hout i hi).symm

/-- **C36**: without a same padder the option cannot be used (AttributeError: `None` has no `pad_width`) -/
theorem C36_no_padder_error (hb : Built pool (avgArgs α size st) m) (hax : axesOf x.ndim ax = some axes)
    (hm : (avgArgs α size st).isMany = true → axes.length = m) (hnd : axes.Nodup)
    (hsz : ∀ o ∈ (avgArgs α size st).ops axes, o.kernel.length ≤ x.shape.getD o.axis 0) (junk : List Nat → α) :
    (SepPool.avgForwardExclude pool none junk x ax).2 = .error .type := by
  obtain ⟨hca, hlt⟩ := checkAxes_spec hax
  have hcl : (castV axes).length = axes.length := by simp [castV]
  have hmany : ∀ {i}, i < axes.length → ((avgArgs α size st).isMany = true → i < m) := fun hi hh => by rw [← hm hh]; exact hi
  have hks : SepPool.collect (fun i => (pool.kernelSize.get (i : Int)).bind SepPool.asSize) (List.range (castV axes).length) =
      .ok ((List.range axes.length).map fun i => (((avgArgs α size st).kernel.entry [] i).length : Int)) := by
    rw [SepPool.collect, hcl]
    apply sequence_map
    intro i hi
    exact hb.poolIs.1.getSize (hmany (List.mem_range.1 hi))
  have hcnd : (castV axes).Nodup := hnd.map Nat.cast_injective
  have hpo := hb.poolOps hax hm hnd hsz
  have hax' : axesOf x.ndim (.seq (castV axes)) = some axes := normAxes_castV hlt
  have e1 : SepPool.collect (fun i => (pyIndex (castV axes) (i : Int)).bind fun a => pyIndex x.shape a) (SepPool.argsort (castV axes)) =
      .ok ((SepPool.argsort (castV axes)).map fun i => x.shape.getD (axes.getD i 0) 0) := by
    apply sequence_map
    intro i hi
    have hi' : i < axes.length := by
      have := (argsort_perm _).mem_iff.1 hi
      rwa [List.mem_range, hcl] at this
    have hcl' : i < (castV axes).length := by omega
    have ha : axes.getD i 0 < x.shape.length := hlt _ (getD_mem_lt hi')
    rw [pyIndex_nat hcl', show (castV axes)[i] = ((axes.getD i 0 : Nat) : Int) by simp [castV, hi']]
    simp only [Except.bind]
    rw [pyIndex_nat ha]
    simp only [List.getD_eq_getElem?_getD] at ha ⊢
    simp [ha]
  simp only [SepPool.avgForwardExclude, hca, hks, if_pos hcnd, hb.poolIs.1.forward_none hax' hm hpo.fitting junk, e1, ok_bind]
  rfl

end

namespace Example

/-- `AvgPoolNd(3, stride=1, count_include_pad=False, same_padder=Padder(mode="constant"))` -/
theorem avg3 : ∃ pool : SepPool ℚ, SepPool.avgInit ((Given.one 3).toPy fun k : Nat => .leaf (some (k : Int)))
    ((Given.one (some 1)).toPy PoolArgs.pyStride) = .ok pool := by
  obtain ⟨pool, h, _⟩ := C34_average_kernels (α := ℚ) (size := .one 3) (st := .one (some 1)) (m := 1) (by decide) trivial trivial
    (by intro s hs; simp [Given.values] at hs; simp [hs])
  exact ⟨pool, h⟩

theorem sameCall_avg3 : SameCall (avgArgs ℚ (.one 3) (.one (some 1))) (modeArgs .constant) Example.x (.seq [0, 1]) [0, 1] where
  axes_eq := by decide
  ne := by decide
  nodup := by decide
  fits := by intro h; cases h
  rest := ⟨trivial, trivial, trivial, trivial⟩
  stride := by intro i _; exact Nat.one_pos
  pos := by decide
  valued := by
    intro o ho _
    obtain ⟨i, _, rfl⟩ := sameOps_mem ho
    exact ⟨by simp [sameSetting, AxisPad.rule?, modeArgs, Given.entry], by simp [sameSetting, modeArgs, Given.entry]⟩

end Example

/-- in the corner of `[[1, 2, 3], [4, 5, 6]]` a 3×3 window sees `1, 2, 4, 5`, so the result there is their mean `3` -/
example (junk : List Nat → ℚ) : ∃ pool : SepPool ℚ, ∃ p' r,
    SepPool.avgForwardExclude pool (some ((Example.modeArgs .constant).padder 1)) junk Example.x (.seq [0, 1]) = (p', .ok r) ∧
      r.get [0, 0] = 3 := by
  obtain ⟨pool, hpool⟩ := Example.avg3
  obtain ⟨p', r, h1, h2, h3, _, h5⟩ := C36_sorted_axes_partial (m := 1) (size := .one 3) (st := .one (some 1)) (by decide) trivial trivial
    (by intro s hs; simp [Given.values] at hs; simp [hs]) hpool Example.sameCall_avg3 (by intro h; cases h)
    (holds_padder _ 1) (by intro i _; simp [Given.entry]) (by intro i _; exact ⟨rfl, rfl⟩) (by decide) junk
  refine ⟨pool, p', r, h1, ?_⟩
  have hs : r.shape = [2, 3] := by
    apply list_ext_getD h2
    intro k hk
    have hk : k < 2 := by have : r.ndim = 2 := h2; rw [← this]; exact hk
    have hh : ∀ i < 2, r.shape.getD i 0 = [2, 3].getD i 0 := by
      intro i hi
      have := h3 i hi
      interval_cases i
      · exact this
      · exact this
    exact hh k hk
  rw [(h5 [0, 0] (by rw [hs]; decide)).1]
  decide +kernel

/-- **C36 is false for axes that are not sorted**: with `axes=(1, 0)` on an image of shape `(1, 3)` the counts are laid out with
their axes swapped, and the result has shape `(3, 3)`. -/
theorem C36_unsorted_wrong_shape : ((SepPool.avgInit (.leaf (some 3)) (.leaf (some 1))).toOption.bind fun pool =>
    (SepPool.avgForwardExclude pool (some ((Example.modeArgs .constant).padder 1)) (fun _ => 0) (⟨[1, 3], [1, 2, 3], rfl⟩ : Tensor ℚ)
      (.seq [1, 0])).2.toOption.map (·.shape)) = some [3, 3] := by
  decide +kernel

/-- **C36 is false for axes that are not sorted**: with `axes=(1, 0)` on an image of shape `(2, 3)` the call raises -/
theorem C36_unsorted_error : ((SepPool.avgInit (.leaf (some 3)) (.leaf (some 1))).toOption.map fun pool =>
    (SepPool.avgForwardExclude pool (some ((Example.modeArgs .constant).padder 1)) (fun _ => 0) Example.x (.seq [1, 0])).2.toOption.isNone) =
      some true := by
  decide +kernel

/-! ## C39 -/

section
variable {w : List α} {dim : Int} {d s dil : Nat}

/-- **C39**, any dilation, if no axis is empty: the result is the dilated sliding-window product along `dim` (negative or not).

Partial: see `C39_empty_axis_false`. -/
theorem C39_any_conv_partial (hdim : normAxis x.ndim dim = some d) (hpos : ∀ n ∈ x.shape, 0 < n) (hw : w ≠ []) (hs : 0 < s)
    (hdil : 0 < dil) (hf : dil * (w.length - 1) < x.shape.getD d 0) :
    anyConv1d x w dim s dil = .ok (slideDilated x d w s dil) := anyConv1d_eq hdim hpos hw hs hdil hf

/-- **C39**, dilation one: `any_conv_1d(x, w, dim, stride)` is `x.unfold(dim, len(w), stride) @ w`, also if that is an error. -/
theorem C39_any_conv_unfold_partial (hdim : normAxis x.ndim dim = some d) (hpos : ∀ n ∈ x.shape, 0 < n) (hw : w ≠ []) (hs : 0 < s) :
    anyConv1d x w dim s 1 = (x.unfold d w.length s).bind fun y => y.matvec w := by
  have hd : d < x.ndim := by
    rw [normAxis] at hdim
    split_ifs at hdim with h1 h2 <;> simp only [Option.some.injEq] at hdim <;> omega
  have hl := List.length_pos_iff.2 hw
  by_cases hf : w.length ≤ x.shape.getD d 0
  · have := anyConv1d_eq (dil := 1) hdim hpos hw hs Nat.one_pos (by omega)
    rw [slideDilated_one hw] at this
    rw [unfold_matvec hd hw hs hf]
    exact this
  · have := anyConv1d_too_long (dil := 1) (s := s) hdim hpos hw Nat.one_pos (by omega)
    rw [Tensor.unfold, if_pos hd, if_pos (by omega)]
    exact this

/-- **C39**: an axis that does not exist is refused (IndexError) -/
theorem C39_bad_axis (hdim : normAxis x.ndim dim = none) (stride dilation : Int) : anyConv1d x w dim stride dilation = .error .index := by
  have : convDim x.ndim dim = .error .index := by
    rw [normAxis] at hdim
    rw [convDim]
    split_ifs at hdim with h1 h2
    rw [if_neg]
    split_ifs <;> omega
  simp only [anyConv1d, this, bind, Except.bind]

end

/-- the moving sum of two columns, from the back: `[[1, 2, 3], [4, 5, 6]]` along axis `-1` -/
example : anyConv1d Example.x [1, 1] (-1) 1 1 = .ok (slideDilated Example.x 1 [1, 1] 1 1) ∧
    (slideDilated Example.x 1 [1, 1] 1 1).get [1, 0] = 9 := by
  refine ⟨C39_any_conv_partial (by decide) (by decide) (by decide) (by decide) (by decide) (by decide), ?_⟩
  decide +kernel

/-- **C39 is false if another axis is empty**: the reshaping cannot determine the size of the convolved axis (RuntimeError), but
the sliding-window product is defined -/
theorem C39_empty_axis_false : anyConv1d (⟨[0, 3], [], rfl⟩ : Tensor ℚ) [1] 1 1 1 = .error .runtime ∧
    (((⟨[0, 3], [], rfl⟩ : Tensor ℚ).unfold 1 1 1).bind fun y => y.matvec [1]) = .ok ⟨[0, 3], [], rfl⟩ := by
  constructor
  · rfl
  · rfl

/-- **C34**: `AvgPoolNd` refuses a negative kernel size with a ValueError, whatever the stride -/
theorem C34_average_negative {α : Type} [Field α] [LinearOrder α] [IsStrictOrderedRing α] {k : Int} (hk : k < 0) (st : Py (Option Int)) :
    (SepPool.avgInit (.leaf (some k)) st : Except Err (SepPool α)) = .error .value := by
  have e : NdSpec.ofItem [] (Py.leaf (some k)) = .ok _ := ofItem_leaf0 _
  simp only [SepPool.avgInit, e, bind, Except.bind, NdSpec.map]
  simp [recApply, SepPool.avgItem, hk]

end TI
