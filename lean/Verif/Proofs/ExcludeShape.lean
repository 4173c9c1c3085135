import Verif.Proofs.Exclude

/-!
# `AvgPoolNd(count_include_pad=False)`: when the result has the right shape
-/

set_option linter.unusedSectionVars false

namespace TI
open Tensor Spec

/-- two shapes of equal rank broadcast to the first one only if the entries of the second are those of the first, or 1 -/
theorem bshape_left {s t : List Nat} (hl : t.length = s.length) (h : bshape s t = some s) : ∀ k < s.length, t.getD k 0 = s.getD k 0 ∨ t.getD k 0 = 1 := by
  have e1 : padOnes (max s.length t.length) s = s := by simp [padOnes, hl]
  have e2 : padOnes (max s.length t.length) t = t := by simp [padOnes, hl]
  rw [bshape] at h
  simp only [e1, e2] at h
  split_ifs at h with hall
  intro k hk
  have hk' : k < t.length := by omega
  have h1 := congrArg (fun l => l.getD k 0) (Option.some.inj h)
  rw [List.all_eq_true] at hall
  have h2 := hall _ (List.mem_iff_getElem.2 ⟨k, by simp; omega, rfl⟩)
  simp [hk, hk'] at h1 h2 ⊢
  by_cases h3 : s[k] = 1
  · have := h1 h3
    omega
  · omega

section
variable {α : Type} [Field α] [LinearOrder α] [IsStrictOrderedRing α]
variable {pool : SepPool α} {g : PoolArgs α} {m : Nat} {gp : PadArgs α} {x : Tensor α} {ax : Axes} {axes : List Nat}

/-- lists with equal sums, one below the other -/
theorem eq_of_sum_eq {l : List Nat} {f g : Nat → Nat} (h : ∀ i ∈ l, f i ≤ g i) (hs : (l.map f).sum = (l.map g).sum) : ∀ i ∈ l, f i = g i := by
  induction l with
  | nil => simp
  | cons a l ih =>
    have h1 := h a (by simp)
    have h2 : (l.map f).sum ≤ (l.map g).sum := List.sum_le_sum fun i hi => h i (by simp [hi])
    simp only [List.map_cons, List.sum_cons] at hs
    intro i hi
    rcases List.mem_cons.1 hi with rfl | hi
    · omega
    · exact ih (fun i hi => h i (by simp [hi])) (by omega) i hi

theorem PoolIs.exclude_shape (h : PoolIs pool g m) (hc : SameCall g gp x ax axes) (hm : g.isMany = true → axes.length = m)
    {p : Padder α} (hp : Holds p gp) (hne : ∀ o ∈ g.ops axes, o.kernel ≠ [])
    (hz : ∀ i < axes.length, gp.mode.entry .unknown i = .constant) (junk : List Nat → α) {r : Tensor α}
    (hr : (SepPool.avgForwardExclude pool (some p) junk x ax).2 = .ok r) (hrs : r.shape = (poolSeq (padSeq x (sameOps g gp x.shape axes)) (g.ops axes)).shape) :
    ∀ i < axes.length, g.outSize x.shape axes ((SepPool.argsort (castV axes)).getD i 0) = g.outSize x.shape axes i := by
  obtain ⟨hca, hlt⟩ := checkAxes_spec hc.axes_eq
  have hpos : 0 < axes.length := List.length_pos_iff.2 hc.ne
  set idx := SepPool.argsort (castV axes) with hidx
  have hidxp : idx.Perm (List.range axes.length) := by
    have := argsort_perm (castV axes)
    rwa [show (castV axes).length = axes.length by simp [castV]] at this
  have hidxl : idx.length = axes.length := by rw [hidxp.length_eq, List.length_range]
  have hidxm : ∀ i ∈ idx, i < axes.length := fun i hi => List.mem_range.1 (hidxp.mem_iff.1 hi)
  have hsort : idx.map (fun i => axes.getD i 0) = (List.range x.ndim).filter fun k => decide (k ∈ axes) := argsort_sorted hc.nodup hlt
  have hmany : ∀ {i}, i < axes.length → (g.isMany = true → i < m) := fun hi hh => by rw [← hm hh]; exact hi
  -- the call
  have hfw := h.forward_same (ax := .seq (castV axes)) { hc with axes_eq := normAxes_castV hlt } hm hp junk
  set y := poolSeq (padSeq x (sameOps g gp x.shape axes)) (g.ops axes) with hy
  set p' : Padder α := (gp.withWidths (g.widths x.shape axes)).padder axes.length with hp'
  have hperm : (idx.map (g.op axes)).Perm (g.ops axes) := hidxp.map _
  set ops := idx.map (g.op axes) with hops
  have hyc : y = corrNd (padSeq x (sameOps g gp x.shape axes)) ops := by
    rw [hy, poolSeq_perm hperm.symm hc.poolOps]
    exact poolSeq_eq_corrNd (hc.poolOps.perm hperm.symm) (fun o ho => hne o (hperm.mem_iff.1 ho))
  have hnd : axes.Nodup := hc.nodup
  have hyndim : y.shape.length = x.ndim := by
    have : y.ndim = x.ndim := by rw [hy, poolSeq_ndim, padSeq_ndim hc.opsOK]
    exact this
  -- lists over the sorted axes
  have hks : SepPool.collect (fun i => (pool.kernelSize.get (i : Int)).bind SepPool.asSize) (List.range (castV axes).length) =
      .ok ((List.range axes.length).map fun i => ((g.op axes i).kernel.length : Int)) := by
    rw [SepPool.collect, show (castV axes).length = axes.length by simp [castV]]
    apply sequence_map
    intro i hi
    exact h.getSize (hmany (List.mem_range.1 hi))
  have e1 : SepPool.collect (fun i => (pyIndex (castV axes) (i : Int)).bind fun a => pyIndex x.shape a) idx =
      .ok (idx.map fun i => x.shape.getD (axes.getD i 0) 0) := by
    apply sequence_map
    intro i hi
    have hi' := hidxm i hi
    have hcl : i < (castV axes).length := by simpa [castV] using hi'
    have ha : axes.getD i 0 < x.shape.length := hlt _ (by simp [hi'])
    rw [pyIndex_nat hcl, show (castV axes)[i] = ((axes.getD i 0 : Nat) : Int) by simp [castV, hi']]
    simp only [Except.bind]
    rw [pyIndex_nat ha]
    simp only [List.getD_eq_getElem?_getD] at ha ⊢
    simp [ha]
  have e2 : SepPool.collect (fun i => p'.padWidth.get (i : Int)) idx = .ok (idx.map fun i => PadArgs.pyWidth
      (PoolArgs.samePair (g.op axes i).kernel.length (g.op axes i).stride (x.shape.getD (axes.getD i 0) 0))) := by
    apply sequence_map
    intro i hi
    have hi' := hidxm i hi
    have := (isSpec_specOf [2] PadArgs.pyWidth (.many (g.widths x.shape axes))).get (m := axes.length)
      (by simp [Given.Fits, PoolArgs.widths]) (0, 0) (i := i) (fun _ => hi')
    refine Eq.trans this ?_
    simp [Given.entry, PoolArgs.widths, hi']
  have e3 : SepPool.collect (fun i => (pool.kernelSize.get (i : Int)).bind SepPool.asSize) idx =
      .ok (idx.map fun i => ((g.op axes i).kernel.length : Int)) := by
    apply sequence_map
    intro i hi
    exact h.getSize (hmany (hidxm i hi))
  have e4 : SepPool.collect (fun i => (pool.stride.get (i : Int)).bind SepPool.asSize) idx =
      .ok (idx.map fun i => ((g.op axes i).stride : Int)) := by
    apply sequence_map
    intro i hi
    exact h.getStride (hmany (hidxm i hi)) axes
  -- the counts
  let c : CountArgs := ⟨.many (idx.map fun i => x.shape.getD (axes.getD i 0) 0), .many (idx.map fun i =>
    PoolArgs.samePair (g.op axes i).kernel.length (g.op axes i).stride (x.shape.getD (axes.getD i 0) 0)),
    .many (idx.map fun i => (g.op axes i).kernel.length), .many (idx.map fun i => (g.op axes i).stride)⟩
  have hcount : c.count axes.length = axes.length := by simp [c, CountArgs.count, CountArgs.isMany, Given.isMany]
  have cent : ∀ {γ : Type} (f : Nat → γ) (d : γ) {i : Nat}, i < axes.length → (Given.many (idx.map f)).entry d i = f (idx.getD i 0) := by
    intro γ f d i hi
    have hi' : i < idx.length := by omega
    simp [Given.entry, hi']
  have hidxg : ∀ {i}, i < axes.length → idx.getD i 0 < axes.length := fun hi => hidxm _ (getD_mem_lt (by omega))
  obtain ⟨z, z1, z2, z3⟩ := nOriginalNd_spec (c := c) hpos ⟨by simp [c, Given.Fits, hidxl], by simp [c, Given.Fits, hidxl],
    by simp [c, Given.Fits, hidxl], by simp [c, Given.Fits, hidxl]⟩
    (by
      intro i hi
      rw [hcount] at hi
      rw [cent _ _ hi]
      exact List.length_pos_iff.2 (hne _ (mem_ops.2 ⟨_, hidxg hi, rfl⟩)))
    (by
      intro i hi
      rw [hcount] at hi
      rw [cent _ _ hi]
      exact hc.stride _ (hidxg hi))
  have hz1 := hz
  have hwin : ∀ i < axes.length, c.windows i = g.outSize x.shape axes (idx.getD i 0) := by
    intro i hi
    simp only [CountArgs.windows, c]
    rw [cent _ _ hi, cent _ _ hi, cent _ _ hi, cent _ _ hi, PoolArgs.outSize]
    have hk := List.length_pos_iff.2 (hne _ (mem_ops.2 ⟨_, hidxg hi, rfl⟩))
    rw [← sameTotal_windows hk (hc.stride _ (hidxg hi)) (hc.pos _ (getD_mem_lt (hidxg hi)))]
    congr 1
    simp only [PoolArgs.samePair]
    generalize PoolArgs.sameTotal _ _ _ = T
    omega
  have hout : ∀ i < axes.length, y.shape.getD (axes.getD i 0) 0 = g.outSize x.shape axes i := fun i hi => hc.outSize_eq hne hz1 hi
  have z2' : z.shape = idx.map fun i => y.shape.getD (axes.getD i 0) 0 := by
    rw [z2, hcount, ← map_index_range idx, hidxl]
    apply List.map_congr_left
    intro i hi
    rw [List.mem_range] at hi
    rw [hwin i hi, hout _ (hidxg hi)]
  have hzl : z.shape.length = axes.length := by rw [z2']; simp [hidxl]

  have hzg : ∀ i < axes.length, z.shape.getD i 0 = g.outSize x.shape axes (idx.getD i 0) := by
    intro i hi
    have hi' : i < idx.length := by omega
    rw [← hout _ (hidxg hi), z2']
    simp [hi']
  -- the shape
  have hcs := countShape_eq (axes := axes) (zs := z.shape) (idx := idx) (s := List.replicate y.ndim 1)
    (fun i hi => ⟨hidxm i hi, by rw [hzl]; exact hidxm i hi⟩) (by
      intro a ha
      rw [List.length_replicate]
      change a < y.shape.length
      rw [hyndim]
      exact hlt a ha)
  set S := idx.foldl (fun s i => s.set (axes.getD i 0) (z.shape.getD i 0)) (List.replicate y.ndim 1) with hS
  have hSl : S.length = y.shape.length := by
    rw [hS, setFold_length (f := fun i => axes.getD i 0) (v := fun i => z.shape.getD i 0), List.length_replicate]
    rfl
  have hSg : ∀ i < axes.length, S.getD (axes.getD i 0) 0 = g.outSize x.shape axes (idx.getD i 0) := by
    intro i hi
    have hinj : ∀ j ∈ idx, z.shape.getD j 0 = (fun k => z.shape.getD (axes.idxOf k) 0) (axes.getD j 0) := by
      intro j hj
      have hj' := hidxm j hj
      have : axes.idxOf (axes.getD j 0) = j := by
        rw [show axes.getD j 0 = axes[j] by simp [hj']]
        exact hnd.idxOf_getElem j hj'
      simp only [this]
    have := setFold_getD (f := fun i => axes.getD i 0) (v := fun i => z.shape.getD i 0) (V := fun k => z.shape.getD (axes.idxOf k) 0) hinj
      (s := List.replicate y.ndim 1) (by
        intro i hi
        rw [List.length_replicate]
        change axes.getD i 0 < y.shape.length
        rw [hyndim]
        exact hlt _ (by simp [hidxm i hi])) (axes.getD i 0)
    rw [hS, this, if_pos (List.mem_map.2 ⟨i, hidxp.mem_iff.2 (List.mem_range.2 hi), rfl⟩)]
    exact (hinj i (hidxp.mem_iff.2 (List.mem_range.2 hi))).symm.trans (hzg i hi)
  have hcnd : (castV axes).Nodup := hnd.map Nat.cast_injective
  simp only [SepPool.avgForwardExclude, hca, hks, if_pos hcnd, hfw] at hr
  simp only [← hidx, e1, e2, e3, e4, ok_bind] at hr
  have hn : nOriginalNd (.seq ((idx.map fun i => x.shape.getD (axes.getD i 0) 0).map fun (n : Nat) => Py.leaf (n : Int)))
      (.seq (idx.map fun i => PadArgs.pyWidth
        (PoolArgs.samePair (g.op axes i).kernel.length (g.op axes i).stride (x.shape.getD (axes.getD i 0) 0))))
      (.seq ((idx.map fun i => ((g.op axes i).kernel.length : Int)).map Py.leaf))
      (.seq ((idx.map fun i => ((g.op axes i).stride : Int)).map Py.leaf)) = .ok z := by
    rw [← z1]
    simp only [c, Given.toPy, List.map_map]
    rfl
  simp only [hn, hcs, ok_bind] at hr
  -- the reshaped counts
  rcases hw : (z.map fun c => ((c : Int) : α)).reshape S with e | w
  · rw [hw] at hr; cases hr
  rw [hw, ok_bind] at hr
  have hws : w.shape = S := by
    simp only [Tensor.reshape] at hw
    split_ifs at hw
    cases hw
    rfl
  have hb1 : ∀ c : α, Tensor.bop (fun a b => a * b) y (Tensor.scalar c) =
      .ok (ofFn y.shape fun ix => y.get (bidx y.shape ix) * (Tensor.scalar c).get (bidx (Tensor.scalar c).shape ix)) := by
    intro c
    rw [Tensor.bop, show (Tensor.scalar c).shape = [] from rfl, bshape_nil]
  rw [hb1, ok_bind, Tensor.bop, shape_ofFn, hws] at hr
  cases hbs : bshape y.shape S with
  | none => rw [hbs] at hr; cases hr
  | some u =>
    rw [hbs] at hr
    cases hr
    have hu : u = y.shape := hrs
    rw [hu] at hbs
    have hle := bshape_left hSl hbs
    have hpoint : ∀ i ∈ List.range axes.length, (fun i => g.outSize x.shape axes (idx.getD i 0)) i ≤ (fun i => g.outSize x.shape axes i) i := by
      intro i hi
      rw [List.mem_range] at hi
      have h1 := hle (axes.getD i 0) (by rw [hyndim]; exact hlt _ (getD_mem_lt hi))
      rw [hSg i hi, hout i hi] at h1
      have h2 : 0 < g.outSize x.shape axes i := (ceilDiv_bounds (hc.stride i hi) (hc.pos _ (getD_mem_lt hi))).1
      simp only
      omega
    have hsum : ((List.range axes.length).map fun i => g.outSize x.shape axes (idx.getD i 0)).sum = ((List.range axes.length).map fun i => g.outSize x.shape axes i).sum := by
      rw [← hidxl, map_index_range idx (fun i => g.outSize x.shape axes i), hidxl]
      exact (hidxp.map _).sum_eq
    intro i hi
    exact eq_of_sum_eq hpoint hsum i (List.mem_range.2 hi)

end

end TI
