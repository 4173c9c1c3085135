import Verif.Props.SsimOne

/-!
# SSIM with averages over original samples only (`AvgPoolNd(count_include_pad=False)`)
-/

namespace TI
open Tensor Spec

set_option linter.unusedSectionVars false

section
variable {α : Type} [Field α] [LinearOrder α] [IsStrictOrderedRing α]

/-- the mean of the original samples in the window around each position -/
def Spec.localMean (g : Given (List α)) (axes : List Nat) (x : Tensor α) : Tensor α :=
  ofFn x.shape fun ix => mean ((seen x.shape ((PoolArgs.filter g).ops axes) ix).map x.get)

/-- A call of `AvgPoolNd(size, count_include_pad=False)` as a filter: non-empty uniform kernels, a same padder that fills with zeros, and
axes in increasing order or of equal sizes (for other orders see `C36_unsorted_wrong_shape` and `C36_unsorted_error`). -/
structure Spec.ExcludeCall (size : Given Nat) (gp : PadArgs α) (x : Tensor α) (ax : Axes) (axes : List Nat) : Prop extends
    SameCall (PoolArgs.filter (size.map avgKernel)) gp x ax axes where
  size_pos : ∀ i < axes.length, 0 < size.entry 0 i
  zero : ∀ i < axes.length, gp.mode.entry .unknown i = .constant ∧ gp.cv.entry (0, 0) i = (0, 0)
  order : axes.Pairwise (· < ·) ∨ ∃ n, ∀ i < axes.length, x.shape.getD (axes.getD i 0) 0 = n

/-- what is known of an SSIM object built from `AvgPoolNd(size, count_include_pad=False)` -/
structure SsimExcl (s : SSIM α) (g : Given (List α)) (m : Nat) (k1 k2 : α) (sc cr : Bool) : Prop where
  exclude : s.exclude = true
  base : SsimOf { s with exclude := false } g m k1 k2 sc cr

variable {s : SSIM α} {pool : SepPool α} {size : Given Nat} {st : Given (Option Nat)} {gp : PadArgs α} {m : Nat} {x y y1 y2 : Tensor α} {ax rax : Axes}
  {axes raxes : List Nat} {k1 k2 : α} {sc cr : Bool}

theorem ssimExcl (hi : SSIM.init pool true k1 k2 sc cr = .ok s) (hb : Built pool (avgArgs α size st) m) :
    SsimExcl s (size.map avgKernel) m k1 k2 sc cr := by
  obtain ⟨pool', e, h⟩ := hb.poolIs.1.toFilter
  rw [SSIM.init, e, ok_bind] at hi
  cases hi
  exact ⟨rfl, ⟨h, rfl, rfl, rfl, rfl, rfl⟩⟩

theorem filter_kernel (size : Given Nat) (axes : List Nat) (i : Nat) :
    ((PoolArgs.filter (size.map (avgKernel (α := α)))).op axes i).kernel = avgKernel (size.entry 0 i) :=
  given_entry_map (avgKernel (α := α)) size 0 i

theorem Spec.ExcludeCall.congr (h : ExcludeCall size gp x ax axes) (hs : y.shape = x.shape) : ExcludeCall size gp y ax axes where
  toSameCall := h.toSameCall.congr hs
  size_pos := h.size_pos
  zero := h.zero
  order := by rw [hs]; exact h.order

theorem Spec.ExcludeCall.seq (h : ExcludeCall size gp x ax axes) : ExcludeCall size gp x (.seq (castV axes)) axes where
  toSameCall := SameCall_seq h.toSameCall
  size_pos := h.size_pos
  zero := h.zero
  order := h.order

theorem Spec.ExcludeCall.kernels_ne (h : ExcludeCall size gp x ax axes) : ∀ o ∈ (PoolArgs.filter (size.map (avgKernel (α := α)))).ops axes, o.kernel ≠ [] := by
  intro o ho
  obtain ⟨i, hi, rfl⟩ := mem_ops.1 ho
  rw [← List.length_pos_iff, filter_kernel, avgKernel_length]
  exact h.size_pos i hi

theorem Spec.ExcludeCall.avg (_ : ExcludeCall size gp x ax axes) :
    ∀ o ∈ (PoolArgs.filter (size.map (avgKernel (α := α)))).ops axes, o.kernel = avgKernel o.kernel.length := by
  intro o ho
  obtain ⟨i, hi, rfl⟩ := mem_ops.1 ho
  rw [filter_kernel, avgKernel_length]

theorem Spec.ExcludeCall.sizes (h : ExcludeCall size gp x ax axes) : ∀ i < axes.length,
    (PoolArgs.filter (size.map (avgKernel (α := α)))).outSize x.shape axes ((SepPool.argsort (castV axes)).getD i 0) =
      (PoolArgs.filter (size.map (avgKernel (α := α)))).outSize x.shape axes i := by
  intro i hi
  rcases h.order with ho | ⟨n, ho⟩
  · rw [argsort_increasing ho hi]
  · have hl : (SepPool.argsort (castV axes)).length = axes.length := by rw [(argsort_perm _).length_eq, List.length_range]; simp [castV]
    have hj : (SepPool.argsort (castV axes)).getD i 0 < axes.length := by
      have := (argsort_perm _).mem_iff.1 (getD_mem_lt (l := SepPool.argsort (castV axes)) (i := i) (by omega))
      rwa [List.mem_range, show (castV axes).length = axes.length by simp [castV]] at this
    simp only [PoolArgs.outSize, filter_stride]
    rw [ho _ hj, ho i hi]

theorem Spec.ExcludeCall.periodize (h : ExcludeCall size gp x ax axes) :
    ∀ i < axes.length, (gp.mode.entry .unknown i).isPeriodize = false ∨ x.shape.getD (axes.getD i 0) 0 % 2 = 0 :=
  fun i hi => Or.inl (by rw [(h.zero i hi).1]; rfl)

theorem Spec.ExcludeCall.run (h : ExcludeCall size gp x ax axes) (hs : PoolIs pool (PoolArgs.filter (size.map avgKernel)) m)
    (hm : (size.map (avgKernel (α := α))).isMany = true → axes.length = m) {p : Padder α} (hp : Holds p gp) (junk : List Nat → α) :
    SepPool.avgForwardExclude pool (some p) junk x ax = (padderAfter (size.map avgKernel) (some gp) x.shape axes,
      .ok (localMean (size.map avgKernel) axes x)) ∧
    ∀ ix, InB x.shape ix → seen x.shape ((PoolArgs.filter (size.map (avgKernel (α := α)))).ops axes) ix ≠ [] := by
  obtain ⟨r, h1, h2, h3⟩ := hs.exclude h.toSameCall (by rw [filter_isMany]; exact hm) hp h.kernels_ne h.avg h.zero h.sizes junk
  have hsh : r.shape = x.shape := h2.trans (blur_shape_kept h.toSameCall h.periodize)
  rw [hsh] at h3
  refine ⟨?_, fun ix hix => (h3 ix hix).2⟩
  rw [h1]
  have : r = localMean (size.map avgKernel) axes x := by
    apply ext_get (show r.shape = (localMean (size.map avgKernel) axes x).shape from hsh)
    intro ix hix
    rw [hsh] at hix
    rw [(h3 ix hix).1, localMean, get_ofFn hix]
  rw [this]
  rfl

theorem exclude_steady (hs : SsimExcl s (size.map avgKernel) m k1 k2 sc cr) (hm : (size.map (avgKernel (α := α))).isMany = true → axes.length = m)
    (hc : ExcludeCall size gp x ax axes) (junk : List Nat → α) :
    Steady s junk (castV axes) (fun p => ∃ p', p = some p' ∧ Holds p' gp) (padderAfter (size.map avgKernel) (some gp) x.shape axes) x.shape x.shape
      (localMean (size.map avgKernel) axes) where
  run := by
    rintro _ ⟨p, rfl, hp⟩ y hy
    simp only [SSIM.blur, hs.exclude, if_true]
    rw [((hc.congr hy).seq.run hs.base.pool hm hp junk).1, hy]
  post := ⟨_, rfl, holds_withWidths _ _ _⟩
  shape := fun y hy => hy

/-! ## the moments -/

theorem mean_possible {l : List (List Nat)} (hl : l ≠ []) {u1 u2 s11 s22 s12 : Tensor α}
    (h : ∀ ix ∈ l, Possible (u1.get ix) (u2.get ix) (s11.get ix) (s22.get ix) (s12.get ix)) :
    Possible (mean (l.map u1.get)) (mean (l.map u2.get)) (mean (l.map s11.get)) (mean (l.map s22.get)) (mean (l.map s12.get)) := by
  have e : ∀ u : Tensor α, mean (l.map u.get) = statVal .mean ((List.range l.length).map fun j => u.get (l.getD j [])) := by
    intro u
    have : l.map u.get = (List.range l.length).map fun j => u.get (l.getD j []) := by
      apply List.ext_getElem (by simp)
      intro j hj _
      have hj' : j < l.length := by simpa using hj
      simp [hj']
    rw [mean, this]
    rfl
  rw [e, e, e, e, e]
  apply Possible.mean (List.length_pos_iff.2 hl)
  intro j hj
  exact h _ (by simp [hj])

theorem mem_seen {shape : List Nat} {ops : List (PoolOp α)} {ix jx : List Nat} : jx ∈ seen shape ops ix ↔ InB shape jx ∧ Sees shape ops ix jx := by
  rw [seen, List.mem_filter, mem_indices, decide_eq_true_eq]

theorem localMean_possible (hs : PoolIs pool (PoolArgs.filter (size.map avgKernel)) m)
    (hm : (size.map (avgKernel (α := α))).isMany = true → axes.length = m) (hc : ExcludeCall size gp y1 ax axes) (h12 : y2.shape = y1.shape)
    {p : Padder α} (hp : Holds p gp) :
    PossibleAt (localMean (size.map avgKernel) axes y1) (localMean (size.map avgKernel) axes y2)
      (localMean (size.map avgKernel) axes (times y1 y1)) (localMean (size.map avgKernel) axes (times y2 y2))
      (localMean (size.map avgKernel) axes (times y1 y2)) where
  shape2 := h12
  shape11 := rfl
  shape22 := h12
  shape12 := rfl
  possible := by
    intro ix hix
    have hix' : InB y1.shape ix := hix
    have hpt := possibleAt_times h12.symm
    have hne := (hc.run hs hm hp (fun _ => 0)).2 ix hix'
    simp only [localMean, times_shape, h12]
    rw [get_ofFn hix', get_ofFn hix', get_ofFn hix', get_ofFn hix', get_ofFn hix']
    exact mean_possible hne fun jx hjx => hpt.possible jx (mem_seen.1 hjx).1

/-- every position lies in its own window -/
theorem self_seen (hc : ExcludeCall size gp x ax axes) {ix : List Nat} (hix : InB x.shape ix) :
    ix ∈ seen x.shape ((PoolArgs.filter (size.map (avgKernel (α := α)))).ops axes) ix := by
  refine mem_seen.2 ⟨hix, ?_, fun _ _ _ => rfl⟩
  intro o ho
  have hl := List.length_pos_iff.2 (hc.kernels_ne o ho)
  obtain ⟨i, hi, rfl⟩ := mem_ops.1 ho
  simp only [PoolOp.before, PoolArgs.samePair, filter_stride, sameTotal_one] at *
  omega

/-! ## inside the border -/

/-- inside the border the mean of the original samples is the mean over the window -/
theorem localMean_cropOf (hs : PoolIs pool (PoolArgs.filter (size.map avgKernel)) m)
    (hm : (size.map (avgKernel (α := α))).isMany = true → axes.length = m) (hc : ExcludeCall size gp x ax axes)
    (hk : ∀ i < axes.length, size.entry 0 i ≤ x.shape.getD (axes.getD i 0) 0) :
    CropOf (sameOps (PoolArgs.filter (size.map avgKernel)) gp x.shape axes) (valid (size.map avgKernel) axes x)
      (localMean (size.map avgKernel) axes x) := by
  set g : Given (List α) := size.map avgKernel with hg
  have hkl : ∀ i < axes.length, (g.entry [] i).length ≤ x.shape.getD (axes.getD i 0) 0 := by
    intro i hi
    have := filter_kernel (α := α) size axes i
    rw [show g.entry [] i = _ from this, avgKernel_length]
    exact hk i hi
  have hf := fitting_of_sizes hc.toSameReq hkl
  have hcr := filtered_cropOf hc.toSameCall hf
  have hsh : (filtered g gp x axes).shape = x.shape := blur_shape_kept hc.toSameCall hc.periodize
  -- the relation of the two means, for every tensor of this shape
  have key : ∀ y : Tensor α, y.shape = x.shape → ∀ ix, InB x.shape ix → (filtered g gp y axes).get ix *
      (((PoolArgs.filter g).ops axes).map fun o => (o.kernel.length : α)).prod /
        ((((indices (((PoolArgs.filter g).ops axes).map fun o => o.kernel.length)).countP
          fun j => decide (Original x.shape ((PoolArgs.filter g).ops axes) (corrSource ((PoolArgs.filter g).ops axes) ix j)) : Nat)) : α) =
      mean ((seen x.shape ((PoolArgs.filter g).ops axes) ix).map y.get) := by
    intro y hy ix hix
    have hcy := hc.congr hy
    have hzf : ∀ o ∈ sameOps (PoolArgs.filter g) gp y.shape axes, ZeroFill o.2 := by
      intro o ho
      obtain ⟨i, hi, rfl⟩ := sameOps_mem ho
      exact hc.zero i hi
    have e : filtered g gp y axes = corrNd (padSeq y (sameOps (PoolArgs.filter g) gp y.shape axes)) ((PoolArgs.filter g).ops axes) :=
      poolSeq_eq_corrNd hcy.poolOps hcy.kernels_ne
    have hshy : (filtered g gp y axes).shape = y.shape := blur_shape_kept hcy.toSameCall hcy.periodize
    have := pooled_mean hzf hcy.lt (hcy.padsFor (List.Perm.refl _)) hcy.poolOps hcy.kernels_ne hcy.avg (ix := ix) (by rw [← e, hshy, hy]; exact hix)
    rw [← e] at this
    rwa [hy] at this
  refine ⟨?_, ?_, ?_⟩
  · have := hcr.ndim
    rw [ndim, ndim, hsh] at this
    exact this
  · intro k hk'
    have := hcr.size k hk'
    rw [hsh] at this
    exact this
  · intro ix hix
    have hin : InB x.shape (embed (sameOps (PoolArgs.filter g) gp x.shape axes) ix) := hsh ▸ hcr.inB hix
    set e := embed (sameOps (PoolArgs.filter g) gp x.shape axes) ix
    -- on a tensor of ones both means are one
    let one : Tensor α := ofFn x.shape fun _ => 1
    have h1 := key one rfl e hin
    have hne := (hc.run hs hm (holds_withWidths gp [] axes.length) (fun _ => 0)).2 e hin
    have hone : mean ((seen x.shape ((PoolArgs.filter g).ops axes) e).map one.get) = 1 := by
      have : (seen x.shape ((PoolArgs.filter g).ops axes) e).map one.get = (seen x.shape ((PoolArgs.filter g).ops axes) e).map fun _ => (1 : α) := by
        apply List.map_congr_left
        intro jx hjx
        exact get_ofFn (mem_seen.1 hjx).1
      rw [this, mean]
      have hl : ((seen x.shape ((PoolArgs.filter g).ops axes) e).length : α) ≠ 0 := by
        exact_mod_cast (List.length_pos_iff.2 hne).ne'
      simp [hl]
    have hcr1 := filtered_cropOf (hc.congr (y := one) rfl).toSameCall (Fitting_congr (x := x) rfl hf)
    have hv1 : (valid g axes one).get ix = 1 := by
      have hpo : PoolOps one ((PoolArgs.filter g).ops axes) := poolOps_of_sizes (hc.congr (y := one) rfl).toSameReq hkl
      have hb : Between 1 1 one := fun jx hjx => by
        have : one.get jx = 1 := get_ofFn hjx
        rw [this]; exact ⟨le_refl _, le_refl _⟩
      have := poolSeq_between hpo hb (by
        intro o ho hne
        rw [hc.avg o ho]
        exact avgKernel_isAverage (List.length_pos_iff.2 hne)) ix (by
          rw [show (poolSeq one ((PoolArgs.filter g).ops axes)).shape = (valid g axes x).shape from poolSeq_shape_congr rfl]
          exact hix)
      exact le_antisymm this.2 this.1
    have hf1 : (filtered g gp one axes).get e = 1 := by
      rw [← hv1]
      exact hcr1.get ix (by rw [show (valid g axes one).shape = (valid g axes x).shape from poolSeq_shape_congr rfl]; exact hix)
    rw [hf1, hone, one_mul] at h1
    have h2 := key x rfl e hin
    rw [mul_div_assoc, h1, mul_one] at h2
    rw [localMean, get_ofFn hin, ← h2]
    exact hcr.get ix hix

end

end TI
