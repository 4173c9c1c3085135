import Verif.Proofs.PoolBuilt
import Verif.Props.PadForward
import Mathlib.Tactic.IntervalCases
import Mathlib.Data.Rat.Defs
import Mathlib.Algebra.Order.Ring.Rat

/-!
# Separable pooling: C30, C31, C32, C33, C34, C35
-/

set_option linter.unusedSectionVars false

namespace TI
open Tensor Spec

variable {α : Type} [Field α] [LinearOrder α] [IsStrictOrderedRing α]
variable {pool pool' : SepPool α} {g g' : PoolArgs α} {m m' : Nat} {x y : Tensor α} {ax ax' : Axes} {axes axes' : List Nat}

/-! ## C30 -/

theorem poolSeq_filter (x : Tensor α) (ops : List (PoolOp α)) : poolSeq x (ops.filter fun o => o.kernel ≠ []) = poolSeq x ops := by
  induction ops generalizing x with
  | nil => rfl
  | cons o ops ih =>
    by_cases hk : o.kernel = []
    · rw [List.filter_cons_of_neg (by simp [hk])]
      change _ = poolSeq (slide x o) ops
      rw [ih]
      simp [slide, hk]
    · rw [List.filter_cons_of_pos (by simp [hk])]
      exact ih (slide x o)

theorem Spec.PoolOps.filter {ops : List (PoolOp α)} (h : PoolOps x ops) (q : PoolOp α → Bool) : PoolOps x (ops.filter q) where
  nodup := h.nodup.sublist (List.filter_sublist.map _)
  axis := fun o ho => h.axis o (List.mem_filter.1 ho).1
  stride := fun o ho => h.stride o (List.mem_filter.1 ho).1
  fits := fun o ho => h.fits o (List.mem_filter.1 ho).1

theorem Spec.Built.poolOps (hb : Built pool g m) (hax : axesOf x.ndim ax = some axes) (hm : g.isMany = true → axes.length = m)
    (hnd : axes.Nodup) (hsz : ∀ o ∈ g.ops axes, o.kernel.length ≤ x.shape.getD o.axis 0) : PoolOps x (g.ops axes) :=
  poolOps_of hb.poolIs.2.2 (hb.poolIs.1.fits_axes hm) hnd (checkAxes_spec hax).2 hsz

/-- **C30.** Pooling distinct axes without a padder is the n-dimensional correlation with the outer product of the kernels
(axes with an empty kernel are left alone). -/
theorem C30_separable_is_correlation (hb : Built pool g m) (hax : axesOf x.ndim ax = some axes)
    (hm : g.isMany = true → axes.length = m) (hnd : axes.Nodup)
    (hsz : ∀ o ∈ g.ops axes, o.kernel.length ≤ x.shape.getD o.axis 0) (junk : List Nat → α) :
    SepPool.forward pool none junk x ax = (none, .ok (corrNd x ((g.ops axes).filter fun o => o.kernel ≠ []))) := by
  have hp := hb.poolOps hax hm hnd hsz
  rw [hb.poolIs.1.forward_none hax hm hp.fitting junk, ← poolSeq_eq_corrNd (hp.filter _) (by simp), poolSeq_filter]

/-- **C30**, entry by entry, if no kernel is empty: the sum over all window offsets `j` of `k₁[j₁]⋯kₘ[jₘ]` times the sample at
distance `j` from the window start. -/
theorem C30_separable_entries (hb : Built pool g m) (hax : axesOf x.ndim ax = some axes)
    (hm : g.isMany = true → axes.length = m) (hnd : axes.Nodup) (hne : ∀ o ∈ g.ops axes, o.kernel ≠ [])
    (hsz : ∀ o ∈ g.ops axes, o.kernel.length ≤ x.shape.getD o.axis 0) (junk : List Nat → α) :
    ∃ z, SepPool.forward pool none junk x ax = (none, .ok z) ∧ ∀ ix, InB z.shape ix →
      z.get ix = ((indices ((g.ops axes).map fun o => o.kernel.length)).map fun j =>
        corrWeight (g.ops axes) j * x.get (corrSource (g.ops axes) ix j)).sum := by
  have e : (g.ops axes).filter (fun o => o.kernel ≠ []) = g.ops axes := by
    rw [List.filter_eq_self]
    intro o ho
    simp [hne o ho]
  refine ⟨corrNd x (g.ops axes), ?_, fun ix hix => get_ofFn hix⟩
  rw [C30_separable_is_correlation hb hax hm hnd hsz junk, e]

/-- **C30**: the constructor accepts all kernels and positive strides, one for all axes or one per axis -/
theorem C30_constructor (hm : 0 < m) (hg : g.Fits m) (hv : g.Valid) :
    ∃ pool, SepPool.init (g.kernel.toPy PoolArgs.pyKernel) (g.stride.toPy PoolArgs.pyStride) = .ok pool ∧ Built pool g m := by
  obtain ⟨pool, h, _⟩ := poolIs_init hm hg hv
  exact ⟨pool, h, .separable hm hg hv h⟩

namespace Example

/-- `SeparablePoolNd(kernel=[[1, -2], [1, 2, 3]], stride=[None, 1])` -/
def poolArgs : PoolArgs ℚ := ⟨.many [[1, -2], [1, 2, 3]], .many [none, some 1]⟩

/-- the object built from it -/
def poolObj : SepPool ℚ where
  kernel := ⟨.seq [.seq [.leaf 1, .leaf (-2)], .seq [.leaf 1, .leaf 2, .leaf 3]], [2, -1], 1⟩
  kernelSize := ⟨.seq [.leaf (some 2), .leaf (some 3)], [2], 1⟩
  stride := ⟨.seq [.leaf (some 2), .leaf (some 1)], [2], 1⟩
  ndim := 2

theorem poolObj_init : SepPool.init (poolArgs.kernel.toPy PoolArgs.pyKernel) (poolArgs.stride.toPy PoolArgs.pyStride) = .ok poolObj := by
  rfl

theorem poolObj_built : Built poolObj poolArgs 2 :=
  .separable (by decide) ⟨rfl, rfl⟩ (by intro s hs; simp [poolArgs, Given.values] at hs; rcases hs with rfl | rfl <;> simp) poolObj_init

end Example

/-- `forward([[1, 2, 3], [4, 5, 6]], axes=(0, 1))` meets the hypotheses; the only entry is
`(1 - 2·4)·1 + (2 - 2·5)·2 + (3 - 2·6)·3 = -50` -/
example (junk : List Nat → ℚ) : ∃ z, SepPool.forward Example.poolObj none junk Example.x (.seq [0, 1]) = (none, .ok z) ∧ z.get [0, 0] = -50 := by
  obtain ⟨z, h1, h2⟩ := C30_separable_entries Example.poolObj_built (x := Example.x) (ax := .seq [0, 1]) (axes := [0, 1]) (by decide)
    (fun _ => rfl) (by decide) (by decide) (by decide) junk
  refine ⟨z, h1, ?_⟩
  have hz : z.shape = [1, 1] := by
    rw [C30_separable_is_correlation Example.poolObj_built (x := Example.x) (ax := .seq [0, 1]) (axes := [0, 1]) (by decide)
      (fun _ => rfl) (by decide) (by decide) junk] at h1
    cases h1
    decide
  rw [h2 [0, 0] (by rw [hz]; decide)]
  decide +kernel

/-! ## C31 -/

theorem find_ops {g : PoolArgs α} {axes : List Nat} (hnd : axes.Nodup) {i : Nat} (hi : i < axes.length) (hk : (g.op axes i).kernel ≠ []) :
    (g.ops axes).find? (fun o => o.axis = axes.getD i 0 ∧ o.kernel ≠ []) = some (g.op axes i) := by
  rw [PoolArgs.ops, List.find?_map, Option.map_eq_some_iff]
  refine ⟨i, ?_, rfl⟩
  rw [List.find?_range_eq_some]
  refine ⟨?_, by simpa using hi, ?_⟩
  · simp only [Function.comp, PoolArgs.op] at hk ⊢
    simp [hk]
  · intro j hj
    have : axes.getD j 0 ≠ axes.getD i 0 := by
      have hj' : j < axes.length := by omega
      simp only [List.getD_eq_getElem?_getD, List.getElem?_eq_getElem hj', List.getElem?_eq_getElem hi, Option.getD_some]
      intro e
      have := (List.Nodup.getElem_inj_iff hnd).1 e
      omega
    simp only [Function.comp, PoolArgs.op] at *
    simp only [List.getD_eq_getElem?_getD] at this
    simp [this]

theorem find_ops_none {g : PoolArgs α} {axes : List Nat} {k : Nat} (hk : ∀ i < axes.length, axes.getD i 0 = k → (g.op axes i).kernel = []) :
    (g.ops axes).find? (fun o => o.axis = k ∧ o.kernel ≠ []) = none := by
  rw [List.find?_eq_none]
  intro o ho
  obtain ⟨i, hi, rfl⟩ := mem_ops.1 ho
  simp only [decide_eq_true_eq, not_and, not_not]
  exact fun e => hk i hi e

/-- **C31**, no padder: axes with a kernel of `k` weights at distance `s` get `⌊(n - k)/s⌋ + 1` entries, all others keep
their size. -/
theorem C31_valid_shape (hb : Built pool g m) (hax : axesOf x.ndim ax = some axes)
    (hm : g.isMany = true → axes.length = m) (hnd : axes.Nodup)
    (hsz : ∀ o ∈ g.ops axes, o.kernel.length ≤ x.shape.getD o.axis 0) (junk : List Nat → α) :
    ∃ z, SepPool.forward pool none junk x ax = (none, .ok z) ∧ z.ndim = x.ndim ∧
      (∀ i < axes.length, (g.op axes i).kernel ≠ [] → z.shape.getD (axes.getD i 0) 0 =
        (x.shape.getD (axes.getD i 0) 0 - (g.op axes i).kernel.length) / (g.op axes i).stride + 1) ∧
      (∀ k, (∀ i < axes.length, axes.getD i 0 = k → (g.op axes i).kernel = []) → z.shape.getD k 0 = x.shape.getD k 0) := by
  have hp := hb.poolOps hax hm hnd hsz
  refine ⟨_, hb.poolIs.1.forward_none hax hm hp.fitting junk, poolSeq_ndim _ _, ?_, ?_⟩
  · intro i hi hk
    have hmem : g.op axes i ∈ g.ops axes := mem_ops.2 ⟨i, hi, rfl⟩
    rw [poolSeq_shape hp, find_ops hnd hi hk]
    exact windowCount_pos (hp.stride _ hmem hk) (List.length_pos_iff.2 hk) (hp.fits _ hmem hk)
  · intro k hk
    rw [poolSeq_shape hp, find_ops_none hk]

theorem fitting_sizes : ∀ {ops : List (PoolOp α)} {x : Tensor α}, (ops.map (·.axis)).Nodup → Fitting x ops →
    ∀ o ∈ ops, o.kernel ≠ [] → o.kernel.length ≤ x.shape.getD o.axis 0
  | [], _, _, _, o, ho, _ => by cases ho
  | p :: ops, x, hnd, hf, o, ho, hk => by
    rcases List.mem_cons.1 ho with rfl | ho
    · exact (hf.1 hk).2.2
    · have hnd' := List.nodup_cons.1 hnd
      have := fitting_sizes hnd'.2 hf.2 o ho hk
      have hne : o.axis ≠ p.axis := fun e => hnd'.1 (List.mem_map.2 ⟨o, ho, e⟩)
      rw [slide_shape] at this
      split_ifs at this
      · exact this
      · rwa [getD_set_ne _ _ _ _ _ hne] at this

/-- **C31**: a kernel longer than its axis is refused (RuntimeError), without a padder -/
theorem C31_kernel_too_long (hb : Built pool g m) (hax : axesOf x.ndim ax = some axes)
    (hm : g.isMany = true → axes.length = m) (hnd : axes.Nodup)
    (hsz : ¬ ∀ o ∈ g.ops axes, o.kernel.length ≤ x.shape.getD o.axis 0) (junk : List Nat → α) :
    SepPool.forward pool none junk x ax = (none, .error .runtime) := by
  apply hb.poolIs.1.forward_none_error hax hm
  · intro i hi hk
    exact op_stride_pos hb.poolIs.2.2 (hb.poolIs.1.fits_axes hm) hi hk
  · intro hf
    apply hsz
    intro o ho
    by_cases hk : o.kernel = []
    · simp [hk]
    · exact fitting_sizes (by rw [ops_axis]; exact hnd) hf o ho hk

/-- **C31**: per-axis settings for another number of axes are refused (AssertionError) -/
theorem C31_wrong_number_of_axes (hb : Built pool g m) (hax : axesOf x.ndim ax = some axes) (hg : g.isMany = true)
    (hm : axes.length ≠ m) (p : Option (Padder α)) (junk : List Nat → α) :
    SepPool.forward pool p junk x ax = (p, .error .assertion) :=
  hb.poolIs.1.forward_ndim hb.poolIs.2.1 hax hg hm p junk

/-- **C31**, with a same padder (in any mode except `periodize` on an axis of odd size, see `C31_periodize_false`): axes with
stride `s` get `⌈n/s⌉` entries, all others keep their size. -/
theorem C31_same_shape_partial {gp : PadArgs α} {p : Padder α} (hb : Built pool g m) (hc : SameCall g gp x ax axes)
    (hm : g.isMany = true → axes.length = m) (hp : Holds p gp)
    (hper : ∀ i < axes.length, (gp.mode.entry .unknown i).isPeriodize = false ∨ x.shape.getD (axes.getD i 0) 0 % 2 = 0)
    (junk : List Nat → α) :
    ∃ p' z, SepPool.forward pool (some p) junk x ax = (p', .ok z) ∧ z.ndim = x.ndim ∧
      (∀ i < axes.length, (g.op axes i).kernel ≠ [] → z.shape.getD (axes.getD i 0) 0 =
        ceilDiv (x.shape.getD (axes.getD i 0) 0) (g.op axes i).stride) ∧
      (∀ k, (∀ i < axes.length, axes.getD i 0 = k → (g.op axes i).kernel = []) → z.shape.getD k 0 = x.shape.getD k 0) := by
  have hpo := hc.poolOps
  have hnd : ((sameOps g gp x.shape axes).map Prod.fst).Nodup := by rw [sameOps_fst]; exact hc.nodup
  refine ⟨_, _, hb.poolIs.1.forward_same hc hm hp junk, ?_, ?_, ?_⟩
  · rw [poolSeq_ndim, padSeq_ndim hc.opsOK]
  · intro i hi hk
    rw [poolSeq_shape hpo, find_ops hc.nodup hi hk]
    simp only
    rw [hc.padded_size hi (hper i hi)]
    exact sameTotal_windows (List.length_pos_iff.2 hk) (hc.stride i hi) (hc.pos _ (by simp [hi]))
  · intro k hk
    rw [poolSeq_shape hpo, find_ops_none hk]
    simp only
    by_cases hmem : k ∈ axes
    · obtain ⟨i, hi, rfl⟩ := List.mem_iff_getElem.1 hmem
      have e : axes[i] = axes.getD i 0 := by simp [hi]
      rw [e] at hk ⊢
      have hk0 := hk i hi rfl
      rw [hc.padded_size hi (hper i hi), hk0]
      have hs := hc.stride i hi
      have hn : 0 < x.shape.getD (axes.getD i 0) 0 := hc.pos _ (by simp [hi])
      have : PoolArgs.sameTotal ([] : List α).length (g.op axes i).stride (x.shape.getD (axes.getD i 0) 0) = 0 := by
        obtain ⟨c1, c2, c3⟩ := ceilDiv_bounds hs hn
        generalize hcd : ceilDiv (x.shape.getD (axes.getD i 0) 0) (g.op axes i).stride = c at *
        obtain ⟨c, rfl⟩ : ∃ c', c = c' + 1 := ⟨c - 1, by omega⟩
        rw [PoolArgs.sameTotal, hcd]
        simp only [Nat.add_sub_cancel] at c2 c3
        have e : ((c + 1 : Nat) : Int) * (g.op axes i).stride - (g.op axes i).stride = ((c * (g.op axes i).stride : Nat) : Int) := by
          push_cast; ring
        rw [e]
        simp only [List.length_nil, Nat.cast_zero, add_zero]
        omega
      rw [this, Nat.add_zero]
    · rw [padSeq_shape hc.opsOK hnd x hc.lt, settingAt_none (by rw [sameOps_fst]; exact hmem)]

/-- **C31**, filters: after `to_filter` a same-padded module returns a tensor of the same shape. -/
theorem C31_filter_shape_partial {gp : PadArgs α} {p : Padder α} (hb : Built pool g m) (hf : pool.toFilter = .ok pool')
    (hc : SameCall { g with stride := .one (some 1) } gp x ax axes)
    (hm : g.kernel.isMany = true → axes.length = m) (hp : Holds p gp)
    (hper : ∀ i < axes.length, (gp.mode.entry .unknown i).isPeriodize = false ∨ x.shape.getD (axes.getD i 0) 0 % 2 = 0)
    (junk : List Nat → α) :
    ∃ p' z, SepPool.forward pool' (some p) junk x ax = (p', .ok z) ∧ z.shape = x.shape := by
  obtain ⟨p', z, h1, h2, h3, h4⟩ := C31_same_shape_partial (Built.filter hb hf) hc
    (by intro h; apply hm; simpa [PoolArgs.isMany, Given.isMany] using h) hp hper junk
  refine ⟨p', z, h1, ?_⟩
  apply list_ext_getD h2
  intro k _
  by_cases hk : ∀ i < axes.length, axes.getD i 0 = k → (PoolArgs.op { g with stride := .one (some 1) } axes i).kernel = []
  · exact h4 k hk
  · push Not at hk
    obtain ⟨i, hi, rfl, hk⟩ := hk
    rw [h3 i hi hk]
    exact ceilDiv_one _

namespace Example

/-- `SeparablePoolNd(kernel=[1, 1, 1], stride=1, same_padder=..)` -/
def tri : SepPool ℚ where
  kernel := ⟨.seq [.leaf 1, .leaf 1, .leaf 1], [3], 0⟩
  kernelSize := ⟨.leaf (some 3), [], 0⟩
  stride := ⟨.leaf (some 1), [], 0⟩
  ndim := 0

def triArgs : PoolArgs ℚ := ⟨.one [1, 1, 1], .one (some 1)⟩

theorem tri_init : SepPool.init (triArgs.kernel.toPy PoolArgs.pyKernel) (triArgs.stride.toPy PoolArgs.pyStride) = .ok tri := by rfl

theorem tri_built : Built tri triArgs 1 :=
  .separable (by decide) ⟨trivial, trivial⟩ (by intro s hs; simp [triArgs, Given.values] at hs; simp [hs]) tri_init

/-- settings of `Padder(mode=mode)` -/
def modeArgs (mode : Mode ℚ) : PadArgs ℚ := ⟨.one (0, 0), .one mode, .one (0, 0), .one (0, 0), .one (none, none)⟩

/-- the object `Padder(mode="periodize")` -/
def periodizePadder : Padder ℚ := (modeArgs .periodize).padder 1

/-- a single-axis image of 3 samples -/
def x3 : Tensor ℚ := ⟨[3], [1, 2, 4], rfl⟩

theorem sameCall_reflect : SameCall triArgs (modeArgs .reflect) Example.x (.seq [-1, 0]) [1, 0] where
  axes_eq := by decide
  ne := by decide
  nodup := by decide
  fits := by intro h; cases h
  rest := ⟨trivial, trivial, trivial, trivial⟩
  stride := by intro i _; exact Nat.one_pos
  pos := by decide
  valued := by
    intro o ho _
    obtain ⟨i, _, rfl⟩ := sameOps_mem ho
    exact ⟨by simp [sameSetting, AxisPad.rule?, modeArgs, Given.entry], by simp [sameSetting, modeArgs, Given.entry]⟩

end Example

/-- a 3×3 box filter with a reflecting same padder keeps the shape `(2, 3)` -/
example (junk : List Nat → ℚ) : ∃ p' z, SepPool.forward Example.tri (some ((Example.modeArgs .reflect).padder 1)) junk Example.x (.seq [-1, 0]) =
    (p', .ok z) ∧ z.ndim = 2 ∧ z.shape.getD 0 0 = 2 ∧ z.shape.getD 1 0 = 3 := by
  obtain ⟨p', z, h1, h2, h3, _⟩ := C31_same_shape_partial Example.tri_built Example.sameCall_reflect (by intro h; cases h)
    (holds_padder _ 1) (by intro i _; left; rfl) junk
  refine ⟨p', z, h1, h2, ?_, ?_⟩
  · exact h3 1 (by decide) (by decide)
  · exact h3 0 (by decide) (by decide)

/-- **C31 is false of the code for `mode="periodize"`**: on an axis of odd size the padder adds one sample more than asked for, so
a same-padded filter with stride one turns 3 samples into 4. -/
theorem C31_periodize_false : ∃ p' z, SepPool.forward Example.tri (some Example.periodizePadder) (fun _ => 0) Example.x3 .none = (p', .ok z) ∧
    z.shape = [4] := by
  have : ((SepPool.forward Example.tri (some Example.periodizePadder) (fun _ => 0) Example.x3 .none).2.toOption.map (·.shape)) = some [4] := by
    decide +kernel
  rcases h : SepPool.forward Example.tri (some Example.periodizePadder) (fun _ => 0) Example.x3 .none with ⟨p', r⟩
  rw [h] at this
  cases r with
  | error e => simp [Except.toOption] at this
  | ok z => exact ⟨p', z, rfl, by simpa [Except.toOption] using this⟩

/-! ## C32 -/

/-- **C32**, no padder: if another call pools the same axes with the same kernels and strides, listed in another order, the
outcome is the same. -/
theorem C32_axis_order (hb : Built pool g m) (hb' : Built pool' g' m') (hax : axesOf x.ndim ax = some axes)
    (hax' : axesOf x.ndim ax' = some axes') (hm : g.isMany = true → axes.length = m) (hm' : g'.isMany = true → axes'.length = m')
    (hnd : axes.Nodup) (hperm : (g.ops axes).Perm (g'.ops axes')) (junk junk' : List Nat → α) :
    SepPool.forward pool none junk x ax = SepPool.forward pool' none junk' x ax' := by
  have hnd' : axes'.Nodup := by
    rw [← ops_axis g axes] at hnd
    rw [← ops_axis g' axes']
    exact (hperm.map _).nodup_iff.1 hnd
  have hiff : (∀ o ∈ g.ops axes, o.kernel.length ≤ x.shape.getD o.axis 0) ↔ ∀ o ∈ g'.ops axes', o.kernel.length ≤ x.shape.getD o.axis 0 :=
    ⟨fun h o ho => h o (hperm.mem_iff.2 ho), fun h o ho => h o (hperm.mem_iff.1 ho)⟩
  by_cases hsz : ∀ o ∈ g.ops axes, o.kernel.length ≤ x.shape.getD o.axis 0
  · have hp := hb.poolOps hax hm hnd hsz
    have hp' := hb'.poolOps hax' hm' hnd' (hiff.1 hsz)
    rw [hb.poolIs.1.forward_none hax hm hp.fitting junk, hb'.poolIs.1.forward_none hax' hm' hp'.fitting junk', poolSeq_perm hperm hp]
  · rw [C31_kernel_too_long hb hax hm hnd hsz junk, C31_kernel_too_long hb' hax' hm' hnd' (fun h => hsz (hiff.2 h)) junk']

theorem ofList_ops (l : List (Nat × List α × Option Nat)) : (PoolArgs.ofList l).ops (l.map Prod.fst) =
    l.map fun e => ⟨e.1, e.2.1, e.2.2.getD e.2.1.length⟩ := by
  apply List.ext_getElem (by simp [PoolArgs.ops])
  intro i h1 h2
  have hi : i < l.length := by simpa using h2
  simp [PoolArgs.ops, PoolArgs.op, PoolArgs.ofList, Given.entry, hi]

/-- **C32**, explicit: permute a list of (axis, kernel, stride) triples. -/
theorem C32_permuted_triples {l l' : List (Nat × List α × Option Nat)} (hl : l.Perm l') (hne : l ≠ [])
    (hnd : (l.map Prod.fst).Nodup) (hlt : ∀ e ∈ l, e.1 < x.ndim) (hs : ∀ e ∈ l, e.2.2 ≠ some 0) (junk junk' : List Nat → α) :
    ∃ pool pool', SepPool.init (.seq (l.map fun e => PoolArgs.pyKernel e.2.1)) (.seq (l.map fun e => PoolArgs.pyStride e.2.2)) = .ok pool ∧
      SepPool.init (.seq (l'.map fun e => PoolArgs.pyKernel e.2.1)) (.seq (l'.map fun e => PoolArgs.pyStride e.2.2)) = .ok pool' ∧
      SepPool.forward pool none junk x (.seq (l.map fun e => (e.1 : Int))) =
        SepPool.forward pool' none junk' x (.seq (l'.map fun e => (e.1 : Int))) := by
  have build : ∀ l : List (Nat × List α × Option Nat), l ≠ [] → (∀ e ∈ l, e.2.2 ≠ some 0) →
      ∃ pool, SepPool.init (.seq (l.map fun e => PoolArgs.pyKernel e.2.1)) (.seq (l.map fun e => PoolArgs.pyStride e.2.2)) = .ok pool ∧
        Built pool (PoolArgs.ofList l) l.length := by
    intro l hne hs
    obtain ⟨pool, h1, h2⟩ := C30_constructor (g := PoolArgs.ofList l) (m := l.length) (List.length_pos_iff.2 hne)
      ⟨by simp [PoolArgs.ofList, Given.Fits], by simp [PoolArgs.ofList, Given.Fits]⟩ (by
        intro s hs'
        simp only [PoolArgs.ofList, Given.values, List.mem_map] at hs'
        obtain ⟨e, he, rfl⟩ := hs'
        exact hs e he)
    refine ⟨pool, ?_, h2⟩
    rw [← h1, PoolArgs.ofList, Given.toPy, Given.toPy, List.map_map, List.map_map]
    rfl
  have hax : ∀ l : List (Nat × List α × Option Nat), (∀ e ∈ l, e.1 < x.ndim) →
      axesOf x.ndim (.seq (l.map fun e => (e.1 : Int))) = some (l.map Prod.fst) := by
    intro l hlt
    have := normAxes_castV (n := x.ndim) (axes := l.map Prod.fst) (by
      intro k hk
      obtain ⟨e, he, rfl⟩ := List.mem_map.1 hk
      exact hlt e he)
    rw [castV, List.map_map] at this
    exact this
  have hne' : l' ≠ [] := by
    intro h
    subst h
    exact hne (List.perm_nil.1 hl)
  obtain ⟨pool, h1, h2⟩ := build l hne hs
  obtain ⟨pool', h1', h2'⟩ := build l' hne' (fun e he => hs e (hl.mem_iff.2 he))
  refine ⟨pool, pool', h1, h1', ?_⟩
  apply C32_axis_order h2 h2' (hax l hlt) (hax l' fun e he => hlt e (hl.mem_iff.2 he)) (fun _ => by simp) (fun _ => by simp) hnd
  rw [ofList_ops, ofList_ops]
  exact hl.map _

/-- **C32**, with a same padder whose settings are linear in the samples (see C17): both the padding and the pooling of the two
calls list the same settings in another order. -/
theorem C32_axis_order_same {gp gp' : PadArgs α} {p p' : Padder α} (hb : Built pool g m) (hb' : Built pool' g' m')
    (hc : SameCall g gp x ax axes) (hc' : SameCall g' gp' x ax' axes') (hm : g.isMany = true → axes.length = m)
    (hm' : g'.isMany = true → axes'.length = m') (hp : Holds p gp) (hp' : Holds p' gp')
    (hperm : (g.ops axes).Perm (g'.ops axes')) (hpad : (sameOps g gp x.shape axes).Perm (sameOps g' gp' x.shape axes'))
    (hlin : ∀ o ∈ sameOps g gp x.shape axes, o.2.Linear) (junk junk' : List Nat → α) :
    (SepPool.forward pool (some p) junk x ax).2 = (SepPool.forward pool' (some p') junk' x ax').2 := by
  rw [hb.poolIs.1.forward_same hc hm hp junk, hb'.poolIs.1.forward_same hc' hm' hp' junk']
  have hnd : ((sameOps g gp x.shape axes).map Prod.fst).Nodup := by rw [sameOps_fst]; exact hc.nodup
  have e : padSeq x (sameOps g gp x.shape axes) = padSeq x (sameOps g' gp' x.shape axes') := by
    apply padSeq_perm hpad x hnd hc.lt _ hlin
    intro o ho
    obtain ⟨i, hi, rfl⟩ := sameOps_mem ho
    exact hc.pos _ (by simp [hi])
  rw [← e, poolSeq_perm hperm hc.poolOps]

theorem uniform_sameOps {gp : PadArgs α} (hu : gp.Uniform) (shape axes : List Nat) : sameOps g gp shape axes =
    (g.ops axes).map fun o => (o.axis, (⟨(PoolArgs.samePair o.kernel.length o.stride (shape.getD o.axis 0)).1,
      (PoolArgs.samePair o.kernel.length o.stride (shape.getD o.axis 0)).2, gp.mode.entry .unknown 0, gp.cv.entry (0, 0) 0,
      gp.ev.entry (0, 0) 0, gp.sl.entry (none, none) 0⟩ : AxisPad α)) := by
  apply List.ext_getElem (by simp [sameOps, PoolArgs.ops])
  intro i h1 h2
  have hi : i < axes.length := by simpa [PoolArgs.ops] using h2
  simp only [sameOps, List.getElem_zip, List.getElem_map, List.getElem_range, withWidths_entry _ _ _ _ hi, PoolArgs.ops, sameSetting]
  rw [entry_of_not_many hu.1 _ i, entry_of_not_many hu.2.1 _ i, entry_of_not_many hu.2.2.1 _ i, entry_of_not_many hu.2.2.2 _ i]
  simp [PoolArgs.op, hi]

/-- **C32**, with a same padder that has one (linear) setting for all axes: only the kernels and strides have to be permuted along
with the axes. -/
theorem C32_axis_order_uniform {gp : PadArgs α} {p p' : Padder α} (hb : Built pool g m) (hb' : Built pool' g' m')
    (hc : SameCall g gp x ax axes) (hc' : SameCall g' gp x ax' axes') (hm : g.isMany = true → axes.length = m)
    (hm' : g'.isMany = true → axes'.length = m') (hp : Holds p gp) (hp' : Holds p' gp) (hu : gp.Uniform)
    (hperm : (g.ops axes).Perm (g'.ops axes')) (hlin : ∀ o ∈ sameOps g gp x.shape axes, o.2.Linear) (junk junk' : List Nat → α) :
    (SepPool.forward pool (some p) junk x ax).2 = (SepPool.forward pool' (some p') junk' x ax').2 := by
  apply C32_axis_order_same hb hb' hc hc' hm hm' hp hp' hperm _ hlin
  rw [uniform_sameOps hu, uniform_sameOps hu]
  exact hperm.map _

/-- the two orders of the axes of the example -/
example (junk : List Nat → ℚ) : ∃ pool pool', SepPool.init (.seq [PoolArgs.pyKernel [1, -2], PoolArgs.pyKernel [1, 2, 3]])
      (.seq [PoolArgs.pyStride none, PoolArgs.pyStride (some 1)]) = .ok pool ∧
    SepPool.init (.seq [PoolArgs.pyKernel [1, 2, 3], PoolArgs.pyKernel [1, -2]])
      (.seq [PoolArgs.pyStride (some 1), PoolArgs.pyStride none]) = .ok pool' ∧
    SepPool.forward pool none junk Example.x (.seq [0, 1]) = SepPool.forward pool' none junk Example.x (.seq [1, 0]) :=
  C32_permuted_triples (x := Example.x) (l := [(0, [1, -2], none), (1, [1, 2, 3], some 1)])
    (l' := [(1, [1, 2, 3], some 1), (0, [1, -2], none)]) (List.Perm.swap _ _ _) (by decide) (by decide) (by decide) (by decide) junk junk

/-! ## C33 -/

/-- **C33**, no padder: pooling `a x + b y` is `a` times the pooled `x` plus `b` times the pooled `y`; if the kernels do not fit,
all three calls raise. -/
theorem C33_linear (hb : Built pool g m) (hax : axesOf x.ndim ax = some axes) (hm : g.isMany = true → axes.length = m)
    (hnd : axes.Nodup) (hs : x.shape = y.shape) (a b : α) (junk : List Nat → α) :
    (SepPool.forward pool none junk (lincomb a x b y) ax).2 = (SepPool.forward pool none junk x ax).2.bind fun u =>
      (SepPool.forward pool none junk y ax).2.bind fun v => .ok (lincomb a u b v) := by
  have haxl : axesOf (lincomb a x b y).ndim ax = some axes := hax
  have haxy : axesOf y.ndim ax = some axes := by rw [show y.ndim = x.ndim by rw [ndim, ndim, hs]]; exact hax
  by_cases hsz : ∀ o ∈ g.ops axes, o.kernel.length ≤ x.shape.getD o.axis 0
  · have hp := hb.poolOps hax hm hnd hsz
    have hpl := hb.poolOps haxl hm hnd hsz
    have hpy := hb.poolOps haxy hm hnd (by rw [← hs]; exact hsz)
    rw [hb.poolIs.1.forward_none hax hm hp.fitting junk, hb.poolIs.1.forward_none haxl hm hpl.fitting junk,
      hb.poolIs.1.forward_none haxy hm hpy.fitting junk]
    simp only [Except.bind]
    rw [poolSeq_lincomb hs hp]
  · rw [C31_kernel_too_long hb hax hm hnd hsz junk, C31_kernel_too_long hb haxl hm hnd hsz junk]
    rfl

theorem Spec.SameCall.congr {gp : PadArgs α} (h : SameCall g gp x ax axes) (hs : y.shape = x.shape) : SameCall g gp y ax axes where
  axes_eq := by rw [show y.ndim = x.ndim by rw [ndim, ndim, hs]]; exact h.axes_eq
  ne := h.ne
  nodup := h.nodup
  fits := h.fits
  rest := h.rest
  stride := h.stride
  pos := by rw [hs]; exact h.pos
  valued := by rw [hs]; exact h.valued

/-- **C33**, with a same padder in a linear mode. -/
theorem C33_linear_same {gp : PadArgs α} {p : Padder α} (hb : Built pool g m) (hc : SameCall g gp x ax axes)
    (hm : g.isMany = true → axes.length = m) (hp : Holds p gp) (hlin : ∀ o ∈ sameOps g gp x.shape axes, o.2.Linear)
    (hs : x.shape = y.shape) (a b : α) (junk : List Nat → α) :
    ∃ u v, (SepPool.forward pool (some p) junk x ax).2 = .ok u ∧ (SepPool.forward pool (some p) junk y ax).2 = .ok v ∧
      (SepPool.forward pool (some p) junk (lincomb a x b y) ax).2 = .ok (lincomb a u b v) := by
  have hcy := hc.congr hs.symm
  have hcl : SameCall g gp (lincomb a x b y) ax axes := hc.congr rfl
  have hnd : ((sameOps g gp x.shape axes).map Prod.fst).Nodup := by rw [sameOps_fst]; exact hc.nodup
  have hpos : ∀ o ∈ sameOps g gp x.shape axes, 0 < x.shape.getD o.1 0 := by
    intro o ho
    obtain ⟨i, hi, rfl⟩ := sameOps_mem ho
    exact hc.pos _ (by simp [hi])
  refine ⟨_, _, by rw [hb.poolIs.1.forward_same hc hm hp junk], by rw [hb.poolIs.1.forward_same hcy hm hp junk], ?_⟩
  rw [hb.poolIs.1.forward_same hcl hm hp junk]
  simp only [Except.ok.injEq]
  rw [show (lincomb a x b y).shape = x.shape from rfl, ← hs, padSeq_lincomb hs hnd hc.lt hpos hlin, poolSeq_lincomb _ hc.poolOps]
  have hok := hc.opsOK
  apply list_ext_getD
  · change (padSeq x _).ndim = (padSeq y _).ndim
    rw [padSeq_ndim hok, padSeq_ndim hok, ndim, ndim, hs]
  · intro k _
    rw [padSeq_shape hok hnd x hc.lt, padSeq_shape hok hnd y (by rw [ndim, ← hs]; exact hc.lt), hs]

/-- a linear setting and a shape that meet the hypotheses -/
example (y : Tensor ℚ) (hs : Example.x.shape = y.shape) (a b : ℚ) (junk : List Nat → ℚ) :
    ∃ u v, (SepPool.forward Example.tri (some ((Example.modeArgs .reflect).padder 1)) junk Example.x (.seq [-1, 0])).2 = .ok u ∧
      (SepPool.forward Example.tri (some ((Example.modeArgs .reflect).padder 1)) junk y (.seq [-1, 0])).2 = .ok v ∧
      (SepPool.forward Example.tri (some ((Example.modeArgs .reflect).padder 1)) junk (lincomb a Example.x b y) (.seq [-1, 0])).2 =
        .ok (lincomb a u b v) :=
  C33_linear_same Example.tri_built Example.sameCall_reflect (by intro h; cases h) (holds_padder _ 1)
    (by intro o ho; obtain ⟨i, _, rfl⟩ := sameOps_mem ho; simp [AxisPad.Linear, sameSetting, Example.modeArgs, Given.entry]) hs a b junk

/-! ## C34 -/

theorem avgKernel_isAverage {k : Nat} (hk : 0 < k) : IsAverage (avgKernel k : List α) := by
  have hk' : (0 : α) < (k : α) := by exact_mod_cast hk
  constructor
  · intro a ha
    rw [avgKernel, List.mem_replicate] at ha
    rw [ha.2]
    exact (one_div_pos.2 hk').le
  · rw [avgKernel, List.sum_replicate, nsmul_eq_mul, mul_one_div_cancel hk'.ne']

/-- **C34**, no padder: kernels that are averages keep the entries between any bounds of the input. -/
theorem C34_range_valid (hb : Built pool g m) (hax : axesOf x.ndim ax = some axes) (hm : g.isMany = true → axes.length = m)
    (hnd : axes.Nodup) (hsz : ∀ o ∈ g.ops axes, o.kernel.length ≤ x.shape.getD o.axis 0)
    (hw : ∀ o ∈ g.ops axes, o.kernel ≠ [] → IsAverage o.kernel) {lo hi : α} (hx : Between lo hi x) (junk : List Nat → α) :
    ∃ z, SepPool.forward pool none junk x ax = (none, .ok z) ∧ Between lo hi z := by
  have hp := hb.poolOps hax hm hnd hsz
  exact ⟨_, hb.poolIs.1.forward_none hax hm hp.fitting junk, poolSeq_between hp hx hw⟩

/-- **C34**, with a same padder that fills with samples, statistics of samples or constants between the bounds. -/
theorem C34_range_same {gp : PadArgs α} {p : Padder α} (hb : Built pool g m) (hc : SameCall g gp x ax axes)
    (hm : g.isMany = true → axes.length = m) (hp : Holds p gp) {lo hi : α}
    (hfill : ∀ o ∈ sameOps g gp x.shape axes, o.2.Within lo hi)
    (hw : ∀ o ∈ g.ops axes, o.kernel ≠ [] → IsAverage o.kernel) (hx : Between lo hi x) (junk : List Nat → α) :
    ∃ p' z, SepPool.forward pool (some p) junk x ax = (p', .ok z) ∧ Between lo hi z := by
  have hnd : ((sameOps g gp x.shape axes).map Prod.fst).Nodup := by rw [sameOps_fst]; exact hc.nodup
  refine ⟨_, _, hb.poolIs.1.forward_same hc hm hp junk, poolSeq_between hc.poolOps ?_ hw⟩
  apply padSeq_between hnd hc.lt _ hfill hx
  intro o ho
  obtain ⟨i, hi, rfl⟩ := sameOps_mem ho
  exact hc.pos _ (by simp [hi])

/-- **C34** for constant images: every entry of the result is that constant. -/
theorem C34_constant_same {gp : PadArgs α} {p : Padder α} (hb : Built pool g m) (hc : SameCall g gp x ax axes)
    (hm : g.isMany = true → axes.length = m) (hp : Holds p gp) {c : α}
    (hfill : ∀ o ∈ sameOps g gp x.shape axes, o.2.Within c c)
    (hw : ∀ o ∈ g.ops axes, o.kernel ≠ [] → IsAverage o.kernel) (hx : ∀ ix, InB x.shape ix → x.get ix = c) (junk : List Nat → α) :
    ∃ p' z, SepPool.forward pool (some p) junk x ax = (p', .ok z) ∧ ∀ ix, InB z.shape ix → z.get ix = c := by
  obtain ⟨p', z, h1, h2⟩ := C34_range_same hb hc hm hp hfill hw (fun ix hix => ⟨(hx ix hix).ge, (hx ix hix).le⟩) junk
  exact ⟨p', z, h1, fun ix hix => le_antisymm (h2 ix hix).2 (h2 ix hix).1⟩

/-- **C34** for constant images, no padder. -/
theorem C34_constant_valid (hb : Built pool g m) (hax : axesOf x.ndim ax = some axes) (hm : g.isMany = true → axes.length = m)
    (hnd : axes.Nodup) (hsz : ∀ o ∈ g.ops axes, o.kernel.length ≤ x.shape.getD o.axis 0)
    (hw : ∀ o ∈ g.ops axes, o.kernel ≠ [] → IsAverage o.kernel) {c : α} (hx : ∀ ix, InB x.shape ix → x.get ix = c) (junk : List Nat → α) :
    ∃ z, SepPool.forward pool none junk x ax = (none, .ok z) ∧ ∀ ix, InB z.shape ix → z.get ix = c := by
  obtain ⟨z, h1, h2⟩ := C34_range_valid hb hax hm hnd hsz hw (fun ix hix => ⟨(hx ix hix).ge, (hx ix hix).le⟩) junk
  exact ⟨z, h1, fun ix hix => le_antisymm (h2 ix hix).2 (h2 ix hix).1⟩

/-- **C34**: the kernels of `AvgPoolNd` are averages, for all sizes and strides -/
theorem C34_average_kernels {size : Given Nat} {st : Given (Option Nat)} (hm : 0 < m) (hs : size.Fits m) (hst : st.Fits m)
    (hv : ∀ s ∈ st.values, s ≠ some 0) :
    ∃ pool : SepPool α, SepPool.avgInit (size.toPy fun k : Nat => .leaf (some (k : Int))) (st.toPy PoolArgs.pyStride) = .ok pool ∧
      Built pool ⟨size.map avgKernel, st⟩ m ∧
      ∀ axes, axes.length = m → ∀ o ∈ (⟨size.map avgKernel, st⟩ : PoolArgs α).ops axes, o.kernel ≠ [] → IsAverage o.kernel := by
  obtain ⟨pool, h, _⟩ := poolIs_avg (α := α) hm hs hst hv
  refine ⟨pool, h, .average hm hs hst hv h, ?_⟩
  intro axes hl o ho hk
  obtain ⟨i, hi, rfl⟩ := mem_ops.1 ho
  have e : ((⟨size.map avgKernel, st⟩ : PoolArgs α).op axes i).kernel = avgKernel (size.entry 0 i) :=
    given_entry_map (avgKernel (α := α)) size 0 i
  rw [e] at hk ⊢
  apply avgKernel_isAverage
  rcases Nat.eq_zero_or_pos (size.entry 0 i) with h0 | h0
  · rw [h0] at hk; exact absurd rfl hk
  · exact h0

/-- a 2×2 average of the example image stays between 1 and 6 -/
example (junk : List Nat → ℚ) : ∃ pool : SepPool ℚ, SepPool.avgInit (.leaf (some 2)) (.leaf none) = .ok pool ∧
    ∃ z, SepPool.forward pool none junk Example.x .none = (none, .ok z) ∧ Between 1 6 z := by
  obtain ⟨pool, h1, h2, h3⟩ := C34_average_kernels (α := ℚ) (size := .one 2) (st := .one none) (m := 2) (by decide) trivial trivial
    (by intro s hs; simp [Given.values] at hs; simp [hs])
  refine ⟨pool, h1, C34_range_valid h2 (x := Example.x) (axes := [0, 1]) (by decide) (by intro h; cases h) (by decide) ?_ (h3 _ rfl) ?_ junk⟩
  · intro o ho
    obtain ⟨i, hi, rfl⟩ := mem_ops.1 ho
    have hi : i < 2 := hi
    interval_cases i <;> decide
  · intro ix hix
    have h : ∀ ix ∈ indices [2, 3], 1 ≤ Example.x.get ix ∧ Example.x.get ix ≤ 6 := by decide +kernel
    exact h ix (mem_indices.2 hix)

/-! ## C35 -/

/-- the padder after a sequence of events -/
theorem run_settings (p : Padder α) (e : PadderEvent α) : SameSettings (e.run p) p := by
  cases e with
  | pool m junk x axes =>
    obtain ⟨p', h1, h2⟩ := forward_settings m p junk x axes
    simp only [PadderEvent.run, h1, Option.getD_some]
    exact h2
  | average m junk x axes =>
    obtain ⟨p', h1, h2⟩ := exclude_settings m p junk x axes
    simp only [PadderEvent.run, h1, Option.getD_some]
    exact h2
  | toSame k s n => exact toSame_settings p k s n
  | pad _ _ _ => exact ⟨rfl, rfl, rfl, rfl⟩

theorem history_settings (p : Padder α) (h : List (PadderEvent α)) : SameSettings (h.foldl PadderEvent.run p) p := by
  induction h generalizing p with
  | nil => exact ⟨rfl, rfl, rfl, rfl⟩
  | cons e h ih => exact (ih (e.run p)).trans (run_settings p e)

/-- **C35.** Whatever happened to the shared padder before (any number of pooling, averaging, padding and `to_same` calls by any
modules, on any tensors, raising or not), a pooling call has the outcome it has with the padder as constructed. -/
theorem C35_history_irrelevant (pool : SepPool α) (p : Padder α) (history : List (PadderEvent α)) (junk : List Nat → α) (x : Tensor α)
    (ax : Axes) :
    (SepPool.forward pool (some (history.foldl PadderEvent.run p)) junk x ax).2 = (SepPool.forward pool (some p) junk x ax).2 :=
  (forward_indep pool (history_settings p history) junk x ax).1

/-- **C35** for `AvgPoolNd(count_include_pad=False)`, which also reads the widths left in the padder -/
theorem C35_history_irrelevant_average (pool : SepPool α) (p : Padder α) (history : List (PadderEvent α)) (junk : List Nat → α) (x : Tensor α)
    (ax : Axes) :
    (SepPool.avgForwardExclude pool (some (history.foldl PadderEvent.run p)) junk x ax).2 =
      (SepPool.avgForwardExclude pool (some p) junk x ax).2 :=
  exclude_indep pool (history_settings p history) junk x ax

/-- **C35**: a successful call leaves the padder in the same state, whatever happened before -/
theorem C35_state_after_call (pool : SepPool α) (p : Padder α) (history : List (PadderEvent α)) (junk : List Nat → α) (x : Tensor α)
    (ax : Axes) {z : Tensor α} (hz : (SepPool.forward pool (some p) junk x ax).2 = .ok z) :
    (SepPool.forward pool (some (history.foldl PadderEvent.run p)) junk x ax).1 = (SepPool.forward pool (some p) junk x ax).1 := by
  have h := forward_indep pool (history_settings p history) junk x ax
  exact h.2 z (h.1.trans hz)

/-- a history in which the widths really change: pool a signal of three samples first, then ask for something that raises -/
example : PadderEvent.run Example.periodizePadder (.pool Example.tri (fun _ => 0) Example.x3 .none) ≠ Example.periodizePadder ∧
    (SepPool.forward Example.tri (some ([PadderEvent.pool Example.tri (fun _ => 0) Example.x3 .none,
      .pool Example.poolObj (fun _ => 0) Example.x3 .none].foldl PadderEvent.run Example.periodizePadder)) (fun _ => 0) Example.x .none).2 =
    (SepPool.forward Example.tri (some Example.periodizePadder) (fun _ => 0) Example.x .none).2 := by
  refine ⟨?_, C35_history_irrelevant _ _ _ _ _ _⟩
  intro h
  have h1 : ((PadderEvent.run Example.periodizePadder (.pool Example.tri (fun _ => 0) Example.x3 .none)).ndim) = 1 := by decide +kernel
  rw [h] at h1
  exact absurd h1 (by decide)

end TI
