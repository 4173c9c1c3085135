import Verif.Proofs.EdgesMag
import Verif.Props.Gaussian

/-!
# Properties of edge filters (C40-C44, C75, C76)
-/

set_option linter.unusedSectionVars false

namespace TI
open Tensor Spec

section
variable {α : Type} [Field α] [LinearOrder α] [IsStrictOrderedRing α] [FloorRing α] {x : Tensor α} {a : Nat}
variable {f : EdgeFilter α} {w : List α} {g : Given (List α)} {m : Nat}

/-- `f` is an edge filter with edge kernel `w` and smoothing kernels `g` (one, or one for each of `m` axes): built from nested
tuples, or from ready-made `NdSpec`s as in the subclasses -/
inductive Spec.EdgeBuilt : EdgeFilter α → List α → Given (List α) → Nat → Prop
  | tuples {f : EdgeFilter α} {w : List α} {g : Given (List α)} {m : Nat} (normalize : Bool) (hm : 0 < m) (hg : g.Fits m)
      (h : EdgeFilter.init (PoolArgs.pyKernel w) (g.toPy PoolArgs.pyKernel) normalize = .ok f) :
      EdgeBuilt f w (if normalize then g.map normalised else g) m
  | specs {f : EdgeFilter α} {w : List α} {g : Given (List α)} {m : Nat} {e s : NdSpec α} (normalize : Bool) (hm : 0 < m) (hg : g.Fits m)
      (he : IsSpec e PoolArgs.pyKernel (.one w)) (hs : IsSpec s PoolArgs.pyKernel g) (h : EdgeFilter.ofSpecs e s normalize = .ok f) :
      EdgeBuilt f w (if normalize then g.map normalised else g) m

theorem Spec.EdgeBuilt.edgeIs (h : EdgeBuilt f w g m) : EdgeIs f w g m := by
  cases h with
  | tuples normalize hm hg h =>
    obtain ⟨f', e, h'⟩ := edgeIs_init (w := w) hm hg normalize
    rw [h] at e
    cases e
    exact h'
  | specs normalize hm hg he hs h =>
    obtain ⟨f', e, h'⟩ := edgeIs_ofSpecs hm he hs hg normalize
    rw [h] at e
    cases e
    exact h'

/-! ## C40 -/

/-- the two kernels with a fast path -/
def Spec.FastKernel (w : List α) : Prop := w = [-1, 0, 1] ∨ w = [1, -2, 1]

theorem usedKernel_fast (hw : FastKernel w) : usedKernel w = w := by
  rcases hw with rfl | rfl
  · rw [usedKernel, if_pos]
    norm_num [TakenForFirst]
  · rw [usedKernel, if_neg, if_pos]
    · norm_num [TakenForSecond]
    · norm_num [TakenForFirst]

/-- **C40**: for both kernels, every padder state and every tensor, `_conv_edge` returns what the generic filter returns, and
leaves the padder in the same state - provided the padded axis (if padding succeeds) has at least three samples, see
`C40_short_axis_false`. -/
theorem C40_fast_path_partial (hb : EdgeBuilt f w g m) (hw : FastKernel w) (ps : EdgePadders α) (junk : List Nat → α) (ha : a < x.ndim)
    (hy : ∀ y, (f.edgePool.pad ps.edge junk x (.int a)).2 = .ok y → 3 ≤ y.shape.getD a 0) :
    f.convEdge ps junk x (a : Int) = (ps.setEdge (f.edgePool.forward ps.edge junk x (.int a)).1, (f.edgePool.forward ps.edge junk x (.int a)).2) := by
  have hl : w.length = 3 := by rcases hw with rfl | rfl <;> rfl
  have hy' : ∀ y, (f.edgePool.pad ps.edge junk x (.int a)).2 = .ok y → w ≠ [] → a < y.ndim ∧ w.length ≤ y.shape.getD a 0 := by
    intro y hr _
    have := hy y hr
    exact ⟨lt_ndim_of_size (by omega), by omega⟩
  rw [convEdge_used hb.edgeIs ps junk ha hy', forward_edge hb.edgeIs ps.edge junk ha hy', usedKernel_fast hw]

/-- **C40** with a same padder: non-empty axes are always long enough. -/
theorem C40_fast_path_same (hb : EdgeBuilt f w g m) (hw : FastKernel w) {ps : EdgePadders α} {gp : PadArgs α} (hps : HoldsBoth ps gp)
    (hc : SameCall (PoolArgs.filter (.one w)) gp x (.int a) [a]) (junk : List Nat → α) :
    f.convEdge ps junk x (a : Int) = (ps.setEdge (f.edgePool.forward ps.edge junk x (.int a)).1, (f.edgePool.forward ps.edge junk x (.int a)).2) := by
  have ha : a < x.ndim := (checkAxes_spec hc.axes_eq).2 a (by simp)
  obtain ⟨e, s, h1, _, h3, _⟩ := hps
  have hl : w.length = 3 := by rcases hw with rfl | rfl <;> rfl
  apply C40_fast_path_partial hb hw ps junk ha
  rw [h1, pad_int _ _ _ _ ha, hb.edgeIs.edge.pad_same hc (by intro h; cases h) h3 junk]
  intro y hy
  cases hy
  have := hc.poolOps.fits ⟨a, w, 1⟩ (by rw [ops_single]; simp) (by rintro rfl; simp at hl)
  simpa [hl] using this

/-- **C40** without a padder on axes of at least three samples. -/
theorem C40_fast_path_valid (hb : EdgeBuilt f w g m) (hw : FastKernel w) (ha : a < x.ndim) (h3 : 3 ≤ x.shape.getD a 0) (junk : List Nat → α) :
    f.convEdge (.shared none) junk x (a : Int) = (.shared none, (f.edgePool.forward none junk x (.int a)).2) := by
  have hpad : f.edgePool.pad none junk x (.int a) = (none, .ok x) := by
    rw [pad_int _ _ _ _ ha, SepPool.pad, checkAxes_castV (by simpa using ha)]
  have := C40_fast_path_partial hb hw (.shared none) junk ha (by
    intro y hy
    rw [show (EdgePadders.shared (none : Option (Padder α))).edge = none from rfl, hpad] at hy
    cases hy
    exact h3)
  rw [this, show (EdgePadders.shared (none : Option (Padder α))).edge = none from rfl, forward_int hb.edgeIs.edge none junk ha, hpad]
  rfl

/-- The other case: without a padder, on an axis of fewer than three samples, the fast path returns an empty tensor where the generic
filter raises RuntimeError. -/
theorem C40_short_axis (hb : EdgeBuilt f w g m) (hw : FastKernel w) (ha : a < x.ndim) (h3 : x.shape.getD a 0 < 3) (junk : List Nat → α) :
    (∃ z, f.convEdge (.shared none) junk x (a : Int) = (.shared none, .ok z) ∧ z.shape = x.shape.set a 0) ∧
      f.edgePool.forward none junk x (.int a) = (none, .error .runtime) := by
  have hpad : f.edgePool.pad none junk x (.int a) = (none, .ok x) := by
    rw [pad_int _ _ _ _ ha, SepPool.pad, checkAxes_castV (by simpa using ha)]
  have h0 : x.shape.getD a 0 - 2 = 0 := by omega
  constructor
  · rw [convEdge_eq hb.edgeIs, show (EdgePadders.shared (none : Option (Padder α))).edge = none from rfl, hpad]
    rcases hw with rfl | rfl
    · rw [if_pos ((trunc_first _).2 (by norm_num [TakenForFirst]))]
      refine ⟨slide x ⟨a, [-1, 0, 1], 1⟩, ?_, by rw [slide_three, shape_ofFn, h0]⟩
      exact Prod.ext rfl (firstDiff_eq ha)
    · rw [if_neg (fun e => by have := (trunc_first _).1 e; norm_num [TakenForFirst] at this),
        if_pos ((trunc_second _).2 (by norm_num [TakenForSecond]))]
      refine ⟨slide x ⟨a, [1, -2, 1], 1⟩, ?_, by rw [slide_three, shape_ofFn, h0]⟩
      exact Prod.ext rfl (secondDiff_eq ha)
  · have hl : w.length = 3 := by rcases hw with rfl | rfl <;> rfl
    rw [forward_int hb.edgeIs.edge none junk ha, hpad]
    refine Prod.ext rfl ?_
    have he := hb.edgeIs.edge.step_error (i := 0) (by intro h; cases h) (axes := [a]) (x := x) ha (by
      change x.shape.getD a 0 < w.length
      omega)
    change SepPool.poolLoop f.edgePool 0 [(a : Int)] x = _
    rw [SepPool.poolLoop]
    have he' : SepPool.poolStep f.edgePool 0 (a : Int) x = .error .runtime := he
    rw [he']
    rfl

/-! ## C41 -/

/-- **C41**, what really happens: `_conv_edge` convolves with `usedKernel w`, which is `(-1, 0, 1)` or `(1, -2, 1)` if `w` agrees with
that kernel up to the digits after the decimal points, and `w` otherwise. -/
theorem C41_kernel_used (hb : EdgeBuilt f w g m) {ps : EdgePadders α} {gp : PadArgs α} (hps : HoldsBoth ps gp) {ax : Axes}
    (hc : SameCall (PoolArgs.filter (.one w)) gp x ax [a]) (junk : List Nat → α) :
    ∃ ps', f.convEdge ps junk x (a : Int) = (ps', .ok (slide (padSeq x (sameOps (PoolArgs.filter (.one w)) gp x.shape [a])) ⟨a, usedKernel w, 1⟩)) ∧
      HoldsBoth ps' gp := convEdge_same hb.edgeIs hps hc junk

/-- **C41**: the given kernel is applied, if it is none of the kernels that are taken for `(-1, 0, 1)` or `(1, -2, 1)`. -/
theorem C41_kernel_applied_partial (hb : EdgeBuilt f w g m) (h1 : TakenForFirst w → w = [-1, 0, 1]) (h2 : TakenForSecond w → w = [1, -2, 1])
    {ps : EdgePadders α} {gp : PadArgs α} (hps : HoldsBoth ps gp) {ax : Axes} (hc : SameCall (PoolArgs.filter (.one w)) gp x ax [a])
    (junk : List Nat → α) :
    ∃ ps', f.convEdge ps junk x (a : Int) = (ps', .ok (filtered (.one w) gp x [a])) ∧ HoldsBoth ps' gp := by
  have hw : usedKernel w = w := by
    rw [usedKernel]
    split_ifs with q1 q2
    · exact (h1 q1).symm
    · exact (h2 q2).symm
    · rfl
  have := convEdge_same hb.edgeIs hps hc junk
  rwa [hw] at this

/-- kernels with integer coefficients are always applied -/
theorem C41_integer_kernels {v : List Int} (hb : EdgeBuilt f (v.map Int.cast) g m)
    {ps : EdgePadders α} {gp : PadArgs α} (hps : HoldsBoth ps gp) {ax : Axes}
    (hc : SameCall (PoolArgs.filter (.one (v.map Int.cast))) gp x ax [a]) (junk : List Nat → α) :
    ∃ ps', f.convEdge ps junk x (a : Int) = (ps', .ok (filtered (.one (v.map Int.cast)) gp x [a])) ∧ HoldsBoth ps' gp := by
  have hmap : (v.map (Int.cast : Int → α)).map truncInt = v := by
    rw [List.map_map]
    conv_rhs => rw [← List.map_id v]
    apply List.map_congr_left
    intro n _
    simp only [Function.comp, truncInt, id]
    split_ifs <;> simp
  refine C41_kernel_applied_partial hb ?_ ?_ hps hc junk
  · intro h
    rw [← trunc_first, hmap] at h
    simp [h]
  · intro h
    rw [← trunc_second, hmap] at h
    simp [h]

/-- a kernel of another length is always applied -/
theorem C41_other_lengths (hb : EdgeBuilt f w g m) (hl : w.length ≠ 3) {ps : EdgePadders α} {gp : PadArgs α} (hps : HoldsBoth ps gp)
    {ax : Axes} (hc : SameCall (PoolArgs.filter (.one w)) gp x ax [a]) (junk : List Nat → α) :
    ∃ ps', f.convEdge ps junk x (a : Int) = (ps', .ok (filtered (.one w) gp x [a])) ∧ HoldsBoth ps' gp := by
  refine C41_kernel_applied_partial hb ?_ ?_ hps hc junk
  · intro h
    match w, h with
    | [_, _, _], _ => exact absurd rfl hl
  · intro h
    match w, h with
    | [_, _, _], _ => exact absurd rfl hl

/-! ## C42 -/

theorem usedKernel_sum (hw : w.sum = 0) : (usedKernel w).sum = 0 := by
  rw [usedKernel]
  split_ifs <;> norm_num [hw]

theorem usedKernel_ne (hw : w ≠ []) : usedKernel w ≠ [] := by
  intro h
  have := usedKernel_length w
  rw [h] at this
  exact hw (List.length_eq_zero_iff.1 this.symm)

/-- the padder fills with samples or averages of samples -/
def Spec.PadArgs.FillsFromSamples (gp : PadArgs α) : Prop :=
  match gp.mode.entry .unknown 0 with
  | .replicate | .circular | .periodize | .symmetric | .reflect | .stat _ => True
  | _ => False

theorem fills_within {gp : PadArgs α} (h : gp.FillsFromSamples) {s : AxisPad α} (hs : s.mode = gp.mode.entry .unknown 0) (lo hi : α) :
    s.Within lo hi := by
  rw [PadArgs.FillsFromSamples, ← hs] at h
  rw [AxisPad.Within]
  cases hm : s.mode <;> rw [hm] at h <;> trivial

theorem setup_constant {gp : PadArgs α} {ax : Axes} {axes : List Nat} (hs : EdgeSetup g gp x ax axes) (hfill : gp.FillsFromSamples) {v : List α}
    (hv : v ≠ []) (hsum : v.sum = 0) {k : α} (hx : Constant k x) (ha : a ∈ axes) : Constant 0 (edgeResponse v g gp x axes a) := by
  apply edgeResponse_constant (hs.edgeCall v ha) hv hsum _ hx
  intro i s h1 _ _
  rw [uniform_entry hs.uniform] at h1
  exact ⟨fills_within hfill h1 _ _, fills_within hfill h1 _ _⟩

/-- **C42**: an edge filter whose edge kernel sums to zero, with a padder that fills with samples: all components of a constant
image are zero, and have the shape of the image. -/
theorem C42_components (hb : EdgeBuilt f w g m) (hw : w ≠ []) (hsum : w.sum = 0) {ps : EdgePadders α} {gp : PadArgs α} (hps : HoldsBoth ps gp)
    {ax : Axes} {axes : List Nat} (hs : EdgeSetup g gp x ax axes) (hm : g.isMany = true → axes.length - 1 = m) (hfill : gp.FillsFromSamples)
    {k : α} (hx : Constant k x) (junk : List Nat → α) :
    ∃ ps' cs, f.allComponents ps junk x ax = (ps', .ok cs) ∧ cs.length = axes.length ∧
      ∀ c ∈ cs, c.shape = x.shape ∧ Constant 0 c := by
  obtain ⟨ps', e, _⟩ := allComponents_eq (f := f) (junk := junk) (Inv := fun ps => HoldsBoth ps gp)
    (c := edgeResponse (usedKernel w) g gp x axes) hs.axes_eq hs.two hps
    (fun a ha ps hps => hs.component hb.edgeIs hm ha hps junk)
  refine ⟨ps', _, e, by simp, ?_⟩
  intro c hc
  obtain ⟨a, ha, rfl⟩ := List.mem_map.1 hc
  exact ⟨hs.response_shape _ ha, setup_constant hs hfill (usedKernel_ne hw) (usedKernel_sum hsum) hx ha⟩

/-- **C42** for the magnitude: any power `p ≥ 1` and any root function with `root 0 = 0`. -/
theorem C42_magnitude (hb : EdgeBuilt f w g m) (hw : w ≠ []) (hsum : w.sum = 0) {ps : EdgePadders α} {gp : PadArgs α} (hps : HoldsBoth ps gp)
    {ax : Axes} {axes : List Nat} (hs : EdgeSetup g gp x ax axes) (hm : g.isMany = true → axes.length - 1 = m) (hfill : gp.FillsFromSamples)
    {k : α} (hx : Constant k x) {root : α → α} (hroot : root 0 = 0) {p : Nat} (hp : p ≠ 0) (junk : List Nat → α) :
    ∃ ps' z, f.magnitude root ps junk x ax 0 p = (ps', .ok z) ∧ z.shape = x.shape ∧ Constant 0 z := by
  obtain ⟨ps', e, _⟩ := magnitude_eq (f := f) (junk := junk) (Inv := fun ps => HoldsBoth ps gp) (root := root) hp (S := x.shape)
    (c := edgeResponse (usedKernel w) g gp x axes) hs.axes_eq hs.two hps
    (fun a ha ps hps => hs.component hb.edgeIs hm ha hps junk) (fun a ha => hs.response_shape _ ha) (hs.own hb.edgeIs hm (Or.inr (Or.inl hw)) junk) 0
  refine ⟨ps', _, e, rfl, ?_⟩
  intro ix hix
  have hix' : InB x.shape ix := hix
  have h0 : (powerSum x.shape p (edgeResponse (usedKernel w) g gp x axes) axes).get ix = 0 := by
    rw [powerSum, get_ofFn hix']
    apply List.sum_eq_zero
    intro v hv
    obtain ⟨a, ha, rfl⟩ := List.mem_map.1 hv
    rw [setup_constant hs hfill (usedKernel_ne hw) (usedKernel_sum hsum) hx ha ix (by rw [hs.response_shape _ ha]; exact hix')]
    exact zero_pow hp
  rw [get_map _ _ (by simpa [powerSum] using hix'), h0, add_zero, hroot]
  split_ifs <;> rfl

/-- **C42** applies to `Sobel`, `Prewitt`, `Scharr` and `Farid`, with and without normalisation. -/
theorem C42_named (normalize : Bool) :
    (∃ f : EdgeFilter α, EdgeFilter.sobel normalize = .ok f ∧ EdgeBuilt f [-1, 0, 1] (.one (if normalize then normalised [1, 2, 1] else [1, 2, 1])) 1) ∧
    (∃ f : EdgeFilter α, EdgeFilter.prewitt normalize = .ok f ∧ EdgeBuilt f [-1, 0, 1] (.one (if normalize then normalised [1, 1, 1] else [1, 1, 1])) 1) ∧
    (∃ f : EdgeFilter α, EdgeFilter.scharr normalize = .ok f ∧ EdgeBuilt f [-1, 0, 1] (.one (if normalize then normalised [3, 10, 3] else [3, 10, 3])) 1) ∧
    (∃ f : EdgeFilter α, EdgeFilter.farid normalize = .ok f ∧
      EdgeBuilt f EdgeFilter.faridEdge (.one (if normalize then normalised EdgeFilter.faridSmooth else EdgeFilter.faridSmooth)) 1) ∧
    ([-1, 0, 1] : List α).sum = 0 ∧ (EdgeFilter.faridEdge : List α).sum = 0 := by
  have key : ∀ w s : List α, ∃ f, EdgeFilter.init (EdgeFilter.pyVec w) (EdgeFilter.pyVec s) normalize = .ok f ∧
      EdgeBuilt f w (.one (if normalize then normalised s else s)) 1 := by
    intro w s
    obtain ⟨f, e, _⟩ := edgeIs_init (w := w) (g := .one s) Nat.one_pos trivial normalize
    refine ⟨f, e, ?_⟩
    have := EdgeBuilt.tuples (w := w) (g := .one s) normalize Nat.one_pos trivial e
    cases normalize <;> exact this
  exact ⟨key _ _, key _ _, key _ _, key _ _, by norm_num, by simp [EdgeFilter.faridEdge]⟩

/-! ## C43 -/

theorem widened_eq (gp : PadArgs α) (x : Tensor α) (a : Nat) {w : List α} (hl : w.length = 3) :
    padSeq x (sameOps (PoolArgs.filter (.one w)) gp x.shape [a]) = widened gp x a := by
  have ht : PoolArgs.sameTotal 3 1 (x.shape.getD a 0) = 2 := by
    rw [PoolArgs.sameTotal, ceilDiv_one]
    omega
  have h1 : sameOps (PoolArgs.filter (.one w)) gp x.shape [a] = [(a, sameSetting (PoolArgs.filter (.one w)) gp x.shape [a] 0)] := by
    simp [sameOps, List.range_succ, withWidths_entry]
  have h2 : sameSetting (PoolArgs.filter (.one w)) gp x.shape [a] 0 =
      ⟨1, 1, gp.mode.entry .unknown 0, gp.cv.entry (0, 0) 0, gp.ev.entry (0, 0) 0, gp.sl.entry (none, none) 0⟩ := by
    have e1 : ((PoolArgs.filter (.one w)).op [a] 0).kernel.length = 3 := hl
    have e2 : ((PoolArgs.filter (.one w)).op [a] 0).stride = 1 := rfl
    have e3 : ([a] : List Nat).getD 0 0 = a := rfl
    simp only [sameSetting, e1, e2, e3, PoolArgs.samePair, ht]
  rw [h1, h2, padSeq_cons]
  rfl

theorem laplace_built : ∃ f : EdgeFilter α, EdgeFilter.laplace = .ok f ∧ EdgeBuilt f [1, -2, 1] (.one []) 1 := by
  obtain ⟨f, e, _⟩ := edgeIs_init (w := ([1, -2, 1] : List α)) (g := .one []) Nat.one_pos trivial false
  exact ⟨f, e, EdgeBuilt.tuples (w := [1, -2, 1]) (g := .one []) false Nat.one_pos trivial e⟩

/-- **C43**: for at least two distinct axes and any value-defining padding mode, `Laplace` adds the second differences of the image
widened by one sample on both sides of each axis. -/
theorem C43_laplace : ∃ f : EdgeFilter α, EdgeFilter.laplace = .ok f ∧ ∀ {ps : EdgePadders α} {gp : PadArgs α}, HoldsBoth ps gp →
    ∀ {x : Tensor α} {ax : Axes} {axes : List Nat}, EdgeSetup (.one []) gp x ax axes → ∀ junk : List Nat → α,
    ∃ ps', f.laplaceForward ps junk x ax = (ps', .ok (laplacian gp x axes)) ∧ HoldsBoth ps' gp := by
  obtain ⟨f, e, hb⟩ := laplace_built (α := α)
  refine ⟨f, e, ?_⟩
  intro ps gp hps x ax axes hs junk
  have hu : usedKernel ([1, -2, 1] : List α) = [1, -2, 1] := usedKernel_fast (Or.inr rfl)
  obtain ⟨ps', e, h'⟩ := magnitude_eq (f := f) (junk := junk) (Inv := fun ps => HoldsBoth ps gp) (root := id) one_ne_zero (S := x.shape)
    (c := edgeResponse (usedKernel [1, -2, 1]) (.one []) gp x axes) hs.axes_eq hs.two hps
    (fun a ha ps hps => hs.component hb.edgeIs (by intro h; cases h) ha hps junk) (fun a ha => hs.response_shape _ ha)
    (hs.own hb.edgeIs (by intro h; cases h) (Or.inr (Or.inl (by simp))) junk) 0
  refine ⟨ps', ?_, h'⟩
  rw [EdgeFilter.laplaceForward, e]
  congr 2
  refine ext_get rfl ?_
  intro ix hix
  have hix' : InB x.shape ix := hix
  rw [get_map _ _ (by simpa [powerSum] using hix'), if_pos rfl, add_zero, powerSum, get_ofFn hix', laplacian, get_ofFn hix']
  congr 1
  apply List.map_congr_left
  intro a ha
  have hn := hs.pos a ha
  have hsh := hs.edge_shape [1, -2, 1] ha
  have hr : edgeResponse (usedKernel [1, -2, 1]) (.one []) gp x axes a = slide (widened gp x a) ⟨a, [1, -2, 1], 1⟩ := by
    rw [hu, edgeResponse, filtered_nil]
    · rw [filtered, widened_eq gp x a rfl]
      rfl
    · intro b hb
      rw [hsh]
      exact hs.pos b (List.mem_of_mem_filter hb)
  have hsl : (slide (widened gp x a) ⟨a, [1, -2, 1], 1⟩).shape = x.shape := by
    rw [← hr]
    exact hs.response_shape _ ha
  rw [hr, pow_one, slide_three]
  rw [slide_three, shape_ofFn] at hsl
  rw [get_ofFn (by rw [hsl]; exact hix')]
  have hset : ix.set a (ix.getD a 0) = ix := set_getD_self
  rw [hset]
  ring

/-! ## C44 -/

theorem normalised_sum {w : List α} (h : w.sum ≠ 0) : (normalised w).sum = 1 := by
  have : w.map (· / w.sum) = w.map (· * (w.sum)⁻¹) := by
    apply List.map_congr_left
    intro v _
    exact div_eq_mul_inv _ _
  rw [normalised, this, List.sum_map_mul_right, List.map_id']
  exact mul_inv_cancel₀ h

/-- **C44**: with `normalize=True` the smoothing kernel used for the `i`-th smoothed axis is the given one times a common factor, and
sums to one unless the given one sums to zero. -/
theorem C44_normalised (hm : 0 < m) (hg : g.Fits m) (w : List α) :
    ∃ f, EdgeFilter.init (PoolArgs.pyKernel w) (g.toPy PoolArgs.pyKernel) true = .ok f ∧
      ∀ i, (g.isMany = true → i < m) → (g.entry [] i).sum ≠ 0 →
        ∃ v c, (f.smoothPool.kernel.get (i : Int)).bind SepPool.asVec = .ok v ∧ v = (g.entry [] i).map (c * ·) ∧ c ≠ 0 ∧ v.sum = 1 := by
  obtain ⟨f, e, h⟩ := edgeIs_init (w := w) hm hg true
  refine ⟨f, e, ?_⟩
  intro i hi hne
  simp only [if_true] at h
  have hk := h.smooth.getKernel (i := i) (by
    intro hh
    apply hi
    rw [← given_isMany_map normalised g]
    simpa [PoolArgs.filter, PoolArgs.isMany, Given.isMany] using hh)
  have he : (PoolArgs.filter (g.map normalised)).kernel.entry [] i = normalised (g.entry [] i) := given_entry_map normalised g [] i
  refine ⟨normalised (g.entry [] i), ((g.entry [] i).sum)⁻¹, ?_, ?_, inv_ne_zero hne, normalised_sum hne⟩
  · rw [hk, he]
  · rw [normalised]
    apply List.map_congr_left
    intro v _
    rw [div_eq_mul_inv, mul_comm]

/-- **C44** without normalisation the given kernels are used -/
theorem C44_not_normalised (hm : 0 < m) (hg : g.Fits m) (w : List α) :
    ∃ f, EdgeFilter.init (PoolArgs.pyKernel w) (g.toPy PoolArgs.pyKernel) false = .ok f ∧
      ∀ i, (g.isMany = true → i < m) → (f.smoothPool.kernel.get (i : Int)).bind SepPool.asVec = .ok (g.entry [] i) := by
  obtain ⟨f, e, h⟩ := edgeIs_init (w := w) hm hg false
  refine ⟨f, e, ?_⟩
  intro i hi
  simp only [Bool.false_eq_true, if_false] at h
  exact h.smooth.getKernel (i := i) (by
    intro hh
    apply hi
    simpa [PoolArgs.filter, PoolArgs.isMany, Given.isMany] using hh)

/-! ## C75: components and magnitude -/

/-- **C75**: `all_components` returns, axis by axis, the edge response along that axis smoothed along the other axes; all of them
have the shape of the image. -/
theorem C75_components (hb : EdgeBuilt f w g m) {ps : EdgePadders α} {gp : PadArgs α} (hps : HoldsBoth ps gp)
    {ax : Axes} {axes : List Nat} (hs : EdgeSetup g gp x ax axes) (hm : g.isMany = true → axes.length - 1 = m) (junk : List Nat → α) :
    ∃ ps', f.allComponents ps junk x ax = (ps', .ok (axes.map (edgeResponse (usedKernel w) g gp x axes))) ∧ HoldsBoth ps' gp ∧
      ∀ a ∈ axes, (edgeResponse (usedKernel w) g gp x axes a).shape = x.shape := by
  obtain ⟨ps', e, h⟩ := allComponents_eq (f := f) (junk := junk) (Inv := fun ps => HoldsBoth ps gp)
    (c := edgeResponse (usedKernel w) g gp x axes) hs.axes_eq hs.two hps
    (fun a ha ps hps => hs.component hb.edgeIs hm ha hps junk)
  exact ⟨ps', e, h, fun a ha => hs.response_shape _ ha⟩

theorem component_pair (f : EdgeFilter α) (ps : EdgePadders α) (junk : List Nat → α) {x : Tensor α} {a b : Nat} {i j : Int} {axes : List Nat} (hab : a ≠ b)
    (hi : checkAxes x.ndim (.int i) = .ok [(a : Int)]) (hj : checkAxes x.ndim (.int j) = .ok [(b : Int)]) (hlt : ∀ c ∈ axes, c < x.ndim)
    (ha : a ∈ axes) (hfil : axes.filter (fun c => c ≠ a) = [b]) :
    f.component ps junk x (.int i) (.int j) = f.component ps junk x (.int a) (.seq (castV axes)) := by
  have h1 : checkAxes x.ndim (.int a) = .ok [(a : Int)] := by simp [checkAxes]
  have h2 : checkAxes x.ndim (.seq (castV axes)) = .ok (castV axes) := checkAxes_castV hlt
  have h3 : ([(b : Int)].filter fun c => c ≠ (a : Int)) = [(b : Int)] := by
    simp only [ne_eq, decide_not, List.filter_cons, List.filter_nil]
    rw [if_pos]
    simp only [Bool.not_eq_eq_eq_not, Bool.not_true, decide_eq_false_iff_not, Nat.cast_inj]
    exact fun h => hab h.symm
  simp only [EdgeFilter.component, hi, hj, h1, h2, castV_filter, hfil, h3]
  rfl

/-- **C75**: `horizontal` and `vertical` are the two components along the last two axes, in this order: `horizontal` differentiates along
axis -2 and smooths along axis -1, `vertical` the other way round. -/
theorem C75_horizontal_vertical (hb : EdgeBuilt f w g m) {ps : EdgePadders α} {gp : PadArgs α} (hps : HoldsBoth ps gp) (hn : 2 ≤ x.ndim)
    (hs : EdgeSetup g gp x (.seq [-2, -1]) [x.ndim - 2, x.ndim - 1]) (hm : g.isMany = true → m = 1) (junk : List Nat → α) :
    (∃ ps', f.horizontal ps junk x = (ps', .ok (edgeResponse (usedKernel w) g gp x [x.ndim - 2, x.ndim - 1] (x.ndim - 2))) ∧ HoldsBoth ps' gp) ∧
      (∃ ps', f.vertical ps junk x = (ps', .ok (edgeResponse (usedKernel w) g gp x [x.ndim - 2, x.ndim - 1] (x.ndim - 1))) ∧ HoldsBoth ps' gp) ∧
      ∃ ps', f.allComponents ps junk x (.seq [-2, -1]) = (ps', .ok [edgeResponse (usedKernel w) g gp x [x.ndim - 2, x.ndim - 1] (x.ndim - 2),
        edgeResponse (usedKernel w) g gp x [x.ndim - 2, x.ndim - 1] (x.ndim - 1)]) := by
  have hlt := (checkAxes_spec hs.axes_eq).2
  have c2 : checkAxes x.ndim (.int (-2)) = .ok [((x.ndim - 2 : Nat) : Int)] := by
    simp only [checkAxes]
    congr 2
    split_ifs <;> omega
  have c1 : checkAxes x.ndim (.int (-1)) = .ok [((x.ndim - 1 : Nat) : Int)] := by
    simp only [checkAxes]
    congr 2
    split_ifs <;> omega
  have hne : x.ndim - 2 ≠ x.ndim - 1 := by omega
  have hm' : g.isMany = true → [x.ndim - 2, x.ndim - 1].length - 1 = m := fun h => (hm h).symm
  refine ⟨?_, ?_, ?_⟩
  · rw [EdgeFilter.horizontal, component_pair f ps junk hne c2 c1 hlt (by simp) (by simp [hne.symm])]
    exact hs.component hb.edgeIs hm' (by simp) hps junk
  · rw [EdgeFilter.vertical, component_pair f ps junk hne.symm c1 c2 hlt (by simp) (by simp [hne])]
    exact hs.component hb.edgeIs hm' (by simp) hps junk
  · obtain ⟨ps', e, _⟩ := C75_components hb hps hs hm' junk
    exact ⟨ps', e⟩

/-- **C75**: `magnitude` is the root of `epsilon` plus the sum of the `p`-th powers of the components; no root for `p = 1`.  (With
`p = 1` and two empty kernels the sum is accumulated in the image itself, see `C128_identity`.) -/
theorem C75_magnitude (hb : EdgeBuilt f w g m) {ps : EdgePadders α} {gp : PadArgs α} (hps : HoldsBoth ps gp)
    {ax : Axes} {axes : List Nat} (hs : EdgeSetup g gp x ax axes) (hm : g.isMany = true → axes.length - 1 = m) (root : α → α) (epsilon : α)
    {p : Nat} (hp : p ≠ 0) (hact : Acts w g axes.length p) (junk : List Nat → α) :
    ∃ ps' z cs, f.magnitude root ps junk x ax epsilon p = (ps', .ok z) ∧ (f.allComponents ps junk x ax).2 = .ok cs ∧ z.shape = x.shape ∧
      ∀ ix, InB x.shape ix → z.get ix = if p = 1 then (cs.map fun c => c.get ix).sum + epsilon
        else root ((cs.map fun c => c.get ix ^ p).sum + epsilon) := by
  obtain ⟨ps', e, h⟩ := magnitude_eq (f := f) (junk := junk) (Inv := fun ps => HoldsBoth ps gp) (root := root) hp (S := x.shape)
    (c := edgeResponse (usedKernel w) g gp x axes) hs.axes_eq hs.two hps
    (fun a ha ps hps => hs.component hb.edgeIs hm ha hps junk) (fun a ha => hs.response_shape _ ha) (hs.own hb.edgeIs hm hact junk) epsilon
  obtain ⟨ps2, e2, _⟩ := C75_components hb hps hs hm junk
  refine ⟨ps', _, _, e, by rw [e2], rfl, ?_⟩
  intro ix hix
  rw [get_map _ _ (by simpa [powerSum] using hix), powerSum, get_ofFn hix, List.map_map, List.map_map]
  split_ifs with h1
  · subst h1
    simp only [pow_one]
    rfl
  · rfl

/-- the power 0 is refused, after all components have been computed: `1 / p` divides by zero -/
theorem C75_zero_power (hb : EdgeBuilt f w g m) {ps : EdgePadders α} {gp : PadArgs α} (hps : HoldsBoth ps gp)
    {ax : Axes} {axes : List Nat} (hs : EdgeSetup g gp x ax axes) (hm : g.isMany = true → axes.length - 1 = m) (root : α → α) (epsilon : α)
    (junk : List Nat → α) : (f.magnitude root ps junk x ax epsilon 0).2 = .error .zeroDivision := by
  obtain ⟨ps1, e1, h1⟩ := magnitudeLoop_eq (p := 0) (f := f) (junk := junk) (Inv := fun ps => HoldsBoth ps gp) (S := x.shape)
    (c := edgeResponse (usedKernel w) g gp x axes) (as := axes) (by rintro rfl; simpa using hs.two) hps
    (fun a ha ps hps => hs.component hb.edgeIs hm ha hps junk) (fun a ha => hs.response_shape _ ha) (Or.inl zero_ne_one)
  have hlen : ¬ (castV axes).length < 2 := by rw [castV, List.length_map]; have := hs.two; omega
  simp only [EdgeFilter.magnitude, EdgeFilter.magnitudeInPlace, (checkAxes_spec hs.axes_eq).1, hlen, if_false, e1, zero_ne_one, if_true]

/-- fewer than two axes are refused -/
theorem C75_one_axis {ax : Axes} {axes : List Nat} (hax : axesOf x.ndim ax = some axes) (h : axes.length < 2) (f : EdgeFilter α)
    (ps : EdgePadders α) (root : α → α) (epsilon : α) (p : Nat) (junk : List Nat → α) :
    f.allComponents ps junk x ax = (ps, .error .value) ∧ f.magnitude root ps junk x ax epsilon p = (ps, .error .value) := by
  have hl : (castV axes).length < 2 := by simpa [castV] using h
  simp only [EdgeFilter.allComponents, EdgeFilter.magnitude, EdgeFilter.magnitudeInPlace, (checkAxes_spec hax).1, hl, if_true, and_self]

end

end TI
