import Verif.Spec.Edges
import Verif.Proofs.PoolBuilt
import Verif.Proofs.Exclude
import Verif.Proofs.IdxCongr
import Verif.Props.Pool

/-!
# Edge filters: fast paths, components, responses of constants
-/

set_option linter.unusedSectionVars false

namespace TI
open Tensor Spec

/-! ## slices along one axis -/

section
variable {α : Type} [Zero α] {x : Tensor α} {a : Nat}

theorem sliceAt_eq (ha : a < x.ndim) {s : PySlice} {lo cnt : Nat} (hs : s.resolve (x.shape.getD a 0) = ⟨lo, cnt, 1⟩) :
    x.sliceAt s (a : Int) = .ok (ofFn (x.shape.set a cnt) fun ix => x.get (ix.set a (lo + ix.getD a 0))) := by
  simp only [Tensor.sliceAt, convDim_nat ha, bind, Except.bind, Tensor.getSlice]
  have ha' : a < x.shape.length := ha
  rw [Tensor.ndim, resolveAll_makeIdx ha', hs]
  have e1 : ((x.shape.map fun n => toRng (0, n)).set a ⟨lo, cnt, 1⟩).map (·.cnt) = x.shape.set a cnt := by
    rw [List.map_set, List.map_map]
    congr 1
    conv_rhs => rw [← List.map_id x.shape]
    apply List.map_congr_left
    intro n _
    simp [toRng]
  rw [e1]
  congr 1
  apply ofFn_congr
  intro ix hix
  congr 1
  have hl := hix.length_eq
  rw [List.length_set] at hl
  apply list_ext_getD
  · simp [rngMap, hl]
  · intro k hk
    simp only [rngMap, List.length_zipWith, List.length_set, List.length_map] at hk
    have hk1 : k < x.shape.length := by omega
    have hk2 : k < ix.length := by omega
    by_cases hka : k = a
    · subst hka
      rw [getD_set_self _ _ _ _ hk2]
      simp [rngMap, hk1, hk2]
    · rw [getD_set_ne _ _ _ _ _ hka]
      have : (((x.shape.map fun n => toRng (0, n)).set a ⟨lo, cnt, 1⟩)[k]?) = some (toRng (0, x.shape.getD k 0)) := by
        rw [List.getElem?_set_ne (by omega)]
        simp [hk1]
      simp only [rngMap, List.getD_eq_getElem?_getD, List.getElem?_zipWith, this]
      simp [hk2, toRng]

theorem bop_same {β γ : Type} [Zero β] {f : α → β → γ} {x : Tensor α} {y : Tensor β} (h : x.shape = y.shape) :
    bop f x y = .ok (ofFn x.shape fun ix => f (x.get ix) (y.get ix)) := by
  rw [bop, h, bshape_self]
  simp only
  congr 1
  apply ofFn_congr
  intro ix hix
  rw [bidx_self hix]

end

theorem resolve_from_two (n : Nat) : (PySlice.from 2).resolve n = ⟨min 2 n, n - 2, 1⟩ := by
  simp only [PySlice.from, PySlice.resolve, normBound, Rng.mk.injEq]
  refine ⟨by simp, ?_, trivial⟩
  simp only [show ¬ ((2 : Int) < 0) by omega, if_false]
  rw [show (2 : Int).toNat = 2 by rfl]
  omega

theorem resolve_upto_two (n : Nat) : (PySlice.between 0 (-2)).resolve n = ⟨0, n - 2, 1⟩ := by
  simp only [PySlice.between, PySlice.resolve, normBound, Rng.mk.injEq]
  refine ⟨by simp, ?_, trivial⟩
  simp only [show ¬ ((0 : Int) < 0) by omega, if_false, show ((-2 : Int) < 0) by omega, if_true]
  omega

theorem resolve_inner (n : Nat) : (PySlice.between 1 (-1)).resolve n = ⟨min 1 n, n - 2, 1⟩ := by
  simp only [PySlice.between, PySlice.resolve, normBound, Rng.mk.injEq]
  refine ⟨by simp, ?_, trivial⟩
  simp only [show ¬ ((1 : Int) < 0) by omega, if_false, show ((-1 : Int) < 0) by omega, if_true]
  rw [show (1 : Int).toNat = 1 by rfl]
  omega

section
variable {α : Type} [Field α] [LinearOrder α] {x : Tensor α} {a : Nat}

theorem windowCount_three (n : Nat) : windowCount n 3 1 1 = n - 2 := by
  rw [windowCount]
  have : ∀ m, m ≤ n → (List.range m).countP (fun t => decide (t * 1 + 1 * (3 - 1) < n)) = min m (n - 2) := by
    intro m
    induction m with
    | zero => intro _; simp
    | succ m ih =>
      intro hm
      rw [List.range_succ, List.countP_append, ih (by omega)]
      by_cases h : m * 1 + 1 * (3 - 1) < n
      · simp only [List.countP_cons, List.countP_nil, h, decide_true, if_true]; omega
      · simp only [List.countP_cons, List.countP_nil, h, decide_false]; simp; omega
  rw [this n le_rfl]
  omega

theorem slide_three (x : Tensor α) (a : Nat) (u v w : α) : slide x ⟨a, [u, v, w], 1⟩ =
    ofFn (x.shape.set a (x.shape.getD a 0 - 2)) fun ix =>
      u * x.get (ix.set a (ix.getD a 0)) + (v * x.get (ix.set a (ix.getD a 0 + 1)) + w * x.get (ix.set a (ix.getD a 0 + 2))) := by
  rw [slide, if_neg (by simp)]
  simp only [List.length_cons, List.length_nil]
  rw [show (0 + 1 + 1 + 1) = 3 by rfl, windowCount_three]
  apply ofFn_congr
  intro ix _
  simp [List.range_succ]

/-- the slices of the first fast path are the correlation with `(-1, 0, 1)` -/
theorem firstDiff_eq (ha : a < x.ndim) : EdgeFilter.firstDiff x (a : Int) = .ok (slide x ⟨a, [-1, 0, 1], 1⟩) := by
  rw [EdgeFilter.firstDiff, sliceAt_eq ha (resolve_from_two _), sliceAt_eq ha (resolve_upto_two _)]
  simp only [ok_bind]
  rw [bop_same (by simp), slide_three]
  congr 1
  apply ofFn_congr
  intro ix hix
  have ha' : a < x.shape.length := ha
  have h2 : 2 ≤ x.shape.getD a 0 := by
    have := hix.lt (k := a) (by simpa using ha')
    simp only [shape_ofFn] at this
    rw [getD_set_self _ _ _ _ ha'] at this
    omega
  have hix' : InB (x.shape.set a (x.shape.getD a 0 - 2)) ix := hix
  rw [get_ofFn hix', get_ofFn hix', Nat.min_eq_left h2, Nat.zero_add, Nat.add_comm 2]
  ring

/-- the slices of the second fast path are the correlation with `(1, -2, 1)` -/
theorem secondDiff_eq (ha : a < x.ndim) : EdgeFilter.secondDiff x (a : Int) = .ok (slide x ⟨a, [1, -2, 1], 1⟩) := by
  rw [EdgeFilter.secondDiff, sliceAt_eq ha (resolve_from_two _), sliceAt_eq ha (resolve_upto_two _), sliceAt_eq ha (resolve_inner _)]
  simp only [ok_bind]
  rw [bop_same (by simp)]
  simp only [ok_bind]
  rw [bop_same (by simp), slide_three]
  congr 1
  apply ofFn_congr
  intro ix hix
  have ha' : a < x.shape.length := ha
  have h2 : 2 ≤ x.shape.getD a 0 := by
    have := hix.lt (k := a) (by simpa using ha')
    simp only [shape_ofFn] at this
    rw [getD_set_self _ _ _ _ ha'] at this
    omega
  have hix' : InB (x.shape.set a (x.shape.getD a 0 - 2)) ix := hix
  rw [get_ofFn (by simpa using hix'), get_map _ _ (by simpa using hix'), get_ofFn hix', get_ofFn hix', get_ofFn hix', Nat.min_eq_left h2,
    Nat.min_eq_left (by omega), Nat.zero_add, Nat.add_comm 2, Nat.add_comm 1]
  ring

/-! ## construction -/

theorem reweight_kernel (w : List α) : EdgeFilter.reweight (PoolArgs.pyKernel w) = .ok (PoolArgs.pyKernel (normalised w)) := by
  simp only [EdgeFilter.reweight, asVec_kernel, ok_bind]
  rw [PoolArgs.pyKernel, normalised, List.map_map]
  rfl

/-- what the object `f` stores: edge kernel `w`, smoothing kernels `g` (for `m` axes, if a list) -/
structure EdgeIs (f : EdgeFilter α) (w : List α) (g : Given (List α)) (m : Nat) : Prop where
  pos : 0 < m
  kernel : IsSpec f.edgeKernel PoolArgs.pyKernel (.one w)
  edge : PoolIs f.edgePool (PoolArgs.filter (.one w)) m
  smooth : PoolIs f.smoothPool (PoolArgs.filter g) m

theorem edgeIs_ofSpecs {e s : NdSpec α} {w : List α} {g : Given (List α)} {m : Nat} (hm : 0 < m) (he : IsSpec e PoolArgs.pyKernel (.one w))
    (hs : IsSpec s PoolArgs.pyKernel g) (hg : g.Fits m) (normalize : Bool) :
    ∃ f, EdgeFilter.ofSpecs e s normalize = .ok f ∧ EdgeIs f w (if normalize then g.map normalised else g) m := by
  have hidx : e.indexShape = [] := by
    have := he.indexShape (m := m) trivial
    simpa [Given.isMany] using this
  have hnone : ∀ g' : Given (List α), (⟨g', .one none⟩ : PoolArgs α).Valid := by
    intro g' s hs
    simp only [Given.values, List.mem_singleton] at hs
    rw [hs]; simp
  obtain ⟨s', e1, h1⟩ : ∃ s', (if normalize then s.map EdgeFilter.reweight else .ok s) = .ok s' ∧
      IsSpec s' PoolArgs.pyKernel (if normalize then g.map normalised else g) := by
    cases normalize with
    | false => exact ⟨s, rfl, hs⟩
    | true => exact hs.map (func := EdgeFilter.reweight) (f' := PoolArgs.pyKernel) (F := normalised) fun b _ => reweight_kernel b
  have hg' : (if normalize then g.map normalised else g).Fits m := by
    cases normalize with
    | false => exact hg
    | true => exact given_fits_map _ hg
  obtain ⟨ep, e2, h2⟩ := poolIs_ofSpec (g := ⟨.one w, .one none⟩) hm ⟨trivial, trivial⟩ (hnone _) he
  obtain ⟨ep', e3, h3⟩ := h2.toFilter
  obtain ⟨sp, e4, h4⟩ := poolIs_ofSpec (g := ⟨if normalize then g.map normalised else g, .one none⟩) hm ⟨hg', trivial⟩ (hnone _) h1
  obtain ⟨sp', e5, h5⟩ := h4.toFilter
  have e2' : SepPool.ofSpec e (.leaf none) = .ok ep := e2
  have e4' : SepPool.ofSpec s' (.leaf none) = .ok sp := e4
  refine ⟨⟨e, ep', sp'⟩, ?_, hm, he, h3, h5⟩
  simp only [EdgeFilter.ofSpecs, hidx, ne_eq, not_true_eq_false, if_false, e1, e2', e3, e4', e5, ok_bind]

theorem edgeIs_init {w : List α} {g : Given (List α)} {m : Nat} (hm : 0 < m) (hg : g.Fits m) (normalize : Bool) :
    ∃ f, EdgeFilter.init (PoolArgs.pyKernel w) (g.toPy PoolArgs.pyKernel) normalize = .ok f ∧
      EdgeIs f w (if normalize then g.map normalised else g) m := by
  obtain ⟨e, e1, h1⟩ := ofItem_kernel (g := .one w) hm trivial
  have e1' : NdSpec.ofItem [-1] (PoolArgs.pyKernel w) = .ok e := e1
  obtain ⟨s, e2, h2⟩ := ofItem_kernel hm hg
  obtain ⟨f, e3, h3⟩ := edgeIs_ofSpecs hm h1 h2 hg normalize
  have hidx : e.indexShape = [] := by
    have := h1.indexShape (m := m) trivial
    simpa [Given.isMany] using this
  refine ⟨f, ?_, h3⟩
  simp only [EdgeFilter.init, e1', hidx, ne_eq, not_true_eq_false, if_false, e2, ok_bind]
  exact e3

theorem EdgeIs.kernel_get {f : EdgeFilter α} {w : List α} {g : Given (List α)} {m : Nat} (h : EdgeIs f w g m) :
    (f.edgeKernel.get 0).bind SepPool.asVec = .ok w := by
  have := h.kernel.get (m := m) trivial [] (i := 0) (by intro h; cases h)
  rw [show ((0 : Nat) : Int) = 0 from rfl] at this
  rw [this]
  exact asVec_kernel w

end

section
variable {α : Type} [Field α] [LinearOrder α] [IsStrictOrderedRing α] {x : Tensor α} {a : Nat}

theorem pad_int (pool : SepPool α) (p : Option (Padder α)) (junk : List Nat → α) (x : Tensor α) (ha : a < x.ndim) :
    pool.pad p junk x (.int a) = pool.pad p junk x (.seq (castV [a])) := by
  have h1 : checkAxes x.ndim (.int a) = .ok (castV [a]) := by
    simp [checkAxes, castV]
  have h2 : checkAxes x.ndim (.seq (castV [a])) = .ok (castV [a]) := checkAxes_castV (by simpa using ha)
  simp only [SepPool.pad, h1, h2]

/-- `forward` on a single axis is `pad` followed by one window pass -/
theorem forward_int {pool : SepPool α} {w : List α} {m : Nat} (h : PoolIs pool (PoolArgs.filter (.one w)) m) (p : Option (Padder α))
    (junk : List Nat → α) (ha : a < x.ndim) :
    pool.forward p junk x (.int a) = ((pool.pad p junk x (.int a)).1, (pool.pad p junk x (.int a)).2.bind fun y => SepPool.poolLoop pool 0 (castV [a]) y) := by
  have h1 : checkAxes x.ndim (.int a) = .ok (castV [a]) := by simp [checkAxes, castV]
  have hnd : pool.ndim = 0 := by
    rw [h.ndim]
    rfl
  rw [SepPool.forward, h1]
  simp only [hnd, true_or, if_true, ← pad_int pool p junk x ha]
  rcases pool.pad p junk x (.int a) with ⟨p', r⟩
  cases r <;> rfl

theorem filter_matches {w : List α} {i m : Nat} : (PoolArgs.filter (.one w)).isMany = true → i < m := by
  intro h
  cases h

theorem ops_single (w : List α) (a : Nat) : (PoolArgs.filter (.one w)).ops [a] = [⟨a, w, 1⟩] := rfl

theorem loop_single {pool : SepPool α} {w : List α} {m : Nat} (h : PoolIs pool (PoolArgs.filter (.one w)) m) {y : Tensor α}
    (ha : w ≠ [] → a < y.ndim ∧ w.length ≤ y.shape.getD a 0) :
    SepPool.poolLoop pool 0 (castV [a]) y = .ok (slide y ⟨a, w, 1⟩) := by
  have hf : Fitting y ((PoolArgs.filter (.one w)).ops [a]) :=
    ⟨fun hk => ⟨(ha hk).1, Nat.one_pos, (ha hk).2⟩, trivial⟩
  rw [h.loop_all (by intro h; cases h) hf]
  rfl

theorem lt_ndim_of_size {y : Tensor α} (h : 0 < y.shape.getD a 0) : a < y.ndim := by
  by_contra hc
  rw [Tensor.ndim] at hc
  simp [List.getD_eq_getElem?_getD, List.getElem?_eq_none (Nat.le_of_not_lt hc)] at h

/-! ## the kernels the fast paths are used for -/

variable [FloorRing α]

theorem truncInt_one (v : α) : truncInt v = 1 ↔ 1 ≤ v ∧ v < 2 := by
  rw [truncInt]
  split_ifs with h
  · rw [Int.floor_eq_iff]; norm_num
  · push Not at h
    constructor
    · intro e
      rw [Int.ceil_eq_iff] at e
      have := e.1
      norm_num at this
      linarith
    · intro e; linarith [e.1]

theorem truncInt_neg_one (v : α) : truncInt v = -1 ↔ -2 < v ∧ v ≤ -1 := by
  rw [truncInt]
  split_ifs with h
  · constructor
    · intro e
      rw [Int.floor_eq_iff] at e
      have := e.2
      norm_num at this
      linarith
    · intro e; linarith [e.2]
  · rw [Int.ceil_eq_iff]; norm_num

theorem truncInt_zero (v : α) : truncInt v = 0 ↔ -1 < v ∧ v < 1 := by
  rw [truncInt]
  split_ifs with h
  · rw [Int.floor_eq_iff, Int.cast_zero, zero_add]
    constructor
    · intro e; exact ⟨by linarith, e.2⟩
    · intro e; exact ⟨h, e.2⟩
  · rw [Int.ceil_eq_iff, Int.cast_zero, zero_sub]
    push Not at h
    constructor
    · intro e; exact ⟨e.1, by linarith⟩
    · intro e; exact ⟨e.1, h.le⟩

theorem truncInt_neg_two (v : α) : truncInt v = -2 ↔ -3 < v ∧ v ≤ -2 := by
  rw [truncInt]
  split_ifs with h
  · constructor
    · intro e
      rw [Int.floor_eq_iff] at e
      have := e.2
      norm_num at this
      linarith
    · intro e; linarith [e.2]
  · rw [Int.ceil_eq_iff]; norm_num

theorem trunc_first (w : List α) : w.map truncInt = [-1, 0, 1] ↔ TakenForFirst w := by
  match w with
  | [] => simp [TakenForFirst]
  | [_] => simp [TakenForFirst]
  | [_, _] => simp [TakenForFirst]
  | [a, b, c] => simp [TakenForFirst, truncInt_one, truncInt_neg_one, truncInt_zero, and_assoc]
  | _ :: _ :: _ :: _ :: _ => simp [TakenForFirst]

theorem trunc_second (w : List α) : w.map truncInt = [1, -2, 1] ↔ TakenForSecond w := by
  match w with
  | [] => simp [TakenForSecond]
  | [_] => simp [TakenForSecond]
  | [_, _] => simp [TakenForSecond]
  | [a, b, c] => simp [TakenForSecond, truncInt_one, truncInt_neg_two, and_assoc]
  | _ :: _ :: _ :: _ :: _ => simp [TakenForSecond]

/-- what `_conv_edge` does -/
theorem convEdge_eq {f : EdgeFilter α} {w : List α} {g : Given (List α)} {m : Nat} (h : EdgeIs f w g m) (ps : EdgePadders α)
    (junk : List Nat → α) (x : Tensor α) (axis : Int) :
    f.convEdge ps junk x axis =
      if w.map truncInt = [-1, 0, 1] then
        (ps.setEdge (f.edgePool.pad ps.edge junk x (.int axis)).1,
          (f.edgePool.pad ps.edge junk x (.int axis)).2.bind fun y => EdgeFilter.firstDiff y axis)
      else if w.map truncInt = [1, -2, 1] then
        (ps.setEdge (f.edgePool.pad ps.edge junk x (.int axis)).1,
          (f.edgePool.pad ps.edge junk x (.int axis)).2.bind fun y => EdgeFilter.secondDiff y axis)
      else (ps.setEdge (f.edgePool.forward ps.edge junk x (.int axis)).1, (f.edgePool.forward ps.edge junk x (.int axis)).2) := by
  simp only [EdgeFilter.convEdge, h.kernel_get]

/-- the kernel that `_conv_edge` really applies -/
theorem convEdge_used {f : EdgeFilter α} {w : List α} {g : Given (List α)} {m : Nat} (h : EdgeIs f w g m) (ps : EdgePadders α)
    (junk : List Nat → α) (ha : a < x.ndim) :
    (∀ y, (f.edgePool.pad ps.edge junk x (.int a)).2 = .ok y → w ≠ [] → a < y.ndim ∧ w.length ≤ y.shape.getD a 0) →
    f.convEdge ps junk x (a : Int) =
      (ps.setEdge (f.edgePool.pad ps.edge junk x (.int a)).1,
        (f.edgePool.pad ps.edge junk x (.int a)).2.bind fun y => .ok (slide y ⟨a, usedKernel w, 1⟩)) := by
  intro hy
  rw [convEdge_eq h, forward_int h.edge ps.edge junk ha]
  rcases hr : f.edgePool.pad ps.edge junk x (.int a) with ⟨p', r⟩
  rw [hr] at hy
  by_cases h1 : TakenForFirst w
  · rw [if_pos ((trunc_first w).2 h1)]
    simp only [usedKernel, if_pos h1]
    refine Prod.ext rfl ?_
    cases r with
    | error e => rfl
    | ok y =>
      have hne : w ≠ [] := by rintro rfl; simp [TakenForFirst] at h1
      exact firstDiff_eq (hy y rfl hne).1
  · rw [if_neg (fun e => h1 ((trunc_first w).1 e))]
    by_cases h2 : TakenForSecond w
    · rw [if_pos ((trunc_second w).2 h2)]
      simp only [usedKernel, if_neg h1, if_pos h2]
      refine Prod.ext rfl ?_
      cases r with
      | error e => rfl
      | ok y =>
        have hne : w ≠ [] := by rintro rfl; simp [TakenForSecond] at h2
        exact secondDiff_eq (hy y rfl hne).1
    · rw [if_neg (fun e => h2 ((trunc_second w).1 e))]
      simp only [usedKernel, if_neg h1, if_neg h2]
      refine Prod.ext rfl ?_
      cases r with
      | error e => rfl
      | ok y => exact loop_single h.edge (hy y rfl)

/-- what `forward` of the edge filter does on one axis -/
theorem forward_edge {f : EdgeFilter α} {w : List α} {g : Given (List α)} {m : Nat} (h : EdgeIs f w g m) (p : Option (Padder α))
    (junk : List Nat → α) (ha : a < x.ndim)
    (hy : ∀ y, (f.edgePool.pad p junk x (.int a)).2 = .ok y → w ≠ [] → a < y.ndim ∧ w.length ≤ y.shape.getD a 0) :
    f.edgePool.forward p junk x (.int a) = ((f.edgePool.pad p junk x (.int a)).1,
        (f.edgePool.pad p junk x (.int a)).2.bind fun y => .ok (slide y ⟨a, w, 1⟩)) := by
  rw [forward_int h.edge p junk ha]
  refine Prod.ext rfl ?_
  rcases hr : f.edgePool.pad p junk x (.int a) with ⟨p', r⟩
  rw [hr] at hy
  cases r with
  | error e => rfl
  | ok y => exact loop_single h.edge (hy y rfl)

/-! ## components -/

/-- both padders hold the settings `gp` -/
def HoldsBoth (ps : EdgePadders α) (gp : PadArgs α) : Prop := ∃ e s, ps.edge = some e ∧ ps.smooth = some s ∧ Holds e gp ∧ Holds s gp

theorem HoldsBoth.setEdge {ps : EdgePadders α} {gp : PadArgs α} (h : HoldsBoth ps gp) {p : Padder α} (hp : Holds p gp) :
    HoldsBoth (ps.setEdge (some p)) gp := by
  obtain ⟨e, s, h1, h2, h3, h4⟩ := h
  cases ps with
  | shared q => exact ⟨p, p, rfl, rfl, hp, hp⟩
  | separate e' s' =>
    simp only [EdgePadders.smooth, Option.some.injEq] at h2
    exact ⟨p, s', rfl, rfl, hp, h2 ▸ h4⟩

theorem HoldsBoth.setSmooth {ps : EdgePadders α} {gp : PadArgs α} (h : HoldsBoth ps gp) {p : Padder α} (hp : Holds p gp) :
    HoldsBoth (ps.setSmooth (some p)) gp := by
  obtain ⟨e, s, h1, h2, h3, h4⟩ := h
  cases ps with
  | shared q => exact ⟨p, p, rfl, rfl, hp, hp⟩
  | separate e' s' =>
    simp only [EdgePadders.edge, Option.some.injEq] at h1
    exact ⟨e', p, rfl, rfl, h1 ▸ h3, hp⟩

theorem castV_filter (axes : List Nat) (a : Nat) :
    (castV axes).filter (fun b => decide (b ≠ (a : Int))) = castV (axes.filter fun b => b ≠ a) := by
  rw [castV, castV, List.filter_map]
  congr 1
  apply List.filter_congr
  intro b _
  simp

/-- the edge step with a same padder -/
theorem convEdge_same {f : EdgeFilter α} {w : List α} {g : Given (List α)} {m : Nat} (h : EdgeIs f w g m) {ps : EdgePadders α} {gp : PadArgs α}
    (hps : HoldsBoth ps gp) {ax : Axes} (hc : SameCall (PoolArgs.filter (.one w)) gp x ax [a]) (junk : List Nat → α) :
    ∃ ps', f.convEdge ps junk x (a : Int) = (ps', .ok (slide (padSeq x (sameOps (PoolArgs.filter (.one w)) gp x.shape [a])) ⟨a, usedKernel w, 1⟩)) ∧
      HoldsBoth ps' gp := by
  obtain ⟨e, s, h1, h2, h3, h4⟩ := id hps
  have ha : a < x.ndim := (checkAxes_spec hc.axes_eq).2 a (by simp)
  have hpad := h.edge.pad_same hc (by intro h; cases h) h3 junk
  have hpo := hc.poolOps
  rw [ops_single] at hpo
  refine ⟨_, ?_, hps.setEdge (holds_withWidths gp ((PoolArgs.filter (.one w)).widths x.shape [a]) 1)⟩
  rw [convEdge_used h ps junk ha, h1, pad_int _ _ _ _ ha, hpad]
  · rfl
  · rw [h1, pad_int _ _ _ _ ha, hpad]
    intro y hy hw
    cases hy
    exact ⟨hpo.axis ⟨a, w, 1⟩ (by simp) hw, hpo.fits ⟨a, w, 1⟩ (by simp) hw⟩

/-- the widths depend on the length of the kernel only -/
theorem sameOps_congr {w w' : List α} (hl : w.length = w'.length) (gp : PadArgs α) (shape axes : List Nat) :
    sameOps (PoolArgs.filter (.one w)) gp shape axes = sameOps (PoolArgs.filter (.one w')) gp shape axes := by
  have : (PoolArgs.filter (.one w)).widths shape axes = (PoolArgs.filter (.one w')).widths shape axes := by
    simp [PoolArgs.widths, PoolArgs.op, PoolArgs.filter, Given.entry, hl]
  rw [sameOps, sameOps, this]

theorem sameCall_congr {w w' : List α} (hl : w.length = w'.length) {gp : PadArgs α} {ax : Axes} {axes : List Nat}
    (h : SameCall (PoolArgs.filter (.one w)) gp x ax axes) : SameCall (PoolArgs.filter (.one w')) gp x ax axes where
  axes_eq := h.axes_eq
  ne := h.ne
  nodup := h.nodup
  fits := by intro h; cases h
  rest := h.rest
  stride := fun _ _ => Nat.one_pos
  pos := h.pos
  valued := by rw [← sameOps_congr hl]; exact h.valued

theorem usedKernel_length (w : List α) : (usedKernel w).length = w.length := by
  rw [usedKernel]
  split_ifs with h1 h2
  · match w, h1 with
    | [_, _, _], _ => rfl
  · match w, h2 with
    | [_, _, _], _ => rfl
  · rfl

/-- `component` with a same padder -/
theorem component_used {f : EdgeFilter α} {w : List α} {g : Given (List α)} {m : Nat} (h : EdgeIs f w g m)
    {ps : EdgePadders α} {gp : PadArgs α} (hps : HoldsBoth ps gp) {ea sa : Axes} {axes : List Nat} (hea : axesOf x.ndim ea = some [a])
    (hsa : axesOf x.ndim sa = some axes) (hc : EdgeCall (usedKernel w) g gp x axes a)
    (hm : g.isMany = true → (axes.filter fun b => b ≠ a).length = m) (junk : List Nat → α) :
    ∃ ps', f.component ps junk x ea sa = (ps', .ok (edgeResponse (usedKernel w) g gp x axes a)) ∧ HoldsBoth ps' gp := by
  obtain ⟨ps1, e1, h1⟩ := convEdge_same h hps (sameCall_congr (usedKernel_length w) hc.edge) junk
  rw [sameOps_congr (usedKernel_length w).symm] at e1
  have hy : slide (padSeq x (sameOps (PoolArgs.filter (.one (usedKernel w))) gp x.shape [a])) ⟨a, usedKernel w, 1⟩ =
      filtered (.one (usedKernel w)) gp x [a] := rfl
  rw [hy] at e1
  obtain ⟨e, s, q1, q2, q3, q4⟩ := id h1
  have hfw := h.smooth.forward_same hc.smooth (by
    intro hh
    apply hm
    simpa [PoolArgs.filter, PoolArgs.isMany, Given.isMany] using hh) q4 junk
  refine ⟨ps1.setSmooth (some ((gp.withWidths ((PoolArgs.filter g).widths (filtered (.one (usedKernel w)) gp x [a]).shape
    (axes.filter fun b => b ≠ a))).padder (axes.filter fun b => b ≠ a).length)), ?_, h1.setSmooth (holds_withWidths _ _ _)⟩
  have ce := (checkAxes_spec hea).1
  have cs := (checkAxes_spec hsa).1
  simp only [EdgeFilter.component, ce, cs]
  rw [show castV [a] = [(a : Int)] from rfl]
  simp only [e1, EdgeFilter.convSmooth, castV_filter, q2, hfw]
  rfl

end

end TI
