import Verif.Proofs.PoolLaws

/-!
# Ways to build a pooling module, sizes after same padding, call histories
-/

set_option linter.unusedSectionVars false

namespace TI
open Tensor Spec

variable {α : Type} [Field α] [LinearOrder α]

/-- the weights of an average over `k` samples -/
def Spec.avgKernel (k : Nat) : List α := List.replicate k (1 / (k : α))

/-- `pool` is a module with the kernels and strides `g` (for `m` axes, if `g` contains a list): built by
`SeparablePoolNd`, from a ready-made kernel specification (as subclasses do), by `AvgPoolNd`, or turned into a filter
with stride one -/
inductive Spec.Built : SepPool α → PoolArgs α → Nat → Prop
  | separable {g : PoolArgs α} {m : Nat} {pool : SepPool α} (hm : 0 < m) (hg : g.Fits m) (hv : g.Valid)
      (h : SepPool.init (g.kernel.toPy PoolArgs.pyKernel) (g.stride.toPy PoolArgs.pyStride) = .ok pool) : Built pool g m
  | spec {g : PoolArgs α} {m : Nat} {pool : SepPool α} {k : NdSpec α} (hm : 0 < m) (hg : g.Fits m) (hv : g.Valid)
      (hk : IsSpec k PoolArgs.pyKernel g.kernel)
      (h : SepPool.ofSpec k (g.stride.toPy PoolArgs.pyStride) = .ok pool) : Built pool g m
  | average {size : Given Nat} {st : Given (Option Nat)} {m : Nat} {pool : SepPool α} (hm : 0 < m) (hs : size.Fits m) (hst : st.Fits m)
      (hv : ∀ s ∈ st.values, s ≠ some 0)
      (h : SepPool.avgInit (size.toPy fun k : Nat => .leaf (some (k : Int))) (st.toPy PoolArgs.pyStride) = .ok pool) :
      Built pool ⟨size.map avgKernel, st⟩ m
  | filter {g : PoolArgs α} {m : Nat} {pool pool' : SepPool α} (hb : Built pool g m) (h : pool.toFilter = .ok pool') :
      Built pool' { g with stride := .one (some 1) } m

theorem toPy_map {β γ : Type} {δ : Type} (f : γ → Py δ) (F : β → γ) (g : Given β) : (g.map F).toPy f = g.toPy fun b => f (F b) := by
  cases g with
  | one b => rfl
  | many l => simp [Given.map, Given.toPy, Function.comp_def]

theorem poolIs_avg {size : Given Nat} {st : Given (Option Nat)} {m : Nat} (hm : 0 < m) (hs : size.Fits m) (hst : st.Fits m)
    (hv : ∀ s ∈ st.values, s ≠ some 0) :
    ∃ pool : SepPool α, SepPool.avgInit (size.toPy fun k : Nat => .leaf (some (k : Int))) (st.toPy PoolArgs.pyStride) = .ok pool ∧
      PoolIs pool ⟨size.map avgKernel, st⟩ m := by
  obtain ⟨ks, e1, h1⟩ := ofItem_strides (g := size.map some) hm (given_fits_map _ hs)
  rw [toPy_map] at e1
  have e1' : NdSpec.ofItem [] (size.toPy fun k : Nat => Py.leaf (some (k : Int))) = .ok ks := e1
  obtain ⟨k, e2, h2⟩ := h1.map (func := SepPool.avgItem (α := α)) (f' := PoolArgs.pyKernel)
    (F := fun k : Option Nat => avgKernel (k.getD 0)) (by
      intro b hb
      obtain ⟨n, rfl⟩ : ∃ n, b = some n := by
        cases size with
        | one s => exact ⟨s, by simpa [Given.map, Given.values] using hb⟩
        | many l =>
          have hb : b ∈ l.map some := hb
          obtain ⟨n, _, rfl⟩ := List.mem_map.1 hb
          exact ⟨n, rfl⟩
      simp only [PoolArgs.pyStride, Option.map_some, SepPool.avgItem, Option.getD_some, PoolArgs.pyKernel, avgKernel]
      rw [if_neg (by omega)]
      simp)
  have h2' : IsSpec k PoolArgs.pyKernel (size.map avgKernel) := by
    have : (size.map some).map (fun k : Option Nat => avgKernel (α := α) (k.getD 0)) = size.map avgKernel := by
      cases size with
      | one s => rfl
      | many l => simp [Given.map, Function.comp_def]
    rwa [this] at h2
  obtain ⟨pool, e3, h3⟩ := poolIs_ofSpec (g := ⟨size.map avgKernel, st⟩) hm ⟨given_fits_map _ hs, hst⟩ hv h2'
  refine ⟨pool, ?_, h3⟩
  simp only [SepPool.avgInit, e1', e2, bind, Except.bind]
  exact e3

theorem PoolIs.toFilter {pool : SepPool α} {g : PoolArgs α} {m : Nat} (h : PoolIs pool g m) :
    ∃ pool', pool.toFilter = .ok pool' ∧ PoolIs pool' { g with stride := .one (some 1) } m := by
  have e1 : NdSpec.ofItem [] (.leaf (some (1 : Int))) = .ok ⟨.leaf (some 1), [], 0⟩ := ofItem_leaf0 _
  have hst : IsSpec (⟨.leaf (some 1), [], 0⟩ : NdSpec (Option Int)) PoolArgs.pyStride (.one (some 1)) := ⟨rfl, rfl⟩
  have e2 : SepPool.alignParams pool.kernel ⟨.leaf (some 1), [], 0⟩ = .ok (if g.kernel.isMany then (m : Int) else 0) := by
    have a1 := h.kernel.indexShape h.fits.1
    have a2 := hst.indexShape (m := m) trivial
    simp only [Given.isMany] at a2
    rw [SepPool.alignParams, aggIndexLen_two (m := (m : Int)) (by simp), a1, a2]
    · cases hh : g.kernel.isMany <;> simp
    · intro s hs
      simp only [List.mem_cons, List.not_mem_nil, or_false] at hs
      rcases hs with rfl | rfl
      · rw [a1]; split_ifs <;> simp
      · rw [a2]; simp
  refine ⟨{ pool with stride := ⟨.leaf (some 1), [], 0⟩, ndim := if g.kernel.isMany then (m : Int) else 0 }, ?_, ⟨h.fits.1, trivial⟩,
    h.kernel, h.size, ⟨.one (some 1), hst, trivial, ?_, ?_⟩, ?_⟩
  · simp only [SepPool.toFilter, e1, e2, bind, Except.bind]
  · intro hh; cases hh
  · intro i _ axes; rfl
  · change _ = if (g.kernel.isMany || false) = true then _ else _
    simp only [Bool.or_false]

theorem Spec.Built.poolIs {pool : SepPool α} {g : PoolArgs α} {m : Nat} (h : Built pool g m) : PoolIs pool g m ∧ 0 < m ∧ g.Valid := by
  induction h with
  | separable hm hg hv h =>
    obtain ⟨pool', e, h'⟩ := poolIs_init hm hg hv
    rw [e] at h; cases h
    exact ⟨h', hm, hv⟩
  | spec hm hg hv hk h =>
    obtain ⟨pool', e, h'⟩ := poolIs_ofSpec hm hg hv hk
    rw [e] at h; cases h
    exact ⟨h', hm, hv⟩
  | average hm hs hst hv h =>
    obtain ⟨pool', e, h'⟩ := poolIs_avg (α := α) hm hs hst hv
    rw [e] at h; cases h
    exact ⟨h', hm, hv⟩
  | filter hb h ih =>
    obtain ⟨pool', e, h'⟩ := ih.1.toFilter
    rw [e] at h; cases h
    refine ⟨h', ih.2.1, ?_⟩
    intro s hs
    simp only [Given.values, List.mem_singleton] at hs
    rw [hs]; simp

variable [IsStrictOrderedRing α]

theorem PoolIs.fits_axes {pool : SepPool α} {g : PoolArgs α} {m : Nat} (h : PoolIs pool g m) {k : Nat} (hm : g.isMany = true → k = m) :
    g.Fits k := by
  cases hh : g.isMany with
  | true => rw [hm hh]; exact h.fits
  | false => exact fits_of_not_many hh _

/-! ## sizes after same padding -/

theorem sameTotal_windows {k s n : Nat} (hk : 0 < k) (hs : 0 < s) (hn : 0 < n) :
    windowCount (n + PoolArgs.sameTotal k s n) k s 1 = ceilDiv n s := by
  rw [windowCount_eq hs, Nat.one_mul, PoolArgs.sameTotal]
  obtain ⟨c1, c2, c3⟩ := ceilDiv_bounds hs hn
  generalize hc : ceilDiv n s = c at *
  obtain ⟨c, rfl⟩ : ∃ c', c = c' + 1 := ⟨c - 1, by omega⟩
  simp only [Nat.add_sub_cancel] at c2 c3
  have e : ((c + 1 : Nat) : Int) * s - s + k - n = ((c * s : Nat) : Int) + k - n := by push_cast; ring
  rw [e, if_pos (by omega)]
  congr 1
  rw [Nat.div_eq_iff hs]
  constructor <;> omega

theorem ceilDiv_one (n : Nat) : ceilDiv n 1 = n := by
  rw [ceilDiv_eq (by omega)]
  simp

variable {pool : SepPool α} {g : PoolArgs α} {m : Nat}

/-- size of a same-padded axis -/
theorem Spec.SameReq.padded_size_of {gp : PadArgs α} {x y : Tensor α} {ax : Axes} {axes : List Nat} (h : SameReq g gp x ax axes)
    (hy : PaddedShape (sameOps g gp x.shape axes) x y) {i : Nat} (hi : i < axes.length) (hper : (gp.mode.entry .unknown i).isPeriodize = false ∨ x.shape.getD (axes.getD i 0) 0 % 2 = 0) :
    y.shape.getD (axes.getD i 0) 0 =
      x.shape.getD (axes.getD i 0) 0 +
        PoolArgs.sameTotal (g.op axes i).kernel.length (g.op axes i).stride (x.shape.getD (axes.getD i 0) 0) := by
  rw [h.padded_of hy hi]
  have hb : (sameSetting g gp x.shape axes i).before = PoolArgs.sameTotal (g.op axes i).kernel.length (g.op axes i).stride
      (x.shape.getD (axes.getD i 0) 0) - PoolArgs.sameTotal (g.op axes i).kernel.length (g.op axes i).stride
      (x.shape.getD (axes.getD i 0) 0) / 2 := rfl
  have ha : (sameSetting g gp x.shape axes i).after = PoolArgs.sameTotal (g.op axes i).kernel.length (g.op axes i).stride
      (x.shape.getD (axes.getD i 0) 0) / 2 := rfl
  have hm : (sameSetting g gp x.shape axes i).mode = gp.mode.entry .unknown i := rfl
  have ht : (sameSetting g gp x.shape axes i).total (x.shape.getD (axes.getD i 0) 0) = (sameSetting g gp x.shape axes i).after := by
    rw [AxisPad.total]
    split_ifs with h1 h2
    · exact h1.2.symm
    · rw [hm] at h2
      rcases hper with hper | hper
      · rw [hper] at h2; cases h2
      · rw [hper, Nat.add_zero]
    · rfl
  rw [ht, hb, ha]
  generalize PoolArgs.sameTotal _ _ _ = t
  omega

theorem Spec.SameCall.padded_size {gp : PadArgs α} {x : Tensor α} {ax : Axes} {axes : List Nat} (h : SameCall g gp x ax axes) {i : Nat}
    (hi : i < axes.length) (hper : (gp.mode.entry .unknown i).isPeriodize = false ∨ x.shape.getD (axes.getD i 0) 0 % 2 = 0) :
    (padSeq x (sameOps g gp x.shape axes)).shape.getD (axes.getD i 0) 0 =
      x.shape.getD (axes.getD i 0) 0 +
        PoolArgs.sameTotal (g.op axes i).kernel.length (g.op axes i).stride (x.shape.getD (axes.getD i 0) 0) :=
  h.padded_size_of h.paddedShape hi hper

/-! ## call histories -/

/-- the settings that `to_same` does not touch agree -/
structure SameSettings (p q : Padder α) : Prop where
  mode : p.mode = q.mode
  cv : p.constantValues = q.constantValues
  ev : p.endValues = q.endValues
  sl : p.statLength = q.statLength

theorem SameSettings.symm {p q : Padder α} (h : SameSettings p q) : SameSettings q p := ⟨h.1.symm, h.2.symm, h.3.symm, h.4.symm⟩

theorem SameSettings.trans {p q r : Padder α} (h : SameSettings p q) (h' : SameSettings q r) : SameSettings p r :=
  ⟨h.1.trans h'.1, h.2.trans h'.2, h.3.trans h'.3, h.4.trans h'.4⟩

theorem toSame_settings (p : Padder α) (k s n : NdSpec (Option Int)) : SameSettings (p.toSame k s n).1 p := by
  rw [Padder.toSame]
  split
  · exact ⟨rfl, rfl, rfl, rfl⟩
  · split <;> exact ⟨rfl, rfl, rfl, rfl⟩

/-- the outcome of `to_same` depends on these settings only -/
theorem toSame_indep {p q : Padder α} (h : SameSettings p q) (k s n : NdSpec (Option Int)) :
    (p.toSame k s n).2 = (q.toSame k s n).2 ∧ ((p.toSame k s n).2 = .ok () → (p.toSame k s n).1 = (q.toSame k s n).1) := by
  obtain ⟨w, md, cv, ev, sl, nd⟩ := p
  obtain ⟨w', md', cv', ev', sl', nd'⟩ := q
  obtain ⟨h1, h2, h3, h4⟩ := h
  simp only at h1 h2 h3 h4
  subst h1 h2 h3 h4
  simp only [Padder.toSame]
  split
  · simp
  · split
    · simp
    · simp

theorem pad_settings (pool : SepPool α) (p : Padder α) (junk : List Nat → α) (x : Tensor α) (axes : Axes) :
    ∃ p', (SepPool.pad pool (some p) junk x axes).1 = some p' ∧ SameSettings p' p := by
  have rfl' : SameSettings p p := ⟨rfl, rfl, rfl, rfl⟩
  rw [SepPool.pad]
  split
  · exact ⟨p, rfl, rfl'⟩
  · simp only
    split
    · exact ⟨p, rfl, rfl'⟩
    · split
      · exact ⟨p, rfl, rfl'⟩
      · split
        · rename_i hs
          exact ⟨_, rfl, by exact (congrArg (fun r => SameSettings r.1 p) hs).mp (toSame_settings p pool.kernelSize pool.stride _)⟩
        · rename_i hs
          exact ⟨_, rfl, by exact (congrArg (fun r => SameSettings r.1 p) hs).mp (toSame_settings p pool.kernelSize pool.stride _)⟩

theorem pad_indep (pool : SepPool α) {p q : Padder α} (h : SameSettings p q) (junk : List Nat → α) (x : Tensor α) (axes : Axes) :
    (SepPool.pad pool (some p) junk x axes).2 = (SepPool.pad pool (some q) junk x axes).2 ∧
      ∀ y, (SepPool.pad pool (some p) junk x axes).2 = .ok y →
        (SepPool.pad pool (some p) junk x axes).1 = (SepPool.pad pool (some q) junk x axes).1 := by
  simp only [SepPool.pad]
  split
  · simp
  · split
    · simp
    · split
      · simp
      · rename_i inShape _
        obtain ⟨e1, e2⟩ := toSame_indep h pool.kernelSize pool.stride inShape
        rcases hp : p.toSame pool.kernelSize pool.stride inShape with ⟨p', rp⟩
        rcases hq : q.toSame pool.kernelSize pool.stride inShape with ⟨q', rq⟩
        rw [hp, hq] at e1 e2
        simp only at e1 e2
        subst e1
        cases rp with
        | error e => simp
        | ok u =>
          have := e2 rfl
          subst this
          simp

theorem forward_settings (pool : SepPool α) (p : Padder α) (junk : List Nat → α) (x : Tensor α) (axes : Axes) :
    ∃ p', (SepPool.forward pool (some p) junk x axes).1 = some p' ∧ SameSettings p' p := by
  have rfl' : SameSettings p p := ⟨rfl, rfl, rfl, rfl⟩
  rw [SepPool.forward]
  split
  · exact ⟨p, rfl, rfl'⟩
  · rename_i axes _
    split_ifs
    · have := pad_settings pool p junk x (.seq axes)
      split
      · rename_i hs; rw [hs] at this; exact this
      · rename_i hs; rw [hs] at this; exact this
    · exact ⟨p, rfl, rfl'⟩

theorem forward_indep (pool : SepPool α) {p q : Padder α} (h : SameSettings p q) (junk : List Nat → α) (x : Tensor α) (axes : Axes) :
    (SepPool.forward pool (some p) junk x axes).2 = (SepPool.forward pool (some q) junk x axes).2 ∧
      ∀ y, (SepPool.forward pool (some p) junk x axes).2 = .ok y →
        (SepPool.forward pool (some p) junk x axes).1 = (SepPool.forward pool (some q) junk x axes).1 := by
  simp only [SepPool.forward]
  split
  · simp
  · rename_i axes _
    split_ifs
    · obtain ⟨e1, e2⟩ := pad_indep pool h junk x (.seq axes)
      rcases hp : SepPool.pad pool (some p) junk x (.seq axes) with ⟨p', rp⟩
      rcases hq : SepPool.pad pool (some q) junk x (.seq axes) with ⟨q', rq⟩
      rw [hp, hq] at e1 e2
      simp only at e1 e2
      subst e1
      cases rp with
      | error e => simp
      | ok u =>
        have := e2 u rfl
        subst this
        simp
    · simp

theorem exclude_settings (pool : SepPool α) (p : Padder α) (junk : List Nat → α) (x : Tensor α) (axes : Axes) :
    ∃ p', (SepPool.avgForwardExclude pool (some p) junk x axes).1 = some p' ∧ SameSettings p' p := by
  have rfl' : SameSettings p p := ⟨rfl, rfl, rfl, rfl⟩
  rw [SepPool.avgForwardExclude]
  split
  · exact ⟨p, rfl, rfl'⟩
  · rename_i axes _
    simp only
    split
    · exact ⟨p, rfl, rfl'⟩
    · split_ifs
      · have := forward_settings pool p junk x (.seq axes)
        split
        · rename_i hs; rw [hs] at this; exact this
        · rename_i hs; rw [hs] at this; exact this
      · exact ⟨p, rfl, rfl'⟩

theorem exclude_indep (pool : SepPool α) {p q : Padder α} (h : SameSettings p q) (junk : List Nat → α) (x : Tensor α) (axes : Axes) :
    (SepPool.avgForwardExclude pool (some p) junk x axes).2 = (SepPool.avgForwardExclude pool (some q) junk x axes).2 := by
  simp only [SepPool.avgForwardExclude]
  split
  · rfl
  · rename_i axes _
    split
    · rfl
    · split_ifs
      · obtain ⟨e1, e2⟩ := forward_indep pool h junk x (.seq axes)
        rcases hp : SepPool.forward pool (some p) junk x (.seq axes) with ⟨p', rp⟩
        rcases hq : SepPool.forward pool (some q) junk x (.seq axes) with ⟨q', rq⟩
        rw [hp, hq] at e1 e2
        simp only at e1 e2
        subst e1
        cases rp with
        | error e => rfl
        | ok u =>
          have := e2 u rfl
          subst this
          rfl
      · rfl

end TI
