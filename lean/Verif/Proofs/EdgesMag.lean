import Verif.Proofs.Edges

/-!
# Edge filters: all components, magnitude, constant images
-/

set_option linter.unusedSectionVars false

namespace TI
open Tensor Spec

variable {α : Type} [Field α] [LinearOrder α] [IsStrictOrderedRing α] [FloorRing α] {x : Tensor α} {a : Nat}

/-- `component` without a padder -/
theorem component_none {f : EdgeFilter α} {w : List α} {g : Given (List α)} {m : Nat} (h : EdgeIs f w g m)
    {ea sa : Axes} {axes : List Nat} (hea : axesOf x.ndim ea = some [a]) (hsa : axesOf x.ndim sa = some axes)
    (hf : Fitting x (⟨a, usedKernel w, 1⟩ :: (PoolArgs.filter g).ops (axes.filter fun b => b ≠ a)))
    (hm : g.isMany = true → (axes.filter fun b => b ≠ a).length = m) (junk : List Nat → α) :
    f.component (.shared none) junk x ea sa = (.shared none, .ok (validResponse (usedKernel w) g x axes a)) := by
  have ha : a < x.ndim := (checkAxes_spec hea).2 a (by simp)
  have hpad : f.edgePool.pad none junk x (.int a) = (none, .ok x) := by
    rw [pad_int _ _ _ _ ha, SepPool.pad, checkAxes_castV (by simpa using ha)]
  have e1 : f.convEdge (.shared none) junk x (a : Int) = (.shared none, .ok (slide x ⟨a, usedKernel w, 1⟩)) := by
    rw [convEdge_used h (.shared none) junk ha]
    · rw [show (EdgePadders.shared (none : Option (Padder α))).edge = none from rfl, hpad]
      rfl
    · rw [show (EdgePadders.shared (none : Option (Padder α))).edge = none from rfl, hpad]
      intro y hy hk
      cases hy
      have hk' : usedKernel w ≠ [] := by
        intro h0
        have := usedKernel_length w
        rw [h0] at this
        exact hk (List.length_eq_zero_iff.1 this.symm)
      refine ⟨(hf.1 hk').1, ?_⟩
      rw [← usedKernel_length w]
      exact (hf.1 hk').2.2
  have hlt : ∀ k ∈ axes.filter (fun b => b ≠ a), k < (slide x ⟨a, usedKernel w, 1⟩).ndim := by
    intro k hk
    rw [slide_ndim]
    exact (checkAxes_spec hsa).2 k (List.mem_of_mem_filter hk)
  have hfw := h.smooth.forward_none (x := slide x ⟨a, usedKernel w, 1⟩) (ax := .seq (castV (axes.filter fun b => b ≠ a)))
    (axes := axes.filter fun b => b ≠ a) (normAxes_castV hlt) (by
      intro hh
      apply hm
      simpa [PoolArgs.filter, PoolArgs.isMany, Given.isMany] using hh) hf.2 junk
  have ce := (checkAxes_spec hea).1
  have cs := (checkAxes_spec hsa).1
  simp only [EdgeFilter.component, ce, cs]
  rw [show castV [a] = [(a : Int)] from rfl]
  simp only [e1, EdgeFilter.convSmooth, castV_filter, show (EdgePadders.shared (none : Option (Padder α))).smooth = none from rfl, hfw]
  rfl

/-! ## loops over the axes -/

section
variable {f : EdgeFilter α} {junk : List Nat → α} {axes : List Int} {Inv : EdgePadders α → Prop} {c : Nat → Tensor α}

theorem componentLoop_eq : ∀ (as : List Nat) (ps : EdgePadders α), Inv ps →
    (∀ a ∈ as, ∀ ps, Inv ps → ∃ ps', f.component ps junk x (.int a) (.seq axes) = (ps', .ok (c a)) ∧ Inv ps') →
    ∃ ps', f.componentLoop junk x axes (castV as) ps = (ps', .ok (as.map c)) ∧ Inv ps'
  | [], ps, hi, _ => ⟨ps, rfl, hi⟩
  | a :: as, ps, hi, h => by
    obtain ⟨ps1, e1, h1⟩ := h a (by simp) ps hi
    obtain ⟨ps2, e2, h2⟩ := componentLoop_eq as ps1 h1 (fun b hb => h b (by simp [hb]))
    refine ⟨ps2, ?_, h2⟩
    rw [castV, List.map_cons, EdgeFilter.componentLoop]
    rw [castV] at e2
    simp only [e1, e2, List.map_cons]

theorem iadd_same {m d : Tensor α} (h : d.shape = m.shape) : m.iadd d = .ok (ofFn m.shape fun ix => m.get ix + d.get ix) := by
  rw [Tensor.iadd, h, if_pos (bcastable_self _)]
  congr 1
  apply ofFn_congr
  intro ix hix
  rw [bidx_self hix]

theorem power_get {p : Nat} (d : Tensor α) {ix : List Nat} (h : InB d.shape ix) :
    (if p = 1 then d else d.map fun v => v ^ p).get ix = d.get ix ^ p := by
  split_ifs with hp
  · rw [hp, pow_one]
  · rw [get_map _ _ h]

theorem power_shape {p : Nat} (d : Tensor α) : (if p = 1 then d else d.map fun v => v ^ p).shape = d.shape := by
  split_ifs <;> rfl

theorem magnitudeLoop_some {p : Nat} {S : List Nat} : ∀ (as : List Nat) (ps : EdgePadders α) (m : Tensor α), Inv ps → m.shape = S →
    (∀ a ∈ as, ∀ ps, Inv ps → ∃ ps', f.component ps junk x (.int a) (.seq axes) = (ps', .ok (c a)) ∧ Inv ps') →
    (∀ a ∈ as, (c a).shape = S) →
    ∃ ps', f.magnitudeLoop junk axes p (castV as) ps x (.own m) =
      (ps', x, .ok (.own (ofFn S fun ix => m.get ix + (as.map fun a => (c a).get ix ^ p).sum))) ∧ Inv ps'
  | [], ps, m, hi, hs, _, _ => by
    refine ⟨ps, ?_, hi⟩
    rw [castV, List.map_nil, EdgeFilter.magnitudeLoop]
    congr 4
    apply ext_get (by simp [hs])
    intro ix hix
    rw [hs] at hix
    rw [get_ofFn hix]
    simp
  | a :: as, ps, m, hi, hs, h, hc => by
    obtain ⟨ps1, e1, h1⟩ := h a (by simp) ps hi
    have hca := hc a (by simp)
    have ead := iadd_same (m := m) (d := if p = 1 then c a else (c a).map fun v => v ^ p) (by rw [power_shape, hca, hs])
    obtain ⟨ps2, e2, h2⟩ := magnitudeLoop_some (p := p) (S := S) as ps1
      (ofFn m.shape fun ix => m.get ix + (if p = 1 then c a else (c a).map fun v => v ^ p).get ix) h1 (by simp [hs])
      (fun b hb => h b (by simp [hb])) (fun b hb => hc b (by simp [hb]))
    refine ⟨ps2, ?_, h2⟩
    rw [castV, List.map_cons, EdgeFilter.magnitudeLoop]
    rw [castV] at e2
    simp only [e1, ead, e2]
    congr 4
    apply ofFn_congr
    intro ix hix
    rw [get_ofFn (by rw [hs]; exact hix), power_get _ (by rw [hca]; exact hix), List.map_cons, List.sum_cons, add_assoc]

theorem magnitudeLoop_eq {p : Nat} {S : List Nat} {as : List Nat} (hne : as ≠ []) {ps : EdgePadders α} (hi : Inv ps)
    (h : ∀ a ∈ as, ∀ ps, Inv ps → ∃ ps', f.component ps junk x (.int a) (.seq axes) = (ps', .ok (c a)) ∧ Inv ps')
    (hc : ∀ a ∈ as, (c a).shape = S)
    (hal : p ≠ 1 ∨ ∀ a ∈ as, ∀ ps, Inv ps → f.componentReturnsArg ps junk x (.int a) (.seq axes) = false) :
    ∃ ps', f.magnitudeLoop junk axes p (castV as) ps x .unset = (ps', x, .ok (.own (powerSum S p c as))) ∧ Inv ps' := by
  obtain ⟨a, as, rfl⟩ := List.exists_cons_of_ne_nil hne
  obtain ⟨ps1, e1, h1⟩ := h a (by simp) ps hi
  have hca := hc a (by simp)
  obtain ⟨ps2, e2, h2⟩ := magnitudeLoop_some (p := p) (S := S) as ps1 (if p = 1 then c a else (c a).map fun v => v ^ p) h1
    (by rw [power_shape, hca]) (fun b hb => h b (by simp [hb])) (fun b hb => hc b (by simp [hb]))
  refine ⟨ps2, ?_, h2⟩
  rw [castV, List.map_cons, EdgeFilter.magnitudeLoop]
  rw [castV] at e2
  have hown : ¬ (p = 1 ∧ f.componentReturnsArg ps junk x (.int (a : Int)) (.seq axes) = true) := by
    rintro ⟨h1, h2⟩
    rcases hal with h | h
    · exact h h1
    · rw [h a (by simp) ps hi] at h2; cases h2
  simp only [e1, if_neg hown, e2]
  congr 4
  rw [powerSum]
  apply ofFn_congr
  intro ix hix
  rw [power_get _ (by rw [hca]; exact hix), List.map_cons, List.sum_cons]

theorem magnitudeInPlace_eq {root : α → α} {p : Nat} (hp : p ≠ 0) {S : List Nat} {ax : Axes} {as : List Nat} (hax : axesOf x.ndim ax = some as)
    (h2 : 2 ≤ as.length) {ps : EdgePadders α} (hi : Inv ps)
    (h : ∀ a ∈ as, ∀ ps, Inv ps → ∃ ps', f.component ps junk x (.int a) (.seq (castV as)) = (ps', .ok (c a)) ∧ Inv ps')
    (hc : ∀ a ∈ as, (c a).shape = S)
    (hal : p ≠ 1 ∨ ∀ a ∈ as, ∀ ps, Inv ps → f.componentReturnsArg ps junk x (.int a) (.seq (castV as)) = false) (epsilon : α) :
    ∃ ps', f.magnitudeInPlace root ps junk x ax epsilon p = (ps', x, .ok ((powerSum S p c as).map fun v =>
      if p = 1 then v + epsilon else root (v + epsilon))) ∧ Inv ps' := by
  obtain ⟨ps1, e1, h1⟩ := magnitudeLoop_eq (p := p) (S := S) (as := as) (by rintro rfl; simp at h2) hi h hc hal
  refine ⟨ps1, ?_, h1⟩
  have hlen : ¬ (castV as).length < 2 := by rw [castV, List.length_map]; omega
  have he : (if epsilon = 0 then powerSum S p c as else (powerSum S p c as).map fun v => v + epsilon) =
      (powerSum S p c as).map fun v => v + epsilon := by
    split_ifs with h0
    · subst h0
      simp only [add_zero]
      refine ext_get rfl ?_
      intro ix hix
      rw [get_map _ _ hix]
    · rfl
  simp only [EdgeFilter.magnitudeInPlace, (checkAxes_spec hax).1, hlen, if_false, e1, he]
  by_cases h1 : p = 1
  · simp only [h1, if_true]
  · simp only [h1, hp, if_false]
    congr 3
    refine ext_get rfl ?_
    intro ix hix
    have hix' : InB (powerSum S p c as).shape ix := hix
    rw [get_map _ _ (by simpa using hix'), get_map _ _ hix', get_map _ _ hix']

theorem magnitude_eq {root : α → α} {p : Nat} (hp : p ≠ 0) {S : List Nat} {ax : Axes} {as : List Nat} (hax : axesOf x.ndim ax = some as)
    (h2 : 2 ≤ as.length) {ps : EdgePadders α} (hi : Inv ps)
    (h : ∀ a ∈ as, ∀ ps, Inv ps → ∃ ps', f.component ps junk x (.int a) (.seq (castV as)) = (ps', .ok (c a)) ∧ Inv ps')
    (hc : ∀ a ∈ as, (c a).shape = S)
    (hal : p ≠ 1 ∨ ∀ a ∈ as, ∀ ps, Inv ps → f.componentReturnsArg ps junk x (.int a) (.seq (castV as)) = false) (epsilon : α) :
    ∃ ps', f.magnitude root ps junk x ax epsilon p = (ps', .ok ((powerSum S p c as).map fun v =>
      if p = 1 then v + epsilon else root (v + epsilon))) ∧ Inv ps' := by
  obtain ⟨ps', e, h'⟩ := magnitudeInPlace_eq (root := root) hp hax h2 hi h hc hal epsilon
  exact ⟨ps', by rw [EdgeFilter.magnitude, e], h'⟩

theorem allComponents_eq {ax : Axes} {as : List Nat} (hax : axesOf x.ndim ax = some as) (h2 : 2 ≤ as.length) {ps : EdgePadders α} (hi : Inv ps)
    (h : ∀ a ∈ as, ∀ ps, Inv ps → ∃ ps', f.component ps junk x (.int a) (.seq (castV as)) = (ps', .ok (c a)) ∧ Inv ps') :
    ∃ ps', f.allComponents ps junk x ax = (ps', .ok (as.map c)) ∧ Inv ps' := by
  obtain ⟨ps1, e1, h1⟩ := componentLoop_eq as ps hi h
  refine ⟨ps1, ?_, h1⟩
  have hlen : ¬ (castV as).length < 2 := by rw [castV, List.length_map]; omega
  simp only [EdgeFilter.allComponents, (checkAxes_spec hax).1, hlen, if_false, e1]

end

/-! ## shapes and constant images -/

/-- filtering keeps the shape, except for `periodize` on odd axes -/
theorem filtered_shape {g : Given (List α)} {gp : PadArgs α} {ax : Axes} {axes : List Nat} (hc : SameCall (PoolArgs.filter g) gp x ax axes)
    (hper : ∀ i < axes.length, (gp.mode.entry .unknown i).isPeriodize = false ∨ x.shape.getD (axes.getD i 0) 0 % 2 = 0) :
    (filtered g gp x axes).shape = x.shape := by
  have hpos : 0 < axes.length := List.length_pos_iff.2 hc.ne
  have hfit : (PoolArgs.filter g).Fits axes.length := by
    cases hh : (PoolArgs.filter g).isMany with
    | true => exact hc.fits hh
    | false => exact fits_of_not_many hh _
  have hv : (PoolArgs.filter g).Valid := by
    intro s hs
    simp only [PoolArgs.filter, Given.values, List.mem_singleton] at hs
    rw [hs]; simp
  obtain ⟨pool, e1, _⟩ := poolIs_init hpos hfit hv
  have hb : Built pool (PoolArgs.filter g) axes.length := .separable hpos hfit hv e1
  obtain ⟨p', z, h1, h2, h3, h4⟩ := C31_same_shape_partial hb hc (fun _ => rfl) (holds_padder gp 1) hper (fun _ => 0)
  rw [hb.poolIs.1.forward_same hc (fun _ => rfl) (holds_padder gp 1)] at h1
  have hz : filtered g gp x axes = z := by
    simp only [Prod.mk.injEq, Except.ok.injEq] at h1
    exact h1.2
  rw [hz]
  apply list_ext_getD h2
  intro k _
  by_cases hk : ∀ i < axes.length, axes.getD i 0 = k → ((PoolArgs.filter g).op axes i).kernel = []
  · exact h4 k hk
  · push Not at hk
    obtain ⟨i, hi, rfl, hk⟩ := hk
    rw [h3 i hi hk]
    exact ceilDiv_one _

/-- all entries equal `k` -/
def Spec.Constant (k : α) (x : Tensor α) : Prop := ∀ ix, InB x.shape ix → x.get ix = k

theorem constant_iff {k : α} {x : Tensor α} : Constant k x ↔ Between k k x := by
  constructor
  · intro h ix hix
    rw [h ix hix]
    exact ⟨le_rfl, le_rfl⟩
  · intro h ix hix
    exact le_antisymm (h ix hix).2 (h ix hix).1

theorem padded_constant {g : PoolArgs α} {gp : PadArgs α} {ax : Axes} {axes : List Nat} {k : α} (hc : SameCall g gp x ax axes)
    (hfill : ∀ o ∈ sameOps g gp x.shape axes, o.2.Within k k) (hx : Constant k x) :
    Constant k (padSeq x (sameOps g gp x.shape axes)) := by
  have hnd : ((sameOps g gp x.shape axes).map Prod.fst).Nodup := by rw [sameOps_fst]; exact hc.nodup
  rw [constant_iff] at hx ⊢
  apply padSeq_between hnd hc.lt _ hfill hx
  intro o ho
  obtain ⟨i, hi, rfl⟩ := sameOps_mem ho
  exact hc.pos _ (by simp [hi])

theorem slide_constant {o : PoolOp α} (ha : o.axis < x.ndim) (hs : 0 < o.stride) (hk : o.kernel ≠ []) {k : α} (hx : Constant k x) :
    Constant (o.kernel.sum * k) (slide x o) := by
  intro ix hix
  rw [slide_get hk hix]
  have : (List.range o.kernel.length).map (fun j => o.kernel.getD j 0 * x.get (ix.set o.axis (ix.getD o.axis 0 * o.stride + j))) =
      o.kernel.map (· * k) := by
    apply List.ext_getElem (by simp)
    intro j h1 h2
    have hj : j < o.kernel.length := by simpa using h1
    rw [List.getElem_map, List.getElem_map, List.getElem_range, hx _ (slide_inB hs ha hk hix hj)]
    simp [hj]
  rw [this, List.sum_map_mul_right]
  simp

theorem poolSeq_zero : ∀ {ops : List (PoolOp α)} {x : Tensor α}, PoolOps x ops → Constant 0 x → Constant 0 (poolSeq x ops)
  | [], _, _, hx => hx
  | o :: ops, x, h, hx => by
    change Constant 0 (poolSeq (slide x o) ops)
    apply poolSeq_zero h.tail
    by_cases hk : o.kernel = []
    · simpa [slide, hk] using hx
    · have := slide_constant (h.axis o (by simp) hk) (h.stride o (by simp) hk) hk hx
      rwa [mul_zero] at this

/-- an edge kernel of sum zero has no response to a constant image -/
theorem edgeResponse_constant {w : List α} {g : Given (List α)} {gp : PadArgs α} {axes : List Nat} (hc : EdgeCall w g gp x axes a)
    (hw : w ≠ []) (hsum : w.sum = 0) {k : α} (hfill : ∀ i, ∀ s : AxisPad α, s.mode = gp.mode.entry .unknown i → s.cv = gp.cv.entry (0, 0) i →
      i < max 1 (axes.filter fun b => b ≠ a).length → s.Within k k ∧ s.Within 0 0) (hx : Constant k x) :
    Constant 0 (edgeResponse w g gp x axes a) := by
  have h1 : Constant 0 (filtered (.one w) gp x [a]) := by
    have hp := padded_constant hc.edge (k := k) (by
      intro o ho
      obtain ⟨i, hi, rfl⟩ := sameOps_mem ho
      exact (hfill i _ rfl rfl (by simp at hi; omega)).1) hx
    have hpo := hc.edge.poolOps
    have hpo' : PoolOps (padSeq x (sameOps (PoolArgs.filter (.one w)) gp x.shape [a])) [⟨a, w, 1⟩] := hpo
    have := slide_constant (o := ⟨a, w, 1⟩) (hpo'.axis _ (by simp) hw) Nat.one_pos hw hp
    simp only [hsum, zero_mul] at this
    exact this
  have h2 := padded_constant hc.smooth (k := 0) (by
      intro o ho
      obtain ⟨i, hi, rfl⟩ := sameOps_mem ho
      exact (hfill i _ rfl rfl (by omega)).2) h1
  exact poolSeq_zero hc.smooth.poolOps h2

/-- filtering with empty kernels changes nothing -/
theorem filtered_nil {gp : PadArgs α} {axes : List Nat} (hpos : ∀ b ∈ axes, 0 < x.shape.getD b 0) : filtered (.one []) gp x axes = x := by
  rw [filtered, padSeq_zero]
  · have : ∀ (l : List Nat) (y : Tensor α), poolSeq y (l.map ((PoolArgs.filter (.one [])).op axes)) = y := by
      intro l
      induction l with
      | nil => intro y; rfl
      | cons i l ih =>
        intro y
        rw [List.map_cons]
        change poolSeq (slide y _) _ = y
        rw [show slide y ((PoolArgs.filter (.one [])).op axes i) = y by simp [slide, PoolArgs.op, PoolArgs.filter, Given.entry]]
        exact ih y
    exact this _ x
  · intro o ho
    obtain ⟨i, hi, rfl⟩ := sameOps_mem ho
    have hn := hpos (axes.getD i 0) (by simp [hi])
    have : PoolArgs.sameTotal 0 1 (x.shape.getD (axes.getD i 0) 0) = 0 := by
      rw [PoolArgs.sameTotal, ceilDiv_one]
      omega
    simp [sameSetting, PoolArgs.op, PoolArgs.filter, Given.entry, PoolArgs.samePair] at *
    omega

/-! ## conditions in terms of the arguments -/

/-- the arguments of an edge call: at least two distinct existing non-empty axes, smoothing kernels for all but one of them, one
padding setting whose mode defines values; `periodize` only on axes of even size -/
structure Spec.EdgeSetup (g : Given (List α)) (gp : PadArgs α) (x : Tensor α) (ax : Axes) (axes : List Nat) : Prop where
  axes_eq : axesOf x.ndim ax = some axes
  two : 2 ≤ axes.length
  nodup : axes.Nodup
  fits : g.isMany = true → g.Fits (axes.length - 1)
  pos : ∀ a ∈ axes, 0 < x.shape.getD a 0
  uniform : gp.Uniform
  valued : ∀ s : AxisPad α, s.mode = gp.mode.entry .unknown 0 → s.rule? ≠ none ∧ s.mode ≠ .zeros
  keep : (gp.mode.entry .unknown 0).isPeriodize = false ∨ ∀ a ∈ axes, x.shape.getD a 0 % 2 = 0

theorem filter_ne_length {axes : List Nat} (hnd : axes.Nodup) (ha : a ∈ axes) : (axes.filter fun b => b ≠ a).length = axes.length - 1 := by
  have h1 : (axes.filter fun b => b ≠ a) = axes.erase a := by
    rw [hnd.erase_eq_filter]
    apply List.filter_congr
    intro b _
    by_cases h : b = a <;> simp [h]
  rw [h1, List.length_erase_of_mem ha]

theorem uniform_entry {gp : PadArgs α} (hu : gp.Uniform) (i : Nat) : gp.mode.entry .unknown i = gp.mode.entry .unknown 0 :=
  entry_of_not_many hu.1 _ i

theorem uniform_fits {gp : PadArgs α} (hu : gp.Uniform) (n : Nat) : gp.FitsRest n := by
  have h : ∀ {β : Type} {g : Given β}, g.isMany = false → g.Fits n := by
    intro β g hg
    cases g with
    | one b => trivial
    | many l => cases hg
  exact ⟨h hu.1, h hu.2.1, h hu.2.2.1, h hu.2.2.2⟩

section
variable {g : Given (List α)} {gp : PadArgs α} {ax : Axes} {axes : List Nat}

theorem Spec.EdgeSetup.edgeSame (h : EdgeSetup g gp x ax axes) (w : List α) (ha : a ∈ axes) :
    SameCall (PoolArgs.filter (.one w)) gp x (.int a) [a] where
  axes_eq := normAxes_castV (axes := [a]) (by simpa using (checkAxes_spec h.axes_eq).2 a ha)
  ne := by simp
  nodup := by simp
  fits := by intro h; cases h
  rest := uniform_fits h.uniform _
  stride := fun _ _ => Nat.one_pos
  pos := by simpa using h.pos a ha
  valued := by
    intro o ho _
    obtain ⟨i, _, rfl⟩ := sameOps_mem ho
    exact h.valued _ (uniform_entry h.uniform i)

theorem Spec.EdgeSetup.edge_shape (h : EdgeSetup g gp x ax axes) (w : List α) (ha : a ∈ axes) :
    (filtered (.one w) gp x [a]).shape = x.shape := by
  apply filtered_shape (h.edgeSame w ha)
  intro i hi
  rw [uniform_entry h.uniform]
  rcases h.keep with hk | hk
  · exact Or.inl hk
  · right
    have : i = 0 := by simpa using hi
    subst this
    exact hk a ha

theorem Spec.EdgeSetup.edgeCall (h : EdgeSetup g gp x ax axes) (w : List α) (ha : a ∈ axes) : EdgeCall w g gp x axes a where
  edge := h.edgeSame w ha
  smooth :=
    { axes_eq := by
        have e : (filtered (.one w) gp x [a]).ndim = x.ndim := by rw [Tensor.ndim, h.edge_shape w ha]; rfl
        rw [e]
        exact normAxes_castV fun k hk => (checkAxes_spec h.axes_eq).2 k (List.mem_of_mem_filter hk)
      ne := by
        intro h0
        have := filter_ne_length h.nodup ha
        rw [h0] at this
        have := h.two
        simp at *
        omega
      nodup := h.nodup.filter _
      fits := by
        intro hh
        rw [filter_ne_length h.nodup ha]
        exact ⟨h.fits (by simpa [PoolArgs.filter, PoolArgs.isMany, Given.isMany] using hh), trivial⟩
      rest := uniform_fits h.uniform _
      stride := fun _ _ => Nat.one_pos
      pos := by
        intro b hb
        rw [h.edge_shape w ha]
        exact h.pos b (List.mem_of_mem_filter hb)
      valued := by
        intro o ho _
        obtain ⟨i, _, rfl⟩ := sameOps_mem ho
        exact h.valued _ (uniform_entry h.uniform i) }

theorem Spec.EdgeSetup.response_shape (h : EdgeSetup g gp x ax axes) (w : List α) (ha : a ∈ axes) :
    (edgeResponse w g gp x axes a).shape = x.shape := by
  rw [edgeResponse, filtered_shape (h.edgeCall w ha).smooth, h.edge_shape w ha]
  intro i hi
  rw [uniform_entry h.uniform]
  rcases h.keep with hk | hk
  · exact Or.inl hk
  · right
    rw [h.edge_shape w ha]
    apply hk
    exact List.mem_of_mem_filter (getD_mem_lt hi)

theorem Spec.EdgeSetup.component (h : EdgeSetup g gp x ax axes) {f : EdgeFilter α} {w : List α} {m : Nat} (hf : EdgeIs f w g m)
    (hm : g.isMany = true → axes.length - 1 = m) (ha : a ∈ axes) {ps : EdgePadders α} (hps : HoldsBoth ps gp) (junk : List Nat → α) :
    ∃ ps', f.component ps junk x (.int a) (.seq (castV axes)) = (ps', .ok (edgeResponse (usedKernel w) g gp x axes a)) ∧ HoldsBoth ps' gp := by
  have hlt := (checkAxes_spec h.axes_eq).2
  exact component_used hf hps (x := x) (ea := .int a) (sa := .seq (castV axes)) (normAxes_castV (axes := [a]) (by simpa using hlt a ha)) (normAxes_castV hlt) (h.edgeCall _ ha)
    (fun hh => by rw [filter_ne_length h.nodup ha]; exact hm hh) junk

end

/-! ## results that are the argument itself -/

section
set_option linter.unusedSectionVars false
variable {α : Type} [Field α] [LinearOrder α] [IsStrictOrderedRing α] [FloorRing α]
variable {f : EdgeFilter α} {w : List α} {g : Given (List α)} {m : Nat} {x : Tensor α}

omit [FloorRing α] in
theorem returnsArg_forward {p : Padder α} {x : Tensor α} {ax : Axes} (h : p.returnsArg x ax = true) (junk : List Nat → α) :
    p.forward junk x ax = .ok x := by
  by_cases h0 : x.ndim = 0
  · simp [Padder.returnsArg, h0] at h
  simp only [Padder.forward, Padder.returnsArg, if_neg h0] at h ⊢
  cases e1 : checkAxes x.ndim ax with
  | error e => simp only [e1] at h; cases h
  | ok axes =>
    simp only [e1, bind, Except.bind, pure, Except.pure] at h ⊢
    by_cases h1 : axes = []
    · simp only [if_pos h1]
    · simp only [if_neg h1] at h ⊢
      cases e2 : p.accLoop x.shape axes (Padder.negRange (p.nPadded axes)) (x.shape.map fun _ => (0 : Int), x.shape.map fun _ => (0 : Int)) with
      | error e => simp only [e2] at h; cases h
      | ok v =>
        obtain ⟨hv, av⟩ := v
        simp only [e2, decide_eq_true_eq] at h ⊢
        rw [if_pos h]

section
variable {pool : SepPool α} {padder : Option (Padder α)} {x : Tensor α} {ax : Axes}

omit [FloorRing α] in
theorem padReturnsArg_pad (h : pool.padReturnsArg padder x ax = true) (junk : List Nat → α) : (pool.pad padder junk x ax).2 = .ok x := by
  rw [SepPool.padReturnsArg] at h
  rw [SepPool.pad]
  cases e1 : checkAxes x.ndim ax with
  | error e => simp only [e1] at h; cases h
  | ok axes =>
    simp only [e1] at h ⊢
    cases padder with
    | none => rfl
    | some p =>
      simp only at h ⊢
      cases e2 : NdSpec.sequence (axes.map fun a => pyIndex x.shape a) with
      | error e => simp only [e2] at h; cases h
      | ok sizes =>
        simp only [e2] at h ⊢
        cases e3 : NdSpec.ofItem [] (.seq (sizes.map fun (n : Nat) => Py.leaf (some (n : Int)))) with
        | error e => simp only [e3] at h; cases h
        | ok inShape =>
          simp only [e3] at h ⊢
          obtain ⟨⟨p', r⟩, hr⟩ : ∃ z, p.toSame pool.kernelSize pool.stride inShape = z := ⟨_, rfl⟩
          cases r with
          | error e => simp only [hr] at h; cases h
          | ok u =>
            simp only [hr] at h ⊢
            exact returnsArg_forward h junk

omit [FloorRing α] in
theorem loopReturnsArg_loop : ∀ (as : List Int) (i : Nat), pool.loopReturnsArg i as = true → ∀ y : Tensor α, pool.poolLoop i as y = .ok y
  | [], _, _, _ => rfl
  | a :: as, i, h, y => by
    rw [SepPool.loopReturnsArg] at h
    rw [SepPool.poolLoop, SepPool.poolStep]
    cases e1 : pool.kernelSize.get (i : Int) with
    | error e => simp [e1, Except.bind] at h
    | ok k =>
      cases e2 : SepPool.asSize k with
      | error e => simp [e1, e2, Except.bind] at h
      | ok k' =>
        simp only [e1, e2, Except.bind, Bool.and_eq_true, decide_eq_true_eq] at h
        simp only [e2, bind, Except.bind, h.1, if_true, pure, Except.pure]
        exact loopReturnsArg_loop as (i + 1) h.2 y

omit [FloorRing α] in
theorem forwardReturnsArg_forward (h : pool.forwardReturnsArg padder x ax = true) (junk : List Nat → α) :
    (pool.forward padder junk x ax).2 = .ok x := by
  rw [SepPool.forwardReturnsArg] at h
  rw [SepPool.forward]
  cases e1 : checkAxes x.ndim ax with
  | error e => simp only [e1] at h; cases h
  | ok axes =>
    simp only [e1] at h ⊢
    split_ifs at h ⊢ with h0
    rw [Bool.and_eq_true] at h
    have hp := padReturnsArg_pad h.1 junk
    obtain ⟨⟨p', r⟩, hr⟩ : ∃ z, pool.pad padder junk x (.seq axes) = z := ⟨_, rfl⟩
    rw [hr] at hp ⊢
    simp only at hp
    subst hp
    exact loopReturnsArg_loop axes 0 h.2 x

end

theorem convEdgeReturnsArg_convEdge {ps : EdgePadders α} {axis : Int} (h : f.convEdgeReturnsArg ps x axis = true) (junk : List Nat → α) :
    (f.convEdge ps junk x axis).2 = .ok x := by
  rw [EdgeFilter.convEdgeReturnsArg] at h
  rw [EdgeFilter.convEdge]
  cases e1 : (f.edgeKernel.get 0).bind SepPool.asVec with
  | error e => simp only [e1] at h; cases h
  | ok w =>
    simp only [e1] at h ⊢
    split_ifs at h with h0
    rw [not_or] at h0
    simp only [if_neg h0.1, if_neg h0.2]
    exact forwardReturnsArg_forward h junk

omit [FloorRing α] in
theorem loopReturnsArg_iff {pool : SepPool α} {g : PoolArgs α} {m : Nat} (h : PoolIs pool g m) : ∀ (as : List Int) (i : Nat), (g.isMany = true → i + as.length ≤ m) →
    (pool.loopReturnsArg i as = true ↔ ∀ j, i ≤ j → j < i + as.length → g.kernel.entry [] j = [])
  | [], i, _ => by
    simp only [SepPool.loopReturnsArg, List.length_nil, Nat.add_zero, true_iff]
    intro j h1 h2; omega
  | a :: as, i, hi => by
    have e := h.getSize (i := i) (fun hm => by have := hi hm; simp at this; omega)
    have ih := loopReturnsArg_iff h as (i + 1) (fun hm => by have := hi hm; simp at this; omega)
    simp only [SepPool.loopReturnsArg, e, Bool.and_eq_true, decide_eq_true_eq, ih, List.length_cons]
    constructor
    · rintro ⟨h1, h2⟩ j hj hj'
      rcases Nat.lt_or_ge i j with h | h
      · exact h2 j h (by omega)
      · have : j = i := by omega
        subst this
        exact List.length_eq_zero_iff.1 (by exact_mod_cast h1)
    · intro hj
      refine ⟨?_, fun j h1 h2 => hj j (by omega) (by omega)⟩
      rw [hj i le_rfl (by omega)]; rfl

theorem forwardReturnsArg_false {pool : SepPool α} {g : PoolArgs α} {m : Nat} (h : PoolIs pool g m) {axes : List Nat}
    (hax : ∀ a ∈ axes, a < x.ndim) (hm : g.isMany = true → axes.length = m) (hg : ∃ i < axes.length, g.kernel.entry [] i ≠ [])
    (p : Option (Padder α)) : pool.forwardReturnsArg p x (.seq (castV axes)) = false := by
  obtain ⟨i, hi, hg⟩ := hg
  have hl : (castV axes).length = axes.length := by simp [castV]
  have h0 : pool.loopReturnsArg 0 (castV axes) = false := by
    rw [Bool.eq_false_iff, Ne, loopReturnsArg_iff h _ _ fun hh => by rw [hl, hm hh]; omega]
    intro hc
    exact hg (hc i (Nat.zero_le _) (by rw [hl]; omega))
  simp only [SepPool.forwardReturnsArg, checkAxes_castV hax, h0, Bool.and_false, ite_self]

theorem convEdgeReturnsArg_false (h : EdgeIs f w g m) (hw : w ≠ []) (ps : EdgePadders α) {a : Nat} (ha : a < x.ndim) :
    f.convEdgeReturnsArg ps x (a : Int) = false := by
  rw [EdgeFilter.convEdgeReturnsArg]
  split
  · rfl
  · simp only
    split_ifs
    · rfl
    · have e : f.edgePool.forwardReturnsArg ps.edge x (.int (a : Int)) = f.edgePool.forwardReturnsArg ps.edge x (.seq (castV [a])) := by
        have c1 : checkAxes x.ndim (.int (a : Int)) = .ok [(a : Int)] :=
          (checkAxes_spec (ax := .int a) (axes := [a]) (normAxes_castV (axes := [a]) (by simpa using ha))).1
        simp only [SepPool.forwardReturnsArg, c1, checkAxes_castV (axes := [a]) (by simpa using ha)]
        rfl
      rw [e]
      exact forwardReturnsArg_false h.edge (by simpa using ha) (by intro h; cases h) ⟨0, by simp, hw⟩ _

/-- an edge filter with weights returns new tensors -/
theorem componentReturnsArg_false (h : EdgeIs f w g m) {axes : List Nat} (hax : ∀ a ∈ axes, a < x.ndim) (hnd : axes.Nodup)
    (hm : g.isMany = true → axes.length - 1 = m) (hw : w ≠ [] ∨ ∃ i < axes.length - 1, g.entry [] i ≠ []) (ps : EdgePadders α) (junk : List Nat → α)
    {a : Nat} (ha : a ∈ axes) : f.componentReturnsArg ps junk x (.int a) (.seq (castV axes)) = false := by
  have c1 : checkAxes x.ndim (.int (a : Int)) = .ok [(a : Int)] :=
    (checkAxes_spec (ax := .int a) (axes := [a]) (normAxes_castV (axes := [a]) (by simpa using hax a ha))).1
  simp only [EdgeFilter.componentReturnsArg, c1, checkAxes_castV hax]
  split
  · rfl
  · rename_i ps' y hy
    rcases hw with hw | hw
    · rw [convEdgeReturnsArg_false h hw _ (hax a ha), Bool.false_and]
    · by_cases hc : f.convEdgeReturnsArg ps x (a : Int) = true
      · have hy' := convEdgeReturnsArg_convEdge hc junk
        rw [hy] at hy'
        cases hy'
        rw [castV_filter, forwardReturnsArg_false h.smooth (fun b hb => hax b (List.mem_of_mem_filter hb)) ?_ ?_, Bool.and_false]
        · intro hh
          rw [filter_ne_length hnd ha]
          exact hm (by simpa [PoolArgs.filter, PoolArgs.isMany, Given.isMany] using hh)
        · rw [filter_ne_length hnd ha]
          exact hw
      · rw [Bool.not_eq_true] at hc
        rw [hc, Bool.false_and]

theorem Spec.EdgeSetup.own {gp : PadArgs α} {ax : Axes} {axes : List Nat} (hs : EdgeSetup g gp x ax axes) (hf : EdgeIs f w g m)
    (hm : g.isMany = true → axes.length - 1 = m) {p : Nat} (hact : Acts w g axes.length p) (junk : List Nat → α) :
    p ≠ 1 ∨ ∀ a ∈ axes, ∀ ps, HoldsBoth ps gp → f.componentReturnsArg ps junk x (.int a) (.seq (castV axes)) = false := by
  rcases hact with h | h
  · exact Or.inl h
  · exact Or.inr fun a ha ps _ => componentReturnsArg_false hf (checkAxes_spec hs.axes_eq).2 hs.nodup hm h ps junk ha

end

end TI
