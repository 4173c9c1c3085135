import Verif.Spec.Transpose
import Verif.Proofs.Batch

/-!
# Exchanging two axes: padding, pooling, maps, reductions
-/

set_option linter.unusedSectionVars false

namespace TI
open Tensor Spec

/-! ## positions -/

section
variable {a b : Nat} {l s ix : List Nat}

theorem swapAt_length (a b : Nat) (l : List Nat) : (swapAt a b l).length = l.length := by simp [swapAt]

theorem swapAt_getD (ha : a < l.length) (hb : b < l.length) (k : Nat) : (swapAt a b l).getD k 0 = l.getD (Equiv.swap a b k) 0 := by
  rw [swapAt, getD_set _ _ _ _ _ (by simpa using hb), getD_set _ _ _ _ _ ha, Equiv.swap_apply_def]
  by_cases h1 : k = b
  · subst h1
    by_cases h2 : k = a
    · subst h2; simp
    · simp [h2]
  · by_cases h2 : k = a
    · subst h2; simp [h1]
    · simp [h1, h2]

theorem swap_lt {n k : Nat} (ha : a < n) (hb : b < n) : Equiv.swap a b k < n ↔ k < n := by
  rw [Equiv.swap_apply_def]
  split_ifs with h1 h2
  · subst h1; exact ⟨fun _ => ha, fun _ => hb⟩
  · subst h2; exact ⟨fun _ => hb, fun _ => ha⟩
  · rfl

theorem swapAt_swapAt (ha : a < l.length) (hb : b < l.length) : swapAt a b (swapAt a b l) = l := by
  apply list_ext_getD (by simp [swapAt_length])
  intro k _
  rw [swapAt_getD (by rw [swapAt_length]; exact ha) (by rw [swapAt_length]; exact hb), swapAt_getD ha hb, Equiv.swap_apply_self]

theorem swapAt_set (ha : a < l.length) (hb : b < l.length) (k v : Nat) : swapAt a b (l.set k v) = (swapAt a b l).set (Equiv.swap a b k) v := by
  apply list_ext_getD (by simp [swapAt_length])
  intro j _
  rw [swapAt_getD (by rw [List.length_set]; exact ha) (by rw [List.length_set]; exact hb)]
  by_cases hk : k < l.length
  · rw [getD_set _ _ _ _ _ hk, getD_set _ _ _ _ _ (by rw [swapAt_length]; exact (swap_lt ha hb).2 hk), swapAt_getD ha hb]
    by_cases h : Equiv.swap a b j = k
    · have : j = Equiv.swap a b k := by rw [← h, Equiv.swap_apply_self]
      rw [if_pos h, if_pos this]
    · have : j ≠ Equiv.swap a b k := fun e => h (by rw [e, Equiv.swap_apply_self])
      rw [if_neg h, if_neg this]
  · rw [List.set_eq_of_length_le (by omega), List.set_eq_of_length_le (by
      rw [swapAt_length]
      have := (swap_lt (k := k) ha hb).not.2 hk
      omega), swapAt_getD ha hb]

theorem swapAt_inB (ha : a < s.length) (hb : b < s.length) (h : InB s ix) : InB (swapAt a b s) (swapAt a b ix) := by
  rw [inB_iff]
  refine ⟨by rw [swapAt_length, swapAt_length, h.length_eq], ?_⟩
  intro k hk
  rw [swapAt_length] at hk
  rw [swapAt_getD (by rw [h.length_eq]; exact ha) (by rw [h.length_eq]; exact hb), swapAt_getD ha hb]
  exact h.lt ((swap_lt ha hb).2 hk)

theorem swapAt_inB' (ha : a < s.length) (hb : b < s.length) (h : InB (swapAt a b s) ix) : InB s (swapAt a b ix) := by
  have := swapAt_inB (a := a) (b := b) (by rw [swapAt_length]; exact ha) (by rw [swapAt_length]; exact hb) h
  rwa [swapAt_swapAt ha hb] at this

end

section
variable {α : Type} [Zero α] {a b : Nat} {x : Tensor α}

theorem transposed_shape : (transposed a b x).shape = swapAt a b x.shape := rfl

theorem transposed_ndim : (transposed a b x).ndim = x.ndim := by rw [ndim, transposed_shape, swapAt_length]; rfl

theorem transposed_get {ix : List Nat} (h : InB (swapAt a b x.shape) ix) : (transposed a b x).get ix = x.get (swapAt a b ix) := by
  rw [transposed, get_ofFn h]

theorem transposed_size (ha : a < x.ndim) (hb : b < x.ndim) (k : Nat) :
    (transposed a b x).shape.getD (Equiv.swap a b k) 0 = x.shape.getD k 0 := by
  rw [transposed_shape, swapAt_getD ha hb, Equiv.swap_apply_self]

end

/-! ## padding -/

section
variable {α : Type} [Field α] [LinearOrder α] [IsStrictOrderedRing α] {a b : Nat}

theorem padStep_transposed {x : Tensor α} {o : Nat × AxisPad α} (ha : a < x.ndim) (hb : b < x.ndim)
    (hn : ¬ (o.2.before = 0 ∧ o.2.after = 0) → 0 < x.shape.getD o.1 0) :
    padStep (transposed a b x) (Equiv.swap a b o.1, o.2) = transposed a b (padStep x o) := by
  by_cases hz : o.2.before = 0 ∧ o.2.after = 0
  · simp only [padStep, if_pos hz]
  cases hr : o.2.rule? with
  | none => simp only [padStep, if_neg hz, hr]
  | some E =>
    simp only [padStep, if_neg hz, hr, transposed_size ha hb]
    have hsh : (extendAxis E (Equiv.swap a b o.1) o.2.before (o.2.total (x.shape.getD o.1 0)) (transposed a b x)).shape =
        (transposed a b (extendAxis E o.1 o.2.before (o.2.total (x.shape.getD o.1 0)) x)).shape := by
      rw [extended_shape, transposed_size ha hb, transposed_shape, transposed_shape, extended_shape, swapAt_set ha hb]
    apply ext_get hsh
    intro ix hix
    set y := extendAxis E o.1 o.2.before (o.2.total (x.shape.getD o.1 0)) x with hy
    have hl : y.shape.length = x.ndim := by rw [hy, extended_shape, List.length_set]; rfl
    have hix1 : InB (swapAt a b y.shape) ix := by rw [hsh] at hix; exact hix
    have hix2 := swapAt_inB' (by rw [hl]; exact ha) (by rw [hl]; exact hb) hix1
    have hla : ix.length = x.ndim := by rw [hix1.length_eq, swapAt_length, hl]
    rw [transposed_get hix1, extended_get hix, extended_get hix2, transposed_size ha hb,
      swapAt_getD (by rw [hla]; exact ha) (by rw [hla]; exact hb)]
    apply rule_local hr (hn hz)
    intro j hj
    have hin : InB (swapAt a b x.shape) (ix.set (Equiv.swap a b o.1) j) := by
      have h1 := hix2.set' (d := o.1) hj
      rw [hy, extended_shape, List.set_set, set_getD_self] at h1
      have h2 := swapAt_inB (a := a) (b := b) ha hb h1
      rwa [swapAt_set (by rw [swapAt_length, hla]; exact ha) (by rw [swapAt_length, hla]; exact hb),
        swapAt_swapAt (by rw [hla]; exact ha) (by rw [hla]; exact hb)] at h2
    rw [transposed_get hin, swapAt_set (by rw [hla]; exact ha) (by rw [hla]; exact hb), Equiv.swap_apply_self]

/-- the same settings for the exchanged axes -/
def Spec.swapOps (a b : Nat) (ops : List (Nat × AxisPad α)) : List (Nat × AxisPad α) := ops.map fun o => (Equiv.swap a b o.1, o.2)

theorem padSeq_transposed : ∀ {ops : List (Nat × AxisPad α)} {x : Tensor α}, a < x.ndim → b < x.ndim → OpsOK ops → (ops.map Prod.fst).Nodup →
    (∀ o ∈ ops, ¬ (o.2.before = 0 ∧ o.2.after = 0) → 0 < x.shape.getD o.1 0) →
    padSeq (transposed a b x) (swapOps a b ops) = transposed a b (padSeq x ops)
  | [], _, _, _, _, _, _ => rfl
  | o :: ops, x, ha, hb, hok, hnd, hn => by
    have hnd' := List.nodup_cons.1 (show (o.1 :: ops.map Prod.fst).Nodup from hnd)
    have hsh := padStep_shape (x := x) (hok o (by simp))
    have hdim : (padStep x o).ndim = x.ndim := by simp [Tensor.ndim, hsh]
    show padSeq (padStep (transposed a b x) (Equiv.swap a b o.1, o.2)) (swapOps a b ops) = transposed a b (padSeq (padStep x o) ops)
    rw [padStep_transposed ha hb (hn o (by simp))]
    apply padSeq_transposed (by rw [hdim]; exact ha) (by rw [hdim]; exact hb) (fun q hq => hok q (by simp [hq])) hnd'.2
    intro q hq hz
    have hq' : q.1 ≠ o.1 := fun e => hnd'.1 (List.mem_map.2 ⟨q, hq, e⟩)
    rw [hsh, getD_set_ne _ _ _ _ _ hq']
    exact hn q (by simp [hq]) hz

end

/-! ## pooling -/

section
variable {α : Type} [Field α] {a b : Nat}

/-- the same weights for the exchanged axis -/
def Spec.swapPool (a b : Nat) (o : PoolOp α) : PoolOp α := ⟨Equiv.swap a b o.axis, o.kernel, o.stride⟩

theorem slide_transposed {x : Tensor α} {o : PoolOp α} (ha : a < x.ndim) (hb : b < x.ndim) (ho : o.kernel ≠ [] → o.axis < x.ndim)
    (hst : o.kernel ≠ [] → 0 < o.stride) : slide (transposed a b x) (swapPool a b o) = transposed a b (slide x o) := by
  by_cases hk : o.kernel = []
  · simp [slide, hk, swapPool]
  have hsh : (slide (transposed a b x) (swapPool a b o)).shape = (transposed a b (slide x o)).shape := by
    rw [transposed_shape, slide_shape, slide_shape, if_neg hk, if_neg (show (swapPool a b o).kernel ≠ [] from hk), swapAt_set ha hb]
    simp only [swapPool, transposed_size ha hb]
    rfl
  apply ext_get hsh
  intro ix hix
  have hl : (slide x o).shape.length = x.ndim := slide_length
  have hix1 : InB (swapAt a b (slide x o).shape) ix := by rw [hsh] at hix; exact hix
  have hix2 := swapAt_inB' (by rw [hl]; exact ha) (by rw [hl]; exact hb) hix1
  have hla : ix.length = x.ndim := by rw [hix1.length_eq, swapAt_length, hl]
  rw [transposed_get hix1, slide_get (show (swapPool a b o).kernel ≠ [] from hk) hix, slide_get hk hix2]
  show ((List.range o.kernel.length).map fun j => o.kernel.getD j 0 *
    (transposed a b x).get (ix.set (Equiv.swap a b o.axis) (ix.getD (Equiv.swap a b o.axis) 0 * o.stride + j))).sum = _
  rw [swapAt_getD (by rw [hla]; exact ha) (by rw [hla]; exact hb)]
  congr 1
  apply List.map_congr_left
  intro j hj
  have hj := List.mem_range.1 hj
  have hin := slide_inB (x := transposed a b x) (o := swapPool a b o) (hst hk)
    (by rw [transposed_ndim]; exact (swap_lt ha hb).2 (ho hk)) hk hix hj
  have hin' : InB (swapAt a b x.shape) (ix.set (Equiv.swap a b o.axis) (ix.getD (Equiv.swap a b o.axis) 0 * o.stride + j)) := hin
  rw [transposed_get hin', swapAt_set (by rw [hla]; exact ha) (by rw [hla]; exact hb), Equiv.swap_apply_self]

theorem Fitting_transposed : ∀ {ops : List (PoolOp α)} {x : Tensor α}, a < x.ndim → b < x.ndim → Fitting x ops →
    Fitting (transposed a b x) (ops.map (swapPool a b)) ∧ poolSeq (transposed a b x) (ops.map (swapPool a b)) = transposed a b (poolSeq x ops)
  | [], _, _, _, _ => ⟨trivial, rfl⟩
  | o :: ops, x, ha, hb, h => by
    have h' : _ ∧ _ := h
    have e := slide_transposed ha hb (fun hk => (h'.1 hk).1) (fun hk => (h'.1 hk).2.1)
    have hl : (slide x o).ndim = x.ndim := slide_length
    obtain ⟨h1, h2⟩ := Fitting_transposed (by rw [hl]; exact ha) (by rw [hl]; exact hb) h'.2
    refine ⟨⟨?_, by rw [e]; exact h1⟩, ?_⟩
    · intro hk
      show Equiv.swap a b o.axis < _ ∧ 0 < o.stride ∧ o.kernel.length ≤ (transposed a b x).shape.getD (Equiv.swap a b o.axis) 0
      rw [transposed_ndim, transposed_size ha hb, swap_lt ha hb]
      exact h'.1 hk
    · show poolSeq (slide (transposed a b x) (swapPool a b o)) (ops.map (swapPool a b)) = transposed a b (poolSeq (slide x o) ops)
      rw [e, h2]

end

section
variable {α : Type} [Field α] [LinearOrder α] [IsStrictOrderedRing α] {a b : Nat}
variable {g : PoolArgs α} {gp : PadArgs α} {x : Tensor α} {ax ax' : Axes} {axes : List Nat}

theorem swapAxes_length : (swapAxes a b axes).length = axes.length := by simp [swapAxes]

theorem swapAxes_getD {i : Nat} (hi : i < axes.length) : (swapAxes a b axes).getD i 0 = Equiv.swap a b (axes.getD i 0) := by
  simp [swapAxes, hi]

theorem mem_swapAxes {k : Nat} : k ∈ swapAxes a b axes ↔ Equiv.swap a b k ∈ axes := by
  rw [swapAxes, List.mem_map]
  constructor
  · rintro ⟨j, hj, rfl⟩
    rwa [Equiv.swap_apply_self]
  · exact fun h => ⟨_, h, Equiv.swap_apply_self _ _ _⟩

theorem swapAxes_nodup (h : axes.Nodup) : (swapAxes a b axes).Nodup := h.map (Equiv.swap a b).injective

theorem ops_swapAxes : g.ops (swapAxes a b axes) = (g.ops axes).map (swapPool a b) := by
  rw [PoolArgs.ops, PoolArgs.ops, List.map_map, swapAxes_length]
  apply List.map_congr_left
  intro i hi
  have : (swapAxes a b axes).getD i 0 = Equiv.swap a b (axes.getD i 0) := swapAxes_getD (List.mem_range.1 hi)
  simp only [PoolArgs.op, this, Function.comp, swapPool]

theorem widths_swapAxes (ha : a < x.ndim) (hb : b < x.ndim) : g.widths (transposed a b x).shape (swapAxes a b axes) = g.widths x.shape axes := by
  rw [PoolArgs.widths, PoolArgs.widths, swapAxes_length]
  apply List.map_congr_left
  intro i hi
  rw [swapAxes_getD (List.mem_range.1 hi), transposed_size ha hb]
  rfl

theorem sameOps_swapAxes (ha : a < x.ndim) (hb : b < x.ndim) :
    sameOps g gp (transposed a b x).shape (swapAxes a b axes) = swapOps a b (sameOps g gp x.shape axes) := by
  rw [sameOps, sameOps, widths_swapAxes ha hb, swapAxes_length, swapOps, swapAxes]
  rw [List.zip_map_left]
  rfl

theorem Spec.SameCall.transposed (h : SameCall g gp x ax axes) (ha : a < x.ndim) (hb : b < x.ndim) (hax : axesOf x.ndim ax' = some (swapAxes a b axes)) :
    SameCall g gp (transposed a b x) ax' (swapAxes a b axes) where
  axes_eq := by rw [transposed_ndim]; exact hax
  ne := by simpa [swapAxes] using h.ne
  nodup := swapAxes_nodup h.nodup
  fits := by rw [swapAxes_length]; exact h.fits
  rest := by rw [swapAxes_length]; exact h.rest
  stride := by
    rw [swapAxes_length]
    exact h.stride
  pos := by
    intro k hk
    rw [← Equiv.swap_apply_self a b k, transposed_size ha hb]
    exact h.pos _ (mem_swapAxes.1 hk)
  valued := by
    rw [sameOps_swapAxes ha hb]
    intro o ho
    obtain ⟨q, hq, rfl⟩ := List.mem_map.1 ho
    exact h.valued q hq

theorem same_transposed (h : SameCall g gp x ax axes) (ha : a < x.ndim) (hb : b < x.ndim) :
    poolSeq (padSeq (Spec.transposed a b x) (sameOps g gp (Spec.transposed a b x).shape (swapAxes a b axes))) (g.ops (swapAxes a b axes)) =
      Spec.transposed a b (poolSeq (padSeq x (sameOps g gp x.shape axes)) (g.ops axes)) := by
  have hpos : ∀ o ∈ sameOps g gp x.shape axes, ¬ (o.2.before = 0 ∧ o.2.after = 0) → 0 < x.shape.getD o.1 0 := by
    intro o ho _
    obtain ⟨i, hi, rfl⟩ := sameOps_mem ho
    exact h.pos _ (getD_mem_lt hi)
  have hn := padSeq_ndim (x := x) h.opsOK
  rw [sameOps_swapAxes ha hb, padSeq_transposed ha hb h.opsOK (by rw [sameOps_fst]; exact h.nodup) hpos, ops_swapAxes]
  exact (Fitting_transposed (by rw [hn]; exact ha) (by rw [hn]; exact hb) h.poolOps.fitting).2

end

/-! ## maps -/

section
variable {α : Type} [Field α] {a b : Nat}

theorem times_transposed {x y : Tensor α} (ha : a < x.ndim) (hb : b < x.ndim) (h : y.shape = x.shape) :
    times (transposed a b x) (transposed a b y) = transposed a b (times x y) := by
  apply ext_get (show (times (transposed a b x) (transposed a b y)).shape = (transposed a b (times x y)).shape from rfl)
  intro ix hix
  have hix' : InB (swapAt a b x.shape) ix := hix
  rw [transposed_get (x := times x y) hix', times, times, get_ofFn (show InB (transposed a b x).shape ix from hix'), transposed_get hix',
    transposed_get (show InB (swapAt a b y.shape) ix by rw [h]; exact hix'), get_ofFn (swapAt_inB' ha hb hix')]

/-- a map made of blurred images is transposed with the images; the blur goes along the exchanged axes -/
theorem pointMap_transposed {β β' : Tensor α → Tensor α} {y1 y2 : Tensor α} (F : α → α → α → α → α → α) (h12 : y2.shape = y1.shape)
    (ha : a < y1.ndim) (hb : b < y1.ndim) (hn : (β y1).ndim = y1.ndim) (hsh : ∀ x, x.shape = y1.shape → (β x).shape = (β y1).shape)
    (hβ : ∀ x, x.shape = y1.shape → β' (transposed a b x) = transposed a b (β x)) :
    pointMap F β' (transposed a b y1) (transposed a b y2) = transposed a b (pointMap F β y1 y2) := by
  have e1 := hβ y1 rfl
  have e2 := hβ y2 h12
  have e3 := hβ (times y1 y1) rfl
  have e4 := hβ (times y2 y2) h12
  have e5 := hβ (times y1 y2) rfl
  have hn2 : y2.ndim = y1.ndim := by rw [ndim, h12]; rfl
  rw [pointMap, e1, e2, times_transposed ha hb rfl, times_transposed (by rw [hn2]; exact ha) (by rw [hn2]; exact hb) rfl,
    times_transposed ha hb h12, e3, e4, e5]
  have e : (pointMap F β y1 y2).shape = (β y1).shape := rfl
  rw [transposed_shape, show transposed a b (pointMap F β y1 y2) = ofFn (swapAt a b (pointMap F β y1 y2).shape) _ from rfl, e]
  apply ofFn_congr
  intro ix hix'
  have s2 := hsh y2 h12
  have s3 := hsh (times y1 y1) rfl
  have s4 := hsh (times y2 y2) h12
  have s5 := hsh (times y1 y2) rfl
  rw [transposed_get hix', transposed_get (x := β y2) (by rw [s2]; exact hix'), transposed_get (x := β (times y1 y1)) (by rw [s3]; exact hix'),
    transposed_get (x := β (times y2 y2)) (by rw [s4]; exact hix'), transposed_get (x := β (times y1 y2)) (by rw [s5]; exact hix'),
    pointMap, get_ofFn (swapAt_inB' (by rw [show (β y1).shape.length = (β y1).ndim from rfl, hn]; exact ha)
      (by rw [show (β y1).shape.length = (β y1).ndim from rfl, hn]; exact hb) hix')]

/-! ## reductions -/

theorem onKept_swapAt {ds ix : List Nat} (ha : a ∈ ds) (hb : b ∈ ds) : onKept ds (swapAt a b ix) = onKept ds ix := by
  rw [swapAt, onKept_set hb, onKept_set ha]

theorem onKept_congr {ds ds' ix : List Nat} (h : ∀ k, k ∈ ds ↔ k ∈ ds') : onKept ds ix = onKept ds' ix := by
  rw [onKept, onKept, keptAxes, keptAxes]
  simp only [h]

theorem collected_congr {ds ds' s jx : List Nat} (h : ∀ k, k ∈ ds ↔ k ∈ ds') : collected s ds jx = collected s ds' jx := by
  rw [collected, collected]
  simp only [onKept_congr h]

theorem collected_transposed {s ds jx : List Nat} (ha : a < s.length) (hb : b < s.length) (hda : a ∈ ds) (hdb : b ∈ ds) :
    ((collected (swapAt a b s) ds jx).map (swapAt a b)).Perm (collected s ds jx) := by
  refine (List.perm_ext_iff_of_nodup ?_ ((indices_nodup s).filter _)).2 ?_
  · apply List.Nodup.map_on _ ((indices_nodup _).filter _)
    intro u hu v hv e
    have hu1 := (mem_collected.1 hu).1.length_eq
    have hv1 := (mem_collected.1 hv).1.length_eq
    rw [swapAt_length] at hu1 hv1
    have := congrArg (swapAt a b) e
    rwa [swapAt_swapAt (by rw [hu1]; exact ha) (by rw [hu1]; exact hb), swapAt_swapAt (by rw [hv1]; exact ha) (by rw [hv1]; exact hb)] at this
  · intro ix
    rw [List.mem_map]
    constructor
    · rintro ⟨ux, hu, rfl⟩
      obtain ⟨h1, h2⟩ := mem_collected.1 hu
      exact mem_collected.2 ⟨swapAt_inB' ha hb h1, by rw [onKept_swapAt hda hdb]; exact h2⟩
    · intro h
      obtain ⟨h1, h2⟩ := mem_collected.1 h
      exact ⟨swapAt a b ix, mem_collected.2 ⟨swapAt_inB ha hb h1, by rw [onKept_swapAt hda hdb]; exact h2⟩,
        swapAt_swapAt (by rw [h1.length_eq]; exact ha) (by rw [h1.length_eq]; exact hb)⟩

theorem swap_mem_iff {ds : List Nat} (hda : a ∈ ds) (hdb : b ∈ ds) (k : Nat) : Equiv.swap a b k ∈ ds ↔ k ∈ ds := by
  rw [Equiv.swap_apply_def]
  split_ifs with h1 h2
  · subst h1; exact ⟨fun _ => hda, fun _ => hdb⟩
  · subst h2; exact ⟨fun _ => hdb, fun _ => hda⟩
  · rfl

theorem mem_reducedAxes_swap {n : Nat} {raxes : List Nat} (hda : a ∈ reducedAxes n raxes) (hdb : b ∈ reducedAxes n raxes) (k : Nat) :
    k ∈ reducedAxes n (swapAxes a b raxes) ↔ k ∈ reducedAxes n raxes := by
  rw [reducedAxes] at hda hdb ⊢
  rw [reducedAxes]
  by_cases h : raxes = []
  · subst h; rfl
  · have h' : swapAxes a b raxes ≠ [] := by simpa [swapAxes] using h
    rw [if_neg h] at hda hdb ⊢
    rw [if_neg h', mem_swapAxes, swap_mem_iff hda hdb]

/-- reducing both exchanged axes -/
theorem reduced_transposed {x : Tensor α} {ds : List Nat} (f : List α → α) (hf : ∀ l l', l.Perm l' → f l = f l') (ha : a < x.ndim) (hb : b < x.ndim)
    (hda : a ∈ ds) (hdb : b ∈ ds) :
    (ofFn (onKept ds (transposed a b x).shape) fun jx => f ((collected (transposed a b x).shape ds jx).map (transposed a b x).get)) =
      ofFn (onKept ds x.shape) fun jx => f ((collected x.shape ds jx).map x.get) := by
  rw [transposed_shape, onKept_swapAt hda hdb]
  apply ofFn_congr
  intro jx _
  have e : (collected (swapAt a b x.shape) ds jx).map (transposed a b x).get = ((collected (swapAt a b x.shape) ds jx).map (swapAt a b)).map x.get := by
    rw [List.map_map]
    apply List.map_congr_left
    intro ix hix
    exact transposed_get (mem_collected.1 hix).1
  rw [e]
  exact hf _ _ ((collected_transposed ha hb hda hdb).map _)

theorem meanOver_transposed {x : Tensor α} {raxes : List Nat} (ha : a < x.ndim) (hb : b < x.ndim) (hda : a ∈ reducedAxes x.ndim raxes)
    (hdb : b ∈ reducedAxes x.ndim raxes) : meanOver (transposed a b x) (swapAxes a b raxes) = meanOver x raxes := by
  rw [meanOver, meanOver, transposed_ndim, ← reduced_transposed mean (fun _ _ h => mean_perm h) ha hb hda hdb]
  have hk := mem_reducedAxes_swap hda hdb
  rw [onKept_congr hk]
  apply ofFn_congr
  intro jx _
  rw [collected_congr hk]

end

/-! ## blurs -/

section
variable {α : Type} [Field α] [LinearOrder α] [IsStrictOrderedRing α] {a b : Nat}
variable {g : Given (List α)} {gp : Option (PadArgs α)} {x y1 y2 : Tensor α} {ax ax' : Axes} {axes : List Nat} {p : Option (Padder α)}

theorem Spec.BlurCall.transposed (h : BlurCall g gp x ax axes p) (ha : a < x.ndim) (hb : b < x.ndim)
    (hax : axesOf x.ndim ax' = some (swapAxes a b axes)) : BlurCall g gp (transposed a b x) ax' (swapAxes a b axes) p := by
  cases gp with
  | none =>
    refine ⟨h.1, by rw [transposed_ndim]; exact hax, ?_⟩
    rw [ops_swapAxes]
    exact (Fitting_transposed ha hb h.2.2).1
  | some gp => exact ⟨h.1, h.2.transposed ha hb hax⟩

theorem blurred_transposed (h : BlurCall g gp x ax axes p) (ha : a < x.ndim) (hb : b < x.ndim) :
    blurred g gp (swapAxes a b axes) (Spec.transposed a b x) = Spec.transposed a b (blurred g gp axes x) := by
  cases gp with
  | none =>
    show poolSeq _ _ = _
    rw [ops_swapAxes]
    exact (Fitting_transposed ha hb h.2.2).2
  | some gp => exact same_transposed h.2 ha hb

theorem pointMap_blur_transposed (F : α → α → α → α → α → α) (h : BlurCall g gp y1 ax axes p) (h12 : y2.shape = y1.shape)
    (ha : a < y1.ndim) (hb : b < y1.ndim) :
    pointMap F (blurred g gp (swapAxes a b axes)) (Spec.transposed a b y1) (Spec.transposed a b y2) =
      Spec.transposed a b (pointMap F (blurred g gp axes) y1 y2) := by
  apply pointMap_transposed F h12 ha hb (blurred_ndim h)
  · exact fun z hz => blurred_congr h hz
  · intro z hz
    have hz' : BlurCall g gp z ax axes p := by
      cases gp with
      | none => exact ⟨h.1, by rw [ndim, hz]; exact h.2.1, Fitting_congr hz.symm h.2.2⟩
      | some gp => exact ⟨h.1, h.2.congr hz⟩
    exact blurred_transposed hz' (by rw [ndim, hz]; exact ha) (by rw [ndim, hz]; exact hb)

/-! ## levels -/

theorem halved_transposed (hnd : axes.Nodup) (hlt : ∀ k ∈ axes, k < x.ndim) (hsz : ∀ k ∈ axes, 2 ≤ x.shape.getD k 0)
    (ha : a < x.ndim) (hb : b < x.ndim) : halved (swapAxes a b axes) (Spec.transposed a b x) = Spec.transposed a b (halved axes x) := by
  rw [halved, halved, ops_swapAxes]
  exact (Fitting_transposed ha hb (halver_poolOps (α := α) hnd hlt hsz).fitting).2

theorem MsAt.transposed {cr : Bool} {r : Nat} (h : MsAt g gp cr r x axes p) (ha : a < x.ndim) (hb : b < x.ndim) :
    MsAt g gp cr r (Spec.transposed a b x) (swapAxes a b axes) p where
  lt := by
    intro k hk
    rw [transposed_ndim]
    exact (swap_lt ha hb).1 (h.lt _ (mem_swapAxes.1 hk))
  ne := by simpa [swapAxes] using h.ne
  nodup := swapAxes_nodup h.nodup
  fits := by rw [swapAxes_length]; exact h.fits
  kernel := by rw [swapAxes_length]; exact h.kernel
  large := by
    intro i hi
    rw [swapAxes_length] at hi
    rw [swapAxes_getD hi, transposed_size ha hb]
    exact h.large i hi
  padder := by rw [swapAxes_length]; exact h.padder

theorem atLevel_transposed {cr : Bool} : ∀ (n : Nat) {r : Nat} {x : Tensor α}, MsAt g gp cr (r + n) x axes p → a < x.ndim → b < x.ndim →
    atLevel (swapAxes a b axes) n (Spec.transposed a b x) = Spec.transposed a b (atLevel axes n x)
  | 0, _, _, _, _, _ => rfl
  | n + 1, r, x, h, ha, hb => by
    have h' : MsAt g gp cr (r + n + 1) x axes p := h
    have hn : (halved axes x).ndim = x.ndim := poolSeq_ndim _ _
    rw [atLevel, atLevel, halved_transposed h'.nodup h'.lt h'.two_le ha hb]
    exact atLevel_transposed n h'.next (by rw [hn]; exact ha) (by rw [hn]; exact hb)

theorem atLevel_ndim : ∀ (n : Nat) (x : Tensor α), (atLevel axes n x).ndim = x.ndim
  | 0, _ => rfl
  | n + 1, x => by rw [atLevel, atLevel_ndim n]; exact poolSeq_ndim _ _

theorem onesAt_swapAxes {s : List Nat} (ha : a < s.length) (hb : b < s.length) :
    onesAt (swapAxes a b axes) (swapAt a b s) = swapAt a b (onesAt axes s) := by
  apply list_ext_getD (by simp only [onesAt_length, swapAt_length])
  intro k hk
  rw [onesAt_length, swapAt_length] at hk
  rw [onesAt_getD (by rw [swapAt_length]; exact hk), swapAt_getD ha hb, swapAt_getD (by rw [onesAt_length]; exact ha) (by rw [onesAt_length]; exact hb),
    onesAt_getD ((swap_lt ha hb).2 hk)]
  simp only [mem_swapAxes]

theorem onKept_swap_iff {ds u v : List Nat} (h : u.length = v.length) (ha : a < u.length) (hb : b < u.length) :
    onKept (swapAxes a b ds) (swapAt a b u) = onKept (swapAxes a b ds) (swapAt a b v) ↔ onKept ds u = onKept ds v := by
  have e : ∀ k, (swapAt a b u).getD k 0 = u.getD (Equiv.swap a b k) 0 := swapAt_getD ha hb
  have e' : ∀ k, (swapAt a b v).getD k 0 = v.getD (Equiv.swap a b k) 0 := swapAt_getD (by rw [← h]; exact ha) (by rw [← h]; exact hb)
  rw [onKept_eq_iff (by rw [swapAt_length, swapAt_length, h]), onKept_eq_iff h]
  simp only [e, e', swapAt_length, mem_swapAxes]
  constructor
  · intro hh k hk hd
    have := hh (Equiv.swap a b k) ((swap_lt ha hb).2 hk) (by rw [Equiv.swap_apply_self]; exact hd)
    rwa [Equiv.swap_apply_self] at this
  · exact fun hh k hk hd => hh _ ((swap_lt ha hb).2 hk) hd

theorem collected_swapAxes {s ds jx : List Nat} (ha : a < s.length) (hb : b < s.length) (hj : jx.length = s.length) :
    ((collected (swapAt a b s) (swapAxes a b ds) (onKept (swapAxes a b ds) (swapAt a b jx))).map (swapAt a b)).Perm (collected s ds (onKept ds jx)) := by
  refine (List.perm_ext_iff_of_nodup ?_ ((indices_nodup s).filter _)).2 ?_
  · apply List.Nodup.map_on _ ((indices_nodup _).filter _)
    intro u hu v hv e
    have hu1 := (mem_collected.1 hu).1.length_eq
    have hv1 := (mem_collected.1 hv).1.length_eq
    rw [swapAt_length] at hu1 hv1
    have := congrArg (swapAt a b) e
    rwa [swapAt_swapAt (by rw [hu1]; exact ha) (by rw [hu1]; exact hb), swapAt_swapAt (by rw [hv1]; exact ha) (by rw [hv1]; exact hb)] at this
  · intro ix
    rw [List.mem_map]
    constructor
    · rintro ⟨ux, hu, rfl⟩
      obtain ⟨h1, h2⟩ := mem_collected.1 hu
      have hl : ux.length = s.length := by rw [h1.length_eq, swapAt_length]
      refine mem_collected.2 ⟨swapAt_inB' ha hb h1, ?_⟩
      rw [← swapAt_swapAt (l := ux) (a := a) (b := b) (by rw [hl]; exact ha) (by rw [hl]; exact hb)] at h2
      exact (onKept_swap_iff (by rw [swapAt_length, hl, hj]) (by rw [swapAt_length, hl]; exact ha) (by rw [swapAt_length, hl]; exact hb)).1 h2
    · intro h
      obtain ⟨h1, h2⟩ := mem_collected.1 h
      have hl := h1.length_eq
      exact ⟨swapAt a b ix, mem_collected.2 ⟨swapAt_inB ha hb h1, (onKept_swap_iff (by rw [hl, hj]) (by rw [hl]; exact ha) (by rw [hl]; exact hb)).2 h2⟩,
        swapAt_swapAt (by rw [hl]; exact ha) (by rw [hl]; exact hb)⟩

theorem meanKept_transposed (ha : a < x.ndim) (hb : b < x.ndim) :
    meanKept (Spec.transposed a b x) (swapAxes a b axes) = Spec.transposed a b (meanKept x axes) := by
  rw [meanKept, transposed_shape, onesAt_swapAxes ha hb,
    show Spec.transposed a b (meanKept x axes) = ofFn (swapAt a b (onesAt axes x.shape)) _ from rfl]
  apply ofFn_congr
  intro jx hjx
  have ha' : a < (onesAt axes x.shape).length := by rw [onesAt_length]; exact ha
  have hb' : b < (onesAt axes x.shape).length := by rw [onesAt_length]; exact hb
  have hj := swapAt_inB' ha' hb' hjx
  have hl : jx.length = x.shape.length := by rw [hjx.length_eq, swapAt_length, onesAt_length]
  rw [meanKept, get_ofFn hj]
  have key := collected_swapAxes (ds := axes) (jx := swapAt a b jx) ha hb (by rw [swapAt_length, hl])
  rw [swapAt_swapAt (l := jx) (by rw [hl]; exact ha) (by rw [hl]; exact hb)] at key
  have e : (collected (swapAt a b x.shape) (swapAxes a b axes) (onKept (swapAxes a b axes) jx)).map (Spec.transposed a b x).get =
      ((collected (swapAt a b x.shape) (swapAxes a b axes) (onKept (swapAxes a b axes) jx)).map (swapAt a b)).map x.get := by
    rw [List.map_map]
    apply List.map_congr_left
    intro ix hix
    exact transposed_get (mem_collected.1 hix).1
  rw [e]
  exact mean_perm (key.map _)

theorem levelScore_transposed {cr : Bool} {r : Nat} {k1 k2 f : α} (h : MsAt g gp cr r y1 axes p) (h12 : y2.shape = y1.shape)
    (ha : a < y1.ndim) (hb : b < y1.ndim) (last : Bool) :
    levelScore k1 k2 f (scoreBlur g gp cr (swapAxes a b axes)) (swapAxes a b axes) last (Spec.transposed a b y1) (Spec.transposed a b y2) =
      Spec.transposed a b (levelScore k1 k2 f (scoreBlur g gp cr axes) axes last y1 y2) := by
  obtain ⟨gp', p', e, hc, h1, h2⟩ := h.scoreCall
  have e' : scoreBlur g gp cr (swapAxes a b axes) = blurred g gp' (swapAxes a b axes) := by
    cases cr with
    | true => rw [h1 rfl]; rfl
    | false => rw [h2 rfl]; rfl
  rw [e, e', levelScore, levelScore]
  have key : ∀ F : α → α → α → α → α → α,
      meanKept (pointMap F (blurred g gp' (swapAxes a b axes)) (Spec.transposed a b y1) (Spec.transposed a b y2)) (swapAxes a b axes) =
      Spec.transposed a b (meanKept (pointMap F (blurred g gp' axes) y1 y2) axes) := by
    intro F
    have hn : (pointMap F (blurred g gp' axes) y1 y2).ndim = y1.ndim := blurred_ndim hc
    rw [pointMap_blur_transposed F hc h12 ha hb]
    exact meanKept_transposed (by rw [hn]; exact ha) (by rw [hn]; exact hb)
  cases last with
  | true => exact key (ssimIndex (k1 ^ 2) (k2 ^ 2) f)
  | false => exact key (csIndex (k2 ^ 2) f)

end
end TI
