import Verif.Spec.Border
import Verif.Proofs.EdgeChange
import Verif.Proofs.Batch
import Mathlib.Data.List.GetD

/-!
# Edges at reflected borders
-/

set_option linter.unusedSectionVars false

namespace TI
open Tensor Spec

variable {α : Type} [Field α] [LinearOrder α] [IsStrictOrderedRing α] {x : Tensor α} {g : Given (List α)} {gp : PadArgs α} {w : List α}
  {ax : Axes} {axes : List Nat} {a : Nat}

theorem sum_flip (k : Nat) (u : Nat → α) : ((List.range k).map u).sum = ((List.range k).map fun j => u (k - 1 - j)).sum := by
  have e : (List.range k).reverse = (List.range k).map fun j => k - 1 - j := by
    apply List.ext_getElem (by simp)
    intro i h1 h2
    simp
  rw [← List.sum_reverse, ← List.map_reverse, e, List.map_map]
  rfl

/-- a kernel cancels on samples that are extended about its centre -/
theorem sum_cancels {s κ : α} (hs : s * s = 1) (hw : w.reverse = w.map (s * ·)) {r : Nat} (hr : w.length = 2 * r + 1) {c : Int} {F : Int → α}
    (hF : ∀ z, F (2 * c - z) = κ - s * F z) (hκ : κ * w.sum = 0) :
    ((List.range w.length).map fun j => w.getD j 0 * F (c + j - r)).sum = 0 := by
  have h1 := sum_flip w.length fun j => w.getD j 0 * F (c + j - r)
  have h2 : ((List.range w.length).map fun j => w.getD (w.length - 1 - j) 0 * F (c + (w.length - 1 - j : Nat) - r)).sum =
      ((List.range w.length).map fun j => s * κ * w.getD j 0 + (-1) * (w.getD j 0 * F (c + j - r))).sum := by
    congr 1
    apply List.map_congr_left
    intro j hj
    have hj' := List.mem_range.1 hj
    have e : w.getD (w.length - 1 - j) 0 = s * w.getD j 0 := by
      have : w.reverse.getD j 0 = (w.map (s * ·)).getD j 0 := by rw [hw]
      rw [List.getD_eq_getElem _ _ (by simpa using hj'), List.getD_eq_getElem _ _ (by simpa using hj'), List.getElem_reverse, List.getElem_map] at this
      rw [List.getD_eq_getElem _ _ (by omega), List.getD_eq_getElem _ _ hj', this]
    rw [e, show c + ((w.length - 1 - j : Nat) : Int) - r = 2 * c - (c + j - r) by omega, hF]
    linear_combination (-(w.getD j 0 * F (c + j - r))) * hs
  have h3 : ((List.range w.length).map fun j => w.getD j 0).sum = w.sum := by
    congr 1
    apply List.ext_getElem (by simp)
    intro i h1 h2
    rw [List.getElem_map, List.getElem_range, List.getD_eq_getElem _ _ h2]
  rw [h2, List.sum_map_add, List.sum_map_mul_left, List.sum_map_mul_left, h3] at h1
  have : s * κ * w.sum = 0 := by rw [mul_assoc, hκ, mul_zero]
  linarith

theorem reflect_about {n : Nat} (hn : 0 < n) (u : Nat → α) {k : Int} (z : Int) : Spec.reflect n u (2 * (k * (n - 1 : Nat)) - z) = Spec.reflect n u z := by
  by_cases h1 : n = 1
  · subst h1; simp [Spec.reflect]
  rw [← reflect_mirror (by omega) u z, ← reflect_per (by omega) u (-z) k]
  congr 1
  rw [show (n : Int) + (n - 2 : Nat) = 2 * (n - 1 : Nat) by omega]
  ring

theorem oddReflect_about {n : Nat} (hn : 0 < n) (u : Nat → α) {k : Int} (z : Int) :
    Spec.oddReflect n u (2 * (k * (n - 1 : Nat)) - z) = 2 * Spec.oddReflect n u (k * (n - 1 : Nat)) - Spec.oddReflect n u z := by
  by_cases h1 : n = 1
  · subst h1; simp [Spec.oddReflect]; ring
  exact oddReflect_odd (by omega) u k z

variable [FloorRing α]

/-- the edge along the differentiated axis is zero at the border -/
theorem edge_border (h : EdgeSetup g gp x ax axes) (ha : a ∈ axes) (hw : CancelsAtBorder (gp.mode.entry .unknown 0) w) {ix : List Nat}
    (hix : InB x.shape ix) (hb : AtBorder x.shape a ix) : (filtered (.one w) gp x [a]).get ix = 0 := by
  have hodd : w.length % 2 = 1 := by rcases hw with hw | hw; exacts [hw.2.1, hw.2.1.1]
  have hne : w ≠ [] := by rintro rfl; simp at hodd
  have hlt := (h.edgeSame w ha).lt
  have hax : a < x.ndim := by
    have := (checkAxes_spec h.axes_eq).2 a ha
    omega
  have hn := h.pos a ha
  set n := x.shape.getD a 0 with hnn
  set o : Nat × AxisPad α := (a, sameSetting (PoolArgs.filter (.one w)) gp x.shape [a] 0) with ho
  have hops : sameOps (PoolArgs.filter (.one w)) gp x.shape [a] = [o] := by
    rw [sameOps]
    simp [ho, withWidths_entry]
  have hpool : (PoolArgs.filter (.one w)).ops [a] = [⟨a, w, 1⟩] := rfl
  have hbef : o.2.before = (w.length - 1) / 2 := by
    show (PoolArgs.samePair w.length 1 _).1 = _
    rw [PoolArgs.samePair, sameTotal_one]
    show w.length - 1 - (w.length - 1) / 2 = _
    omega
  have hsh := h.edge_shape w ha
  rw [filtered, hops, hpool] at hsh ⊢
  have hsl : (slide (padStep x o) ⟨a, w, 1⟩).shape = x.shape := hsh
  show (slide (padStep x o) ⟨a, w, 1⟩).get ix = 0
  rw [slide_get hne (by rw [hsl]; exact hix)]
  -- the samples that are read
  obtain ⟨r, hr⟩ : ∃ r, w.length = 2 * r + 1 := ⟨w.length / 2, by omega⟩
  have hbr : o.2.before = r := by omega
  obtain ⟨k, hk⟩ : ∃ k : Int, (ix.getD a 0 : Int) = k * ((n - 1 : Nat) : Int) := by
    rcases hb with hb | hb
    · exact ⟨0, by rw [hb]; simp⟩
    · exact ⟨1, by rw [hb, one_mul]⟩
  have key : ∀ E : Ext α, o.2.rule? = some E → ∀ j < w.length,
      (padStep x o).get (ix.set a (ix.getD a 0 * 1 + j)) = E n (fun i => x.get (ix.set a i)) ((ix.getD a 0 : Int) + j - r) := by
    intro E hE j hj
    have hin := slide_inB (x := padStep x o) (o := ⟨a, w, 1⟩) Nat.one_pos (by rw [padStep_eq hax hE]; simpa [extendAxis, ndim] using hax) hne
      (by rw [hsl]; exact hix) hj
    rw [padStep_eq hax hE] at hin ⊢
    rw [extendAxis] at hin ⊢
    rw [get_ofFn (by simpa using hin)]
    have hal : a < ix.length := by rw [hix.length_eq]; exact hax
    show E n (fun i => x.get ((ix.set a (ix.getD a 0 * 1 + j)).set a i)) (((ix.set a (ix.getD a 0 * 1 + j)).getD a 0 : Int) - o.2.before) = _
    rw [getD_set_self _ _ _ _ hal, hbr]
    simp only [List.set_set, mul_one]
    congr 1
  rcases hw with ⟨hm, hp⟩ | ⟨hm, hp, h0⟩
  · have hE : o.2.rule? = some Spec.reflect := by
      have : o.2.mode = .reflect := hm
      simp [AxisPad.rule?, this]
    rw [List.map_congr_left fun j hj => by rw [key _ hE j (List.mem_range.1 hj)]]
    exact sum_cancels (s := -1) (κ := 0) (by ring) hp.2 hr (c := (ix.getD a 0 : Int)) (fun z => by rw [hk, reflect_about hn]; ring) (by ring)
  · have hE : o.2.rule? = some Spec.oddReflect := by
      have : o.2.mode = .oddReflect := hm
      simp [AxisPad.rule?, this]
    rw [List.map_congr_left fun j hj => by rw [key _ hE j (List.mem_range.1 hj)]]
    exact sum_cancels (s := 1) (κ := 2 * Spec.oddReflect n (fun i => x.get (ix.set a i)) (k * (n - 1 : Nat))) (by ring) hp.2 hr (c := (ix.getD a 0 : Int)) (fun z => by rw [hk, oddReflect_about hn]; ring) (by rw [h0]; ring)

/-- smoothing along other axes keeps zeros -/
theorem filtered_zero_slice {b i : Nat} (hc : SameCall (PoolArgs.filter g) gp x ax axes) (hl : ∀ i < axes.length, (gp.entry i).Linear) (hb : b ∉ axes)
    (hbx : b < x.ndim) (hi : i < x.shape.getD b 0) (hz : ∀ ix, InB x.shape ix → ix.getD b 0 = i → x.get ix = 0) {ix : List Nat}
    (hix : InB (filtered g gp x axes).shape ix) (h0 : ix.getD b 0 = i) (hsh : (filtered g gp x axes).shape = x.shape) :
    (filtered g gp x axes).get ix = 0 := by
  have hs : Selects b [i] x.shape := ⟨hbx, by simpa using hi⟩
  have hsel : filtered g gp (Spec.selected b [i] x) axes = Spec.selected b [i] (filtered g gp x axes) := same_selected hc hs hb
  set X := Spec.selected b [i] x with hX
  have hXz : X = lincomb 0 X 0 X := by
    apply ext_get (show X.shape = (lincomb 0 X 0 X).shape from rfl)
    intro jx hjx
    have hjx' : InB (x.shape.set b 1) jx := hjx
    have e : X.get jx = 0 := by
      rw [hX, selected_get hjx']
      have hin : InB x.shape (jx.set b ([i].getD (jx.getD b 0) 0)) := hs.inB hjx'
      apply hz _ hin
      have hb0 : jx.getD b 0 = 0 := by
        have := hjx'.lt (k := b) (by simpa [ndim] using hbx)
        rw [getD_set_self _ _ _ _ hbx] at this
        omega
      rw [hb0, getD_set_self _ _ _ _ (by rw [hjx'.length_eq, List.length_set]; exact hbx)]
      rfl
    rw [lincomb, get_ofFn (show InB X.shape jx from hjx), e]
    ring
  have hzero : ∀ jx, InB (filtered g gp X axes).shape jx → (filtered g gp X axes).get jx = 0 := by
    intro jx hjx
    have e := filtered_lincomb (a := 0) (b := 0) (y := X) (hc.selected (index := [i]) hb) hl rfl
    rw [← hXz] at e
    rw [e, lincomb, get_ofFn hjx]
    ring
  rw [hsel] at hzero
  have hj : InB ((filtered g gp x axes).shape.set b [i].length) (ix.set b 0) := hix.set' (by simp)
  have := hzero (ix.set b 0) hj
  rw [selected_get hj, List.set_set, getD_set_self _ _ _ _ (by rw [hix.length_eq, hsh]; exact hbx), show [i].getD 0 0 = i from rfl, ← h0,
    set_getD_self] at this
  exact this

/-- the smoothed edge along axis `a` is zero at the border of axis `a` -/
theorem edgeResponse_border (h : EdgeSetup g gp x ax axes) (ha : a ∈ axes) (hw : CancelsAtBorder (gp.mode.entry .unknown 0) w) {ix : List Nat}
    (hix : InB x.shape ix) (hb : AtBorder x.shape a ix) : (edgeResponse w g gp x axes a).get ix = 0 := by
  have hax : a < x.ndim := by
    have := (checkAxes_spec h.axes_eq).2 a ha
    omega
  have hl : ∀ i, (gp.entry i).Linear := by
    intro i
    have hm : (gp.entry i).mode = gp.mode.entry .unknown 0 := uniform_entry h.uniform i
    rw [AxisPad.Linear]
    rcases hw with hw | hw <;> rw [hm, hw.1] <;> trivial
  have hsh := h.edge_shape w ha
  have hr := h.response_shape w ha
  have hc := h.edgeCall w ha
  rw [edgeResponse] at hr ⊢
  apply filtered_zero_slice (b := a) (i := ix.getD a 0) hc.smooth (fun i _ => hl i) (by simp) (by rw [ndim, hsh]; exact hax)
    (by rw [hsh]; exact hix.lt hax) _ (by rw [hr]; exact hix) rfl (by rw [hr, hsh])
  intro jx hjx e
  rw [hsh] at hjx
  exact edge_border h ha hw hjx (by rw [AtBorder, e]; exact hb)

end TI
