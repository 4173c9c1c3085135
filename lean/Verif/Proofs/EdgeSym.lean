import Verif.Spec.EdgeSym
import Verif.Proofs.EdgesMag
import Verif.Proofs.Grey
import Verif.Props.Flip
import Verif.Props.Roll

/-!
# Symmetries of the edge filters: one component
-/

set_option linter.unusedSectionVars false

namespace TI
open Tensor Spec

variable {α : Type} [Field α] [LinearOrder α] [IsStrictOrderedRing α] [FloorRing α] {x y : Tensor α} {a b d : Nat}
  {g : Given (List α)} {gp : PadArgs α} {ax : Axes} {axes : List Nat} {w : List α} {s c e : α}

/-! ## one filter -/

theorem uniform_one {β : Type} {g : Given β} (h : g.isMany = false) (dflt : β) (i : Nat) : g.entry dflt i = g.entry dflt 0 :=
  entry_of_not_many h _ i

theorem palindromic_filter (hu : gp.Uniform) (he : EvenHanded gp) (hg : ∀ i < axes.length, axes.getD i 0 = d → (g.entry [] i).reverse = g.entry [] i) :
    Palindromic d axes (PoolArgs.filter g) gp := by
  intro i hi hd
  rw [uniform_one hu.2.1 _ i, uniform_one hu.2.2.1 _ i, uniform_one hu.2.2.2 _ i]
  exact ⟨hg i hi hd, he⟩

theorem balanced_filter {n : Nat} (hg : ∀ i < axes.length, axes.getD i 0 = d → (g.entry [] i).length % 2 = 1 ∨ g.entry [] i = [])
    (hper : ∀ i < axes.length, axes.getD i 0 = d → (gp.mode.entry .unknown i).isPeriodize = true → n % 2 = 0) :
    Balanced d axes (PoolArgs.filter g) gp n := by
  intro i hi hd
  have hk : ((PoolArgs.filter g).op axes i).kernel = g.entry [] i := rfl
  have hs : ((PoolArgs.filter g).op axes i).stride = 1 := rfl
  refine ⟨?_, ?_, hper i hi hd⟩
  · rw [hs, hk, sameTotal_one]
    rcases hg i hi hd with h | h
    · omega
    · rw [h]; rfl
  · rw [hs, Nat.mod_one]

theorem filtered_flip (hc : SameCall (PoolArgs.filter g) gp x ax axes) (h : Palindromic d axes (PoolArgs.filter g) gp)
    (hb : Balanced d axes (PoolArgs.filter g) gp (x.shape.getD d 0)) : filtered g gp (flipped d x) axes = flipped d (filtered g gp x axes) :=
  same_flip hc h.mirrors hb

theorem filtered_map (hc : SameCall (PoolArgs.filter g) gp x ax axes) (h : gp.Follows (fun v => c * v + e) axes.length gp) :
    filtered g gp (x.map fun v => c * v + e) axes = (filtered g gp x axes).map fun v => c * v + e * totalWeight ((PoolArgs.filter g).ops axes) :=
  same_map hc h

theorem filtered_scale (hc : SameCall (PoolArgs.filter g) gp x ax axes) (h : gp.Follows (fun v => c * v) axes.length gp) :
    filtered g gp (x.map (c * ·)) axes = (filtered g gp x axes).map (c * ·) := by
  have := filtered_map (c := c) (e := 0) hc (by simpa using h)
  simpa using this

theorem filtered_rolled (hc : SameCall (PoolArgs.filter g) gp x ax axes) (hb : b < x.ndim)
    (hmode : ∀ i < axes.length, axes.getD i 0 = b → gp.mode.entry .unknown i = .circular) :
    filtered g gp (rolled b d x) axes = rolled b d (filtered g gp x axes) := by
  by_cases hm : ∃ i < axes.length, axes.getD i 0 = b
  · obtain ⟨i, hi, rfl⟩ := hm
    exact same_rolled hc hi (hmode i hi rfl) rfl
  push Not at hm
  have h1 : ∀ o ∈ sameOps (PoolArgs.filter g) gp x.shape axes, o.1 ≠ b := by
    intro o ho
    obtain ⟨i, hi, rfl⟩ := sameOps_mem ho
    exact hm i hi
  have h2 : ∀ o ∈ (PoolArgs.filter g).ops axes, o.axis ≠ b := by
    intro o ho
    obtain ⟨i, hi, rfl⟩ := mem_ops.1 ho
    exact hm i hi
  rw [filtered, filtered, rolled_shape, rolled_eq, padSeq_reindexed hb roll_lt h1 (by rw [sameOps_fst]; exact hc.nodup)]
  · rw [poolSeq_reindexed (by rw [padSeq_ndim']; exact hb) (by rw [padSeq_size h1]; exact roll_lt) h2, rolled_eq]
    · have : (poolSeq (padSeq x (sameOps (PoolArgs.filter g) gp x.shape axes)) ((PoolArgs.filter g).ops axes)).shape.getD b 0 = x.shape.getD b 0 := by
        rw [poolSeq_size h2, padSeq_size h1]
      rw [this]
    · intro o ho _
      obtain ⟨i, hi, rfl⟩ := mem_ops.1 ho
      rw [padSeq_ndim']
      exact ⟨hc.lt _ (mem_sameOps hi), Nat.one_pos⟩
  · intro o ho
    obtain ⟨i, hi, rfl⟩ := sameOps_mem ho
    exact hc.pos _ (getD_mem_lt hi)

/-! ## an edge kernel read backwards -/

theorem slide_scaled (x : Tensor α) (a st : Nat) (w : List α) (s : α) :
    slide x ⟨a, w.map (s * ·), st⟩ = if w = [] then x else (slide x ⟨a, w, st⟩).map (s * ·) := by
  by_cases hw : w = []
  · subst hw
    simp [slide]
  rw [if_neg hw]
  have hsh : (slide x ⟨a, w.map (s * ·), st⟩).shape = (slide x ⟨a, w, st⟩).shape := by
    rw [slide_shape, slide_shape]
    simp [hw]
  apply ext_get (show _ = ((slide x ⟨a, w, st⟩).map (s * ·)).shape from hsh)
  intro ix hix
  have hix' : InB (slide x ⟨a, w, st⟩).shape ix := by rw [← hsh]; exact hix
  rw [get_map _ _ hix', slide_get (by simpa using hw) hix, slide_get hw hix', ← List.sum_map_mul_left]
  congr 1
  simp only [List.length_map]
  apply List.map_congr_left
  intro j hj
  have hj' := List.mem_range.1 hj
  simp [hj', mul_assoc]

theorem filtered_parity (hw : w ≠ []) : filtered (.one (w.map (s * ·))) gp x [a] = (filtered (.one w) gp x [a]).map (s * ·) := by
  have e1 : sameOps (PoolArgs.filter (.one (w.map (s * ·)))) gp x.shape [a] = sameOps (PoolArgs.filter (.one w)) gp x.shape [a] := by
    simp [sameOps, List.range_succ, withWidths_entry, sameSetting, PoolArgs.samePair, PoolArgs.op, PoolArgs.filter, Given.entry]
  have e2 : ∀ v : List α, (PoolArgs.filter (.one v)).ops [a] = [⟨a, v, 1⟩] := fun _ => rfl
  rw [filtered, filtered, e1, e2, e2]
  show slide _ _ = (slide _ _).map _
  rw [slide_scaled, if_neg hw]

theorem flipped_map (f : α → α) (d : Nat) (x : Tensor α) : flipped d (x.map f) = (flipped d x).map f := by
  refine ext_get rfl ?_
  intro ix hix
  have hix' : InB x.shape ix := hix
  rw [flipped_get (show InB (x.map f).shape ix from hix), get_map _ _ (show InB (flipped d x).shape ix from hix), flipped_get hix']
  exact get_map _ _ (flip_inB hix')

theorem edge_flip (h : EdgeSetup g gp x ax axes) (ha : a ∈ axes) (he : EvenHanded gp) (hw : Parity s w) :
    filtered (.one w) gp (flipped a x) [a] = (flipped a (filtered (.one w) gp x [a])).map (s * ·) := by
  have hne : w ≠ [] := by rintro rfl; simp [Parity] at hw
  have hm : Mirrors a [a] (PoolArgs.filter (.one w.reverse)) (PoolArgs.filter (.one w)) gp gp := by
    intro i hi
    have : i = 0 := by simpa using hi
    subst this
    refine ⟨rfl, rfl, ?_⟩
    rw [if_pos (show [a].getD 0 0 = a from rfl)]
    exact ⟨(List.reverse_reverse w).symm, he.1.symm, he.2.1.symm, he.2.2.symm⟩
  have hb : Balanced a [a] (PoolArgs.filter (.one w.reverse)) gp (x.shape.getD a 0) := by
    apply balanced_filter
    · intro i _ _
      left
      show w.reverse.length % 2 = 1
      rw [List.length_reverse]; exact hw.1
    · intro i _ _ hp
      rw [uniform_entry h.uniform] at hp
      rcases h.keep with hk | hk
      · rw [hk] at hp; cases hp
      · exact hk a ha
  have := same_flip (h.edgeSame w.reverse ha) hm hb
  rw [← flipped_map, ← filtered_parity hne, ← hw.2]
  exact this

/-! ## components -/

theorem Spec.EdgeSetup.congr {x' : Tensor α} (h : EdgeSetup g gp x ax axes) (hs : x'.shape = x.shape) : EdgeSetup g gp x' ax axes where
  axes_eq := by
    have : x'.ndim = x.ndim := by rw [ndim, hs]; rfl
    rw [this]; exact h.axes_eq
  two := h.two
  nodup := h.nodup
  fits := h.fits
  pos := by rw [hs]; exact h.pos
  uniform := h.uniform
  valued := h.valued
  keep := by rw [hs]; exact h.keep

theorem getD_filter_ne {i : Nat} (hi : i < (axes.filter fun b => b ≠ a).length) : (axes.filter fun b => b ≠ a).getD i 0 ≠ a := by
  have := getD_mem_lt hi
  simpa using List.of_mem_filter this

/-- the component along axis `a` of the image with axis `d` reversed -/
theorem edgeResponse_flip (h : EdgeSetup g gp x ax axes) (ha : a ∈ axes) (he : EvenHanded gp) (hw : Parity s w)
    (hg : SmoothsEvenly g (axes.length - 1)) (hf : gp.Follows (fun v => s * v) (axes.length - 1) gp) :
    edgeResponse w g gp (flipped d x) axes a =
      if a = d then (flipped d (edgeResponse w g gp x axes a)).map (s * ·) else flipped d (edgeResponse w g gp x axes a) := by
  have hl := filter_ne_length h.nodup ha
  have hc := h.edgeCall w ha
  have hsm : filtered g gp (flipped d (filtered (.one w) gp x [a])) (axes.filter fun b => b ≠ a) =
      flipped d (filtered g gp (filtered (.one w) gp x [a]) (axes.filter fun b => b ≠ a)) := by
    apply filtered_flip hc.smooth
    · exact palindromic_filter h.uniform he fun i hi _ => (hg i (by rw [← hl]; exact hi)).1
    · apply balanced_filter
      · exact fun i hi _ => (hg i (by rw [← hl]; exact hi)).2
      · intro i hi hd hp
        rw [uniform_entry h.uniform] at hp
        rcases h.keep with hk | hk
        · rw [hk] at hp; cases hp
        · rw [h.edge_shape w ha, ← hd]
          exact hk _ (List.mem_of_mem_filter (getD_mem_lt hi))
  rw [edgeResponse, edgeResponse]
  split_ifs with hd
  · subst hd
    rw [edge_flip h ha he hw, filtered_scale (hc.smooth.congr (flipped_shape _ _)) (by rw [hl]; exact hf), hsm]
  · rw [← hsm]
    congr 1
    apply filtered_flip hc.edge
    · apply palindromic_filter h.uniform he
      intro i hi hda
      have : i = 0 := by simpa using hi
      subst this
      exact absurd hda hd
    · apply balanced_filter
      · intro i hi hda
        have : i = 0 := by simpa using hi
        subst this
        exact absurd hda hd
      · intro i hi hda
        have : i = 0 := by simpa using hi
        subst this
        exact absurd hda hd

theorem edgeResponse_rolled (h : EdgeSetup g gp x ax axes) (ha : a ∈ axes) (hb : b < x.ndim) (hmode : gp.mode.entry .unknown 0 = .circular) :
    edgeResponse w g gp (rolled b d x) axes a = rolled b d (edgeResponse w g gp x axes a) := by
  have hc := h.edgeCall w ha
  have hn : (filtered (.one w) gp x [a]).ndim = x.ndim := by rw [ndim, h.edge_shape w ha]; rfl
  rw [edgeResponse, edgeResponse, filtered_rolled hc.edge hb, filtered_rolled hc.smooth (by rw [hn]; exact hb)]
  · intro i _ _
    rw [uniform_entry h.uniform]; exact hmode
  · intro i _ _
    rw [uniform_entry h.uniform]; exact hmode

/-- the component of an image with other grey values, for an edge kernel of sum zero -/
theorem edgeResponse_map (h : EdgeSetup g gp x ax axes) (ha : a ∈ axes) (hw : w ≠ []) (h0 : w.sum = 0) (hf : gp.Follows (fun v => c * v + e) 1 gp)
    (hf' : gp.Follows (fun v => c * v) (axes.length - 1) gp) :
    edgeResponse w g gp (x.map fun v => c * v + e) axes a = (edgeResponse w g gp x axes a).map (c * ·) := by
  have hl := filter_ne_length h.nodup ha
  have hc := h.edgeCall w ha
  have ht : totalWeight ((PoolArgs.filter (.one w)).ops [a]) = 0 := by
    simp [totalWeight, PoolArgs.ops, PoolArgs.op, PoolArgs.filter, Given.entry, hw, h0, List.range_succ]
  rw [edgeResponse, edgeResponse, filtered_map hc.edge hf, ht]
  simp only [mul_zero, add_zero]
  exact filtered_scale hc.smooth (by rw [hl]; exact hf')

end TI
