import Verif.Props.IntImage
import Verif.Props.Edges

/-!
# Edge filters on images of machine integers
-/

set_option linter.unusedSectionVars false

namespace TI
open Tensor Spec

section
variable {α β : Type} [Zero α] [Add α] [Sub α] [Neg α] [Mul α] [IntCast α] [OfNat α 2] [Zero β] [Add β] [Sub β] [Neg β] [Mul β] [IntCast β] [OfNat β 2]
variable {R : α → β → Prop}

theorem rel_sliceAt (h0 : R 0 0) {x : Tensor α} {y : Tensor β} (h : x.Rel R y) (s : PySlice) (d : Int) : ExRel (Tensor.Rel R) (x.sliceAt s d) (y.sliceAt s d) := by
  unfold Tensor.sliceAt
  rw [h.ndim]
  exact .bind_same _ fun d _ => .ok (h.getSlice h0 _)

theorem rel_firstDiff (hR : RingRel R) {x : Tensor α} {y : Tensor β} (h : x.Rel R y) (axis : Int) :
    ExRel (Tensor.Rel R) (EdgeFilter.firstDiff x axis) (EdgeFilter.firstDiff y axis) := by
  unfold EdgeFilter.firstDiff
  refine .bind (rel_sliceAt hR.zero h _ _) fun a a' ha => ?_
  refine .bind (rel_sliceAt hR.zero h _ _) fun b b' hb => ?_
  exact Tensor.Rel.bop hR.zero ha hb fun _ _ _ _ h1 h2 => hR.sub h1 h2

theorem rel_secondDiff (hR : RingRel R) {x : Tensor α} {y : Tensor β} (h : x.Rel R y) (axis : Int) :
    ExRel (Tensor.Rel R) (EdgeFilter.secondDiff x axis) (EdgeFilter.secondDiff y axis) := by
  unfold EdgeFilter.secondDiff
  refine .bind (rel_sliceAt hR.zero h _ _) fun a a' ha => ?_
  refine .bind (rel_sliceAt hR.zero h _ _) fun b b' hb => ?_
  refine .bind (Tensor.Rel.bop hR.zero ha hb fun _ _ _ _ h1 h2 => hR.add h1 h2) fun s s' hs => ?_
  refine .bind (rel_sliceAt hR.zero h _ _) fun c c' hc => ?_
  exact Tensor.Rel.bop hR.zero hs (hc.map hR.zero fun _ _ h => hR.two h) fun _ _ _ _ h1 h2 => hR.sub h1 h2

theorem ExRel.ok_left {γ δ : Type} {P : γ → δ → Prop} {a : γ} {b : Except Err δ} (h : ExRel P (.ok a) b) : ∃ y, b = .ok y ∧ P a y := by
  rcases h.cases with ⟨e, h1, _⟩ | ⟨x, y, h1, h2, h3⟩
  · cases h1
  · cases h1
    exact ⟨y, h2, h3⟩

end

section
variable {α : Type} [Field α] [LinearOrder α] [IsStrictOrderedRing α] [FloorRing α] {t : IntType}
variable {f : EdgeFilter α} {w : List α} {g : Given (List α)} {m a : Nat} {gp : PadArgs α} {x : Tensor α} {X : Tensor t.Word} {ps : EdgePadders α} {ax : Axes} {axes : List Nat}

theorem truncInt_eq (v : α) : truncInt v = towardZero v := by
  rw [truncInt, towardZero]
  by_cases h : 0 ≤ v
  · rw [if_pos h, if_neg (not_lt.2 h)]
  · rw [if_neg h, if_pos (not_le.1 h), Int.floor_neg, neg_neg]

theorem truncOp_of_trunc {v : List ℤ} (h : w.map truncInt = v) (a : Nat) : truncOp (⟨a, w, 1⟩ : PoolOp α) = ⟨a, v.map fun n : ℤ => (n : α), 1⟩ := by
  rw [truncOp, ← h, List.map_map]
  simp only [PoolOp.mk.injEq, true_and, and_true]
  exact List.map_congr_left fun v _ => by simp [truncInt_eq]

theorem padWord_int (pool : SepPool α) (p : Option (Padder α)) (junk : List Nat → t.Word) (X : Tensor t.Word) (ha : a < X.ndim) :
    pool.padWord t p junk X (.int a) = pool.padWord t p junk X (.seq (castV [a])) := by
  have h1 : checkAxes X.ndim (.int a) = .ok (castV [a]) := by
    simp [checkAxes, castV]
  have h2 : checkAxes X.ndim (.seq (castV [a])) = .ok (castV [a]) := checkAxes_castV (by simpa using ha)
  simp only [SepPool.padWord, h1, h2]

/-- calls depend on the shape of the image only -/
theorem Spec.SameCall.of_shape {g : PoolArgs α} {y : Tensor α} (h : SameCall g gp x ax axes) (hs : x.shape = y.shape) : SameCall g gp y ax axes where
  axes_eq := by rw [Tensor.ndim, ← hs]; exact h.axes_eq
  ne := h.ne
  nodup := h.nodup
  fits := h.fits
  rest := h.rest
  stride := h.stride
  pos := by rw [← hs]; exact h.pos
  valued := by rw [← hs]; exact h.valued

theorem filteredInt_shape (g : Given (List α)) (gp : PadArgs α) {x y : Tensor α} (h : x.shape = y.shape) (axes : List Nat) :
    (filteredInt (PoolArgs.filter g) gp x axes).shape = (filtered g gp y axes).shape := by
  rw [filteredInt, filtered, paddedInt, h]
  exact poolSeq_trunc_shape _ (padSeq_int_shape _ h)

/-- all three branches of `_conv_edge` apply the kernel without its digits after the point -/
theorem convEdgeWord_same (h : EdgeIs f w g m) (hx : x.Rel (SameInt (α := α)) X) (hps : HoldsBoth ps gp) (hc : SameCall (PoolArgs.filter (.one w)) gp x (.int a) [a])
    (hmode : forWords (gp.mode.entry .unknown 0)) (junk : List Nat → t.Word) :
    ∃ ps' Z, f.convEdgeWord t ps junk X (a : Int) = (ps', .ok Z) ∧ (filteredInt (PoolArgs.filter (.one w)) gp x [a]).Rel (SameInt (α := α)) Z ∧ HoldsBoth ps' gp := by
  obtain ⟨e, s, h1, h2, h3, h4⟩ := id hps
  have ha : a < x.ndim := (checkAxes_spec hc.axes_eq).2 a (by simp)
  have hmode' : ∀ i < [a].length, forIntegers (gp.mode.entry .unknown i) = true ∧ isStat (gp.mode.entry .unknown i) = false := by
    intro i hi
    obtain rfl : i = 0 := by simpa using hi
    exact hmode
  obtain ⟨Y, y1, y2⟩ := h.edge.padWord_same hx hc (by intro h; cases h) h3 hmode' junk
  rw [← padWord_int _ _ _ _ (by rw [← hx.ndim]; exact ha)] at y1
  obtain ⟨Z, z1, z2⟩ := h.edge.forwardWord_same hx hc (by intro h; cases h) h3 hmode' junk
  have hn : a < (padSeq x (intOps (sameOps (PoolArgs.filter (.one w)) gp x.shape [a]))).ndim := by
    rw [Tensor.ndim, padSeq_int_shape _ rfl, ← Tensor.ndim, hc.paddedShape.ndim]
    exact ha
  have hset := hps.setEdge (holds_withWidths gp ((PoolArgs.filter (.one w)).widths x.shape [a]) 1)
  rw [EdgeFilter.convEdgeWord]
  simp only [h.kernel_get]
  by_cases c1 : w.map truncInt = [-1, 0, 1]
  · simp only [if_pos c1, h1, y1]
    have hd := rel_firstDiff sameInt_ringRel y2 (a : Int)
    rw [firstDiff_eq hn] at hd
    obtain ⟨Z, d1, d2⟩ := hd.ok_left
    refine ⟨_, Z, congrArg (Prod.mk _) d1, ?_, hset⟩
    rw [filteredInt, ops_single]
    change (slide _ (truncOp _)).Rel _ _
    rw [truncOp_of_trunc c1]
    simpa [paddedInt] using d2
  · by_cases c2 : w.map truncInt = [1, -2, 1]
    · simp only [if_neg c1, if_pos c2, h1, y1]
      have hd := rel_secondDiff sameInt_ringRel y2 (a : Int)
      rw [secondDiff_eq hn] at hd
      obtain ⟨Z, d1, d2⟩ := hd.ok_left
      refine ⟨_, Z, congrArg (Prod.mk _) d1, ?_, hset⟩
      rw [filteredInt, ops_single]
      change (slide _ (truncOp _)).Rel _ _
      rw [truncOp_of_trunc c2]
      simpa [paddedInt] using d2
    · simp only [if_neg c1, if_neg c2, h1, z1]
      exact ⟨_, Z, rfl, z2, hset⟩

/-- one component -/
theorem Spec.EdgeSetup.componentWord (hs : EdgeSetup g gp x ax axes) (h : EdgeIs f w g m) (hm : g.isMany = true → axes.length - 1 = m) (ha : a ∈ axes)
    (hx : x.Rel (SameInt (α := α)) X) (hps : HoldsBoth ps gp) (hmode : forWords (gp.mode.entry .unknown 0)) (junk : List Nat → t.Word) :
    ∃ ps' Z, f.componentWord t ps junk X (.int a) (.seq (castV axes)) = (ps', .ok Z) ∧ (edgeResponseInt w g gp x axes a).Rel (SameInt (α := α)) Z ∧ HoldsBoth ps' gp := by
  have hlt := (checkAxes_spec hs.axes_eq).2
  obtain ⟨ps1, Y, y1, y2, y3⟩ := convEdgeWord_same h hx hps (hs.edgeSame w ha) hmode junk
  obtain ⟨e, s, q1, q2, q3, q4⟩ := id y3
  have hc := (hs.edgeCall w ha).smooth.of_shape (filteredInt_shape (.one w) gp (x := x) rfl [a]).symm
  obtain ⟨Z, z1, z2⟩ := h.smooth.forwardWord_same y2 hc (fun hh => by
      rw [filter_ne_length hs.nodup ha]
      apply hm
      simpa [PoolArgs.filter, PoolArgs.isMany, Given.isMany] using hh) q4
    (fun i _ => by rw [uniform_entry hs.uniform]; exact hmode) junk
  have hset := y3.setSmooth (holds_withWidths gp ((PoolArgs.filter g).widths (filteredInt (PoolArgs.filter (.one w)) gp x [a]).shape (axes.filter fun b => b ≠ a))
    (axes.filter fun b => b ≠ a).length)
  refine ⟨_, Z, ?_, z2, hset⟩
  have ce : checkAxes X.ndim (.int a) = .ok [(a : Int)] := by simp [checkAxes]
  have cs : checkAxes X.ndim (.seq (castV axes)) = .ok (castV axes) := checkAxes_castV (by rw [← hx.ndim]; exact hlt)
  simp only [EdgeFilter.componentWord, ce, cs, y1, EdgeFilter.convSmoothWord, castV_filter, q2, z1]

theorem Spec.EdgeSetup.responseInt_shape (hs : EdgeSetup g gp x ax axes) (w : List α) (ha : a ∈ axes) : (edgeResponseInt w g gp x axes a).shape = x.shape := by
  rw [edgeResponseInt, filteredInt_shape g gp (filteredInt_shape (.one w) gp rfl [a])]
  exact hs.response_shape w ha

/-! ### sums of powers -/

theorem sameInt_pow {a : α} {v : t.Word} (h : SameInt a v) (p : Nat) : SameInt (a ^ p) (v ^ p) := by
  obtain ⟨n, rfl, rfl⟩ := h
  exact ⟨n ^ p, by push_cast; rfl, by push_cast; rfl⟩

theorem rel_power {z : Tensor α} {Z : Tensor t.Word} (h : z.Rel (SameInt (α := α)) Z) (p : Nat) :
    (if p = 1 then z else z.map fun v => v ^ p).Rel (SameInt (α := α)) (if p = 1 then Z else Z.map fun v => v ^ p) := by
  split_ifs with hp
  · exact h
  · exact h.map sameInt_ringRel.zero fun _ _ h => sameInt_pow h p

theorem rel_iadd {z c : Tensor α} {Z C : Tensor t.Word} (h : z.Rel (SameInt (α := α)) Z) (hc : c.Rel (SameInt (α := α)) C) :
    ExRel (Tensor.Rel (SameInt (α := α))) (z.iadd c) (Z.iadd C) := by
  unfold Tensor.iadd
  rw [h.shape, hc.shape]
  exact .ite Iff.rfl (fun _ => .ok (rel_ofFn sameInt_ringRel.zero rfl fun ix _ => sameInt_ringRel.add (h.get _) (hc.get _))) fun _ => .error _

variable {Inv : EdgePadders α → Prop} {c : Nat → Tensor α} {junk : List Nat → t.Word} {l : List Int}

theorem magnitudeLoopWord_some {p : Nat} {S : List Nat} : ∀ (as : List Nat) (ps : EdgePadders α) (m : Tensor α) (M : Tensor t.Word), Inv ps → m.Rel (SameInt (α := α)) M → m.shape = S →
    (∀ a ∈ as, ∀ ps, Inv ps → ∃ ps' Z, f.componentWord t ps junk X (.int a) (.seq l) = (ps', .ok Z) ∧ (c a).Rel (SameInt (α := α)) Z ∧ Inv ps') →
    (∀ a ∈ as, (c a).shape = S) →
    ∃ ps' Z, f.magnitudeLoopWord t junk X l p (castV as) ps (some M) = (ps', .ok (some Z)) ∧
      (ofFn S fun ix => m.get ix + (as.map fun a => (c a).get ix ^ p).sum).Rel (SameInt (α := α)) Z ∧ Inv ps'
  | [], ps, m, M, hi, hM, hS, _, _ => by
    refine ⟨ps, M, rfl, ?_, hi⟩
    refine rel_of_get sameInt_ringRel.zero (by rw [← hM.shape, hS]; rfl) fun ix hix => ?_
    rw [get_ofFn (show InB S ix from hix)]
    simpa using hM.get ix
  | a :: as, ps, m, M, hi, hM, hS, h, hc => by
    obtain ⟨ps1, C, e1, e2, e3⟩ := h a (by simp) ps hi
    have hcs : (if p = 1 then c a else (c a).map fun v => v ^ p).shape = m.shape := by
      rw [power_shape, hc a (by simp), hS]
    have hadd := rel_iadd hM (rel_power e2 p)
    rw [iadd_same hcs] at hadd
    obtain ⟨M', m1, m2⟩ := hadd.ok_left
    obtain ⟨ps2, Z, z1, z2, z3⟩ := magnitudeLoopWord_some as ps1 _ M' e3 m2 (S := S) (by rw [← hS]; rfl) (fun b hb => h b (by simp [hb])) (fun b hb => hc b (by simp [hb]))
    refine ⟨ps2, Z, ?_, ?_, z3⟩
    · rw [castV, List.map_cons, EdgeFilter.magnitudeLoopWord]
      simp only [e1, m1]
      exact z1
    · refine rel_of_get sameInt_ringRel.zero (by rw [← z2.shape]; rfl) fun ix hix => ?_
      have hix : InB S ix := hix
      have := z2.get ix
      rw [get_ofFn hix, get_ofFn (hS ▸ hix), power_get _ (by rw [hc a (by simp)]; exact hix)] at this
      rw [get_ofFn hix, List.map_cons, List.sum_cons, ← add_assoc]
      exact this

theorem magnitudeLoopWord_eq {p : Nat} {S : List Nat} {as : List Nat} (hne : as ≠ []) (hi : Inv ps)
    (h : ∀ a ∈ as, ∀ ps, Inv ps → ∃ ps' Z, f.componentWord t ps junk X (.int a) (.seq l) = (ps', .ok Z) ∧ (c a).Rel (SameInt (α := α)) Z ∧ Inv ps')
    (hc : ∀ a ∈ as, (c a).shape = S) :
    ∃ ps' Z, f.magnitudeLoopWord t junk X l p (castV as) ps none = (ps', .ok (some Z)) ∧ (powerSum S p c as).Rel (SameInt (α := α)) Z ∧ Inv ps' := by
  obtain ⟨a, as, rfl⟩ := List.exists_cons_of_ne_nil hne
  obtain ⟨ps1, C, e1, e2, e3⟩ := h a (by simp) ps hi
  obtain ⟨ps2, Z, z1, z2, z3⟩ := magnitudeLoopWord_some as ps1 _ _ e3 (rel_power e2 p) (S := S) (by rw [power_shape, hc a (by simp)])
    (fun b hb => h b (by simp [hb])) (fun b hb => hc b (by simp [hb]))
  refine ⟨ps2, Z, ?_, ?_, z3⟩
  · rw [castV, List.map_cons, EdgeFilter.magnitudeLoopWord]
    simp only [e1]
    exact z1
  · refine rel_of_get sameInt_ringRel.zero (by rw [← z2.shape]; rfl) fun ix hix => ?_
    have hix : InB S ix := hix
    have := z2.get ix
    rw [get_ofFn hix, power_get _ (by rw [hc a (by simp)]; exact hix)] at this
    rw [powerSum, get_ofFn hix, List.map_cons, List.sum_cons]
    exact this

end

end TI
