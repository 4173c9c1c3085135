import Verif.Proofs.Adjoint
import Verif.Props.Energy
import Verif.Props.EdgeSym

/-!
# Adjoints, order and composition of filters on rings and between mirrors: C129
-/

set_option linter.unusedSectionVars false

namespace TI
open Tensor Spec

section
variable {α : Type} [Field α] [LinearOrder α] [IsStrictOrderedRing α]
variable {pool pool' pool'' : SepPool α} {g g' g'' : PoolArgs α} {m m' m'' : Nat} {gp gp' gp'' : PadArgs α} {p p' p'' : Padder α} {x y : Tensor α}
variable {ax ax' ax'' : Axes} {axes axes' : List Nat}

/-- the continuation of an axis -/
def foldOf : Mode α → Nat → Int → Nat
  | .circular => ringAt
  | _ => mirroredAt

/-- the filter of one axis -/
def tapOf (c : Mode α) (a : Nat) (w : List α) : Tap α := ⟨foldOf c, a, w, (w.length - 1) - (w.length - 1) / 2⟩

/-- the filters of all axes -/
def tapsOf (g : PoolArgs α) (gp : PadArgs α) (axes : List Nat) : List (Tap α) :=
  (List.range axes.length).map fun i => tapOf (gp.mode.entry .unknown i) (axes.getD i 0) (g.op axes i).kernel

theorem foldOf_lt (c : Mode α) {n : Nat} (hn : 0 < n) (z : Int) : foldOf c n z < n := by
  have h1 := ringAt_lt hn z
  have h2 := mirroredAt_lt hn z
  cases c <;> assumption

theorem sameStep_tap {q : PoolOp α × (Nat × AxisPad α)} (h1 : q.1.axis = q.2.1) (h2 : q.1.stride = 1) (h3 : Folds q.2.2.mode)
    (h4 : q.2.2.before = (q.1.kernel.length - 1) - (q.1.kernel.length - 1) / 2) (h5 : q.2.2.before + q.2.2.after = q.1.kernel.length - 1)
    (h6 : q.2.1 < x.ndim) (h7 : 0 < x.shape.getD q.2.1 0) : sameStep x q = (tapOf q.2.2.mode q.2.1 q.1.kernel).run x := by
  obtain ⟨⟨a, w, t⟩, b, s⟩ := q
  simp only at h1 h2 h3 h4 h5 h6 h7
  subst h1
  subst h2
  rcases h3 with hm | hm
  · rw [sameStep]
    simp only
    rw [padStep_ring h6 hm, Tap.run, tapOf, hm, ← h4]
    exact slide_folded (f := ringAt) (fun n t ht => ringAt_self ht) h6 h7 h5
  · rw [sameStep]
    simp only
    rw [padStep_symmetric h6 hm, Tap.run, tapOf, hm, ← h4]
    exact slide_folded (f := mirroredAt) (fun n t ht => mirroredAt_self ht) h6 h7 h5

theorem sameEach_taps : ∀ {l : List (PoolOp α × (Nat × AxisPad α))} {x : Tensor α}, (∀ q ∈ l, q.1.axis = q.2.1 ∧ q.1.stride = 1 ∧ Folds q.2.2.mode ∧
      q.2.2.before = (q.1.kernel.length - 1) - (q.1.kernel.length - 1) / 2 ∧ q.2.2.before + q.2.2.after = q.1.kernel.length - 1 ∧ q.2.1 < x.ndim ∧
      0 < x.shape.getD q.2.1 0) → sameEach x l = runTaps x (l.map fun q => tapOf q.2.2.mode q.2.1 q.1.kernel)
  | [], _, _ => rfl
  | q :: l, x, h => by
    obtain ⟨h1, h2, h3, h4, h5, h6, h7⟩ := h q (by simp)
    have e := sameStep_tap h1 h2 h3 h4 h5 h6 h7
    have es : (sameStep x q).shape = x.shape := by rw [e, Tap.run_shape]
    rw [show sameEach x (q :: l) = sameEach (sameStep x q) l from rfl, sameEach_taps (fun r hr => by
      have := h r (by simp [hr])
      rw [ndim, es, ← ndim]
      exact this), e]
    rfl

theorem sameEach_call (hc : SameCall g gp x ax axes) (hs : ∀ i < axes.length, (g.op axes i).stride = 1)
    (hf : ∀ i < axes.length, Folds (gp.mode.entry .unknown i)) :
    poolSeq (padSeq x (sameOps g gp x.shape axes)) (g.ops axes) = runTaps x (tapsOf g gp axes) := by
  have hl : ∀ o ∈ g.ops axes, ∀ q ∈ sameOps g gp x.shape axes, Passes o q.2 := by
    intro o _ q hq
    obtain ⟨i, hi, rfl⟩ := sameOps_mem hq
    left
    rcases hf i hi with h | h <;> simp only [AxisPad.Linear, sameSetting, h]
  have hz : (g.ops axes).zip (sameOps g gp x.shape axes) = (List.range axes.length).map fun i => (g.op axes i, axes.getD i 0, sameSetting g gp x.shape axes i) := by
    apply List.ext_getElem
    · simp [PoolArgs.ops, sameOps_length]
    · intro i h1 h2
      have hi' : i < axes.length := by simpa using h2
      simp [PoolArgs.ops, sameOps, withWidths_entry _ _ _ _ hi', hi']
  rw [poolSeq_each (hc.eachOK hl), sameEach_taps, hz, List.map_map]
  · rfl
  · intro q hq
    rw [hz] at hq
    obtain ⟨i, hi, rfl⟩ := List.mem_map.1 hq
    have hi := List.mem_range.1 hi
    refine ⟨rfl, hs i hi, hf i hi, ?_, same_widths_one (hs i hi), hc.lt _ (mem_sameOps hi), hc.pos _ (by simp [hi])⟩
    simp only [sameSetting, PoolArgs.samePair, hs i hi]
    rw [sameTotal_one]

theorem fold_call (hb : Built pool g m) (hm : g.isMany = true → axes.length = m) (hc : SameCall g gp x ax axes) (hp : Holds p gp)
    (hs : ∀ i < axes.length, (g.op axes i).stride = 1) (hf : ∀ i < axes.length, Folds (gp.mode.entry .unknown i)) (junk : List Nat → α) :
    ∃ q, SepPool.forward pool (some p) junk x ax = (q, .ok (runTaps x (tapsOf g gp axes))) :=
  ⟨_, by rw [hb.poolIs.1.forward_same hc hm hp junk, sameEach_call hc hs hf]⟩

theorem filtered_taps {g : Given (List α)} (hc : SameCall (PoolArgs.filter g) gp x ax axes) (hf : ∀ i < axes.length, Folds (gp.mode.entry .unknown i)) :
    filtered g gp x axes = runTaps x (tapsOf (PoolArgs.filter g) gp axes) := sameEach_call hc (fun _ _ => rfl) hf

theorem mem_tapsOf {o : Tap α} : o ∈ tapsOf g gp axes ↔ ∃ i < axes.length, o = tapOf (gp.mode.entry .unknown i) (axes.getD i 0) (g.op axes i).kernel := by
  simp [tapsOf, eq_comm]

theorem tapsOf_axis : (tapsOf g gp axes).map (·.axis) = axes := by
  rw [tapsOf, List.map_map]
  apply List.ext_getElem
  · simp
  · intro i h1 h2
    simp [tapOf, h2]

theorem tapsOf_OK (hc : SameCall g gp x ax axes) : ∀ o ∈ tapsOf g gp axes, o.OK x.shape := by
  intro o ho
  obtain ⟨i, hi, rfl⟩ := mem_tapsOf.1 ho
  refine ⟨hc.lt _ (mem_sameOps hi), hc.pos _ (getD_mem_lt hi), foldOf_lt _, ?_⟩
  intro h
  have h' : (g.op axes i).kernel = [] := h
  simp [tapOf, h']

theorem keeps_of_fair {c : Mode α} {a : Nat} {w : List α} {s : List Nat} (hn : 0 < s.getD a 0) (h : Fair c w) : (tapOf c a w).Keeps s := by
  rcases h with h | ⟨h, hr, ho⟩
  · subst h
    exact compatible_ring hn _ _
  · subst h
    rcases ho with rfl | ho
    · intro v z; simp [tapOf]
    · have e : (w.length - 1) - (w.length - 1) / 2 = w.length / 2 := by omega
      rw [Tap.Keeps, tapOf]
      simp only [e]
      exact compatible_mirror hn hr (by omega)

/-- filters whose kernels, read backwards, give the filter in the other direction -/
theorem adjoint_of_fair {c : Mode α} {a : Nat} {w : List α} {s : List Nat} (hn : 0 < s.getD a 0) (h : Fair c w) (ho : w = [] ∨ w.length % 2 = 1) :
    (tapOf c a w).Adjoint s (tapOf c a w.reverse) := by
  refine ⟨rfl, rfl, List.reverse_eq_nil_iff, ?_⟩
  rcases ho with rfl | ho
  · intro u v; simp [tapOf]
  rcases h with h | ⟨h, hr, _⟩
  · subst h
    apply adjoint_ring hn
    simp only [tapOf, List.length_reverse]
    omega
  · subst h
    have e : (w.length - 1) - (w.length - 1) / 2 = w.length / 2 := by omega
    rw [hr, tapOf]
    simp only [e]
    exact adjoint_mirror hn hr (by omega)

/-! ## adjoints -/

theorem tapsOf_dot (hc : SameCall g gp x ax axes) (hf : ∀ i < axes.length, Fair (gp.mode.entry .unknown i) (g.op axes i).kernel ∧
      ((g.op axes i).kernel = [] ∨ (g.op axes i).kernel.length % 2 = 1))
    (hk : ∀ i < axes.length, gp'.mode.entry .unknown i = gp.mode.entry .unknown i ∧ (g'.op axes i).kernel = (g.op axes i).kernel.reverse)
    {L : List (List Nat)} (hL : ∀ a ∈ axes, Lines x.shape a L) (hy : y.shape = x.shape) :
    (L.map fun ix => y.get ix * (runTaps x (tapsOf g gp axes)).get ix).sum = (L.map fun ix => x.get ix * (runTaps y (tapsOf g' gp' axes)).get ix).sum := by
  apply runTaps_dot (s := x.shape) ?_ (tapsOf_OK hc) ?_ (by rw [tapsOf_axis]; exact hc.nodup) ?_ rfl hy
  · rw [tapsOf, tapsOf, List.forall₂_map_left_iff, List.forall₂_map_right_iff, List.forall₂_same]
    intro i hi
    have hi := List.mem_range.1 hi
    rw [(hk i hi).1, (hk i hi).2]
    exact adjoint_of_fair (hc.pos _ (getD_mem_lt hi)) (hf i hi).1 (hf i hi).2
  · intro o ho
    obtain ⟨i, hi, rfl⟩ := mem_tapsOf.1 ho
    refine ⟨hc.lt _ (mem_sameOps hi), hc.pos _ (getD_mem_lt hi), foldOf_lt _, ?_⟩
    intro h
    have h' : (g'.op axes i).kernel = [] := h
    simp [tapOf, h']
  · intro o ho
    obtain ⟨i, hi, rfl⟩ := mem_tapsOf.1 ho
    exact hL _ (getD_mem_lt hi)

theorem fair_folds {c : Mode α} {w : List α} (h : Fair c w) : Folds c := h.imp id And.left

/-- **C129.** With stride one, fair borders (see C118) and kernels of odd length, the filter with the kernels read backwards is the adjoint: the scalar
product of `y` with the filtered `x` is the scalar product of `x` with the `y` filtered backwards, over the whole image and over every part which is
whole along the filtered axes. -/
theorem C129_adjoint (hb : Built pool g m) (hm : g.isMany = true → axes.length = m) (hc : SameCall g gp x ax axes) (hp : Holds p gp)
    (hs : ∀ i < axes.length, (g.op axes i).stride = 1) (hf : ∀ i < axes.length, Fair (gp.mode.entry .unknown i) (g.op axes i).kernel ∧
      ((g.op axes i).kernel = [] ∨ (g.op axes i).kernel.length % 2 = 1))
    (hb' : Built pool' g' m') (hm' : g'.isMany = true → axes.length = m') (hc' : SameCall g' gp' y ax' axes) (hp' : Holds p' gp')
    (hs' : ∀ i < axes.length, (g'.op axes i).stride = 1)
    (hk : ∀ i < axes.length, gp'.mode.entry .unknown i = gp.mode.entry .unknown i ∧ (g'.op axes i).kernel = (g.op axes i).kernel.reverse)
    (hy : y.shape = x.shape) (junk junk' : List Nat → α) :
    ∃ q q' z z', SepPool.forward pool (some p) junk x ax = (q, .ok z) ∧ SepPool.forward pool' (some p') junk' y ax' = (q', .ok z') ∧
      z.shape = x.shape ∧ z'.shape = x.shape ∧ dot y z = dot x z' ∧ ∀ ds, (∀ a ∈ axes, a ∈ ds) → ∀ jx,
        ((collected x.shape ds jx).map fun ix => y.get ix * z.get ix).sum = ((collected x.shape ds jx).map fun ix => x.get ix * z'.get ix).sum := by
  have hd : ∀ i < axes.length, Folds (gp.mode.entry .unknown i) := fun i hi => fair_folds (hf i hi).1
  obtain ⟨q, h1⟩ := fold_call hb hm hc hp hs hd junk
  obtain ⟨q', h2⟩ := fold_call hb' hm' hc' hp' hs' (fun i hi => by rw [(hk i hi).1]; exact hd i hi) junk'
  refine ⟨q, q', _, _, h1, h2, runTaps_shape, by rw [runTaps_shape, hy], ?_, ?_⟩
  · rw [dot, dot, hy]
    exact tapsOf_dot hc hf hk (fun a _ => lines_all _ _) hy
  · intro ds hds jx
    exact tapsOf_dot hc hf hk (fun a ha => lines_collected (hds a ha) jx) hy

/-- **C129**: kernels which read the same backwards give self-adjoint filters. -/
theorem C129_self_adjoint (hb : Built pool g m) (hm : g.isMany = true → axes.length = m) (hc : SameCall g gp x ax axes) (hp : Holds p gp)
    (hs : ∀ i < axes.length, (g.op axes i).stride = 1) (hf : ∀ i < axes.length, Folds (gp.mode.entry .unknown i) ∧
      (g.op axes i).kernel.reverse = (g.op axes i).kernel ∧ ((g.op axes i).kernel = [] ∨ (g.op axes i).kernel.length % 2 = 1))
    (hy : y.shape = x.shape) (junk junk' : List Nat → α) :
    ∃ q q' z z', SepPool.forward pool (some p) junk x ax = (q, .ok z) ∧ SepPool.forward pool (some p) junk' y ax = (q', .ok z') ∧
      z.shape = x.shape ∧ z'.shape = x.shape ∧ dot y z = dot x z' ∧ ∀ ds, (∀ a ∈ axes, a ∈ ds) → ∀ jx,
        ((collected x.shape ds jx).map fun ix => y.get ix * z.get ix).sum = ((collected x.shape ds jx).map fun ix => x.get ix * z'.get ix).sum :=
  C129_adjoint hb hm hc hp hs (fun i hi => ⟨(hf i hi).1.imp id fun h => ⟨h, (hf i hi).2⟩, (hf i hi).2.2⟩) hb hm (hc.congr hy) hp hs
    (fun i hi => ⟨rfl, (hf i hi).2.1.symm⟩) hy junk junk'

/-! ## order -/

theorem tapsOf_agree (hc : SameCall g gp x ax axes) (hc' : SameCall g' gp' x ax' axes')
    (hsh : ∀ i < axes.length, ∀ j < axes'.length, axes.getD i 0 = axes'.getD j 0 → gp'.mode.entry .unknown j = gp.mode.entry .unknown i ∧
      Fair (gp.mode.entry .unknown i) (g.op axes i).kernel ∧ Fair (gp.mode.entry .unknown i) (g'.op axes' j).kernel) :
    ∀ o' ∈ tapsOf g' gp' axes', ∀ o ∈ tapsOf g gp axes, o'.Agree x.shape o := by
  intro o' ho' o ho e
  obtain ⟨i, hi, rfl⟩ := mem_tapsOf.1 ho
  obtain ⟨j, hj, rfl⟩ := mem_tapsOf.1 ho'
  have e' : axes'.getD j 0 = axes.getD i 0 := e
  obtain ⟨h1, h2, h3⟩ := hsh i hi j hj e'.symm
  rw [h1]
  exact ⟨rfl, keeps_of_fair (hc'.pos _ (getD_mem_lt hj)) h3, keeps_of_fair (hc.pos _ (getD_mem_lt hi)) h2⟩

/-- **C129.** Two filters with stride one on rings or between half-sample mirrors may be exchanged, whatever their axes: if on every common axis the
borders are of the same kind and fair for both kernels. -/
theorem C129_commute (hb : Built pool g m) (hm : g.isMany = true → axes.length = m) (hc : SameCall g gp x ax axes) (hp : Holds p gp)
    (hs : ∀ i < axes.length, (g.op axes i).stride = 1) (hf : ∀ i < axes.length, Folds (gp.mode.entry .unknown i))
    (hb' : Built pool' g' m') (hm' : g'.isMany = true → axes'.length = m') (hc' : SameCall g' gp' x ax' axes') (hp' : Holds p' gp')
    (hs' : ∀ i < axes'.length, (g'.op axes' i).stride = 1) (hf' : ∀ i < axes'.length, Folds (gp'.mode.entry .unknown i))
    (hsh : ∀ i < axes.length, ∀ j < axes'.length, axes.getD i 0 = axes'.getD j 0 → gp'.mode.entry .unknown j = gp.mode.entry .unknown i ∧
      Fair (gp.mode.entry .unknown i) (g.op axes i).kernel ∧ Fair (gp.mode.entry .unknown i) (g'.op axes' j).kernel) (junk junk' : List Nat → α) :
    ∃ q₁ q₂ q₃ q₄ y z v, SepPool.forward pool (some p) junk x ax = (q₁, .ok y) ∧ SepPool.forward pool' (some p') junk' y ax' = (q₂, .ok v) ∧
      SepPool.forward pool' (some p') junk' x ax' = (q₃, .ok z) ∧ SepPool.forward pool (some p) junk z ax = (q₄, .ok v) := by
  obtain ⟨q₁, h1⟩ := fold_call hb hm hc hp hs hf junk
  obtain ⟨q₂, h2⟩ := fold_call hb' hm' (hc'.congr (runTaps_shape (l := tapsOf g gp axes))) hp' hs' hf' junk'
  obtain ⟨q₃, h3⟩ := fold_call hb' hm' hc' hp' hs' hf' junk'
  obtain ⟨q₄, h4⟩ := fold_call hb hm (hc.congr (runTaps_shape (l := tapsOf g' gp' axes'))) hp hs hf junk
  refine ⟨q₁, q₂, q₃, q₄, _, _, _, h1, h2, h3, ?_⟩
  rw [h4, runTaps_comm (tapsOf_OK hc) (tapsOf_OK hc') (tapsOf_agree hc hc' hsh) rfl]

/-! ## composition -/

theorem inTurn_length (w v : List α) : (inTurn w v).length - 1 = (w.length - 1) + (v.length - 1) := by
  rw [inTurn]
  split_ifs with h1 h2
  · simp [h1]
  · simp [h2]
  · have := List.length_pos_iff.2 h1
    have := List.length_pos_iff.2 h2
    simp only [composed, List.length_map, List.length_range]
    omega

/-- **C129.** Two filters of the same axes in a row, with stride one, are one filter: its kernels are the convolved kernels (an empty kernel changes
nothing).  On every axis both borders are of the same kind, the first kernel is fair, and the two lengths are not both even. -/
theorem C129_compose (hb : Built pool g m) (hm : g.isMany = true → axes.length = m) (hc : SameCall g gp x ax axes) (hp : Holds p gp)
    (hs : ∀ i < axes.length, (g.op axes i).stride = 1)
    (hb' : Built pool' g' m') (hm' : g'.isMany = true → axes.length = m') (hc' : SameCall g' gp' x ax' axes) (hp' : Holds p' gp')
    (hs' : ∀ i < axes.length, (g'.op axes i).stride = 1)
    (hb'' : Built pool'' g'' m'') (hm'' : g''.isMany = true → axes.length = m'') (hc'' : SameCall g'' gp'' x ax'' axes) (hp'' : Holds p'' gp'')
    (hs'' : ∀ i < axes.length, (g''.op axes i).stride = 1)
    (hmode : ∀ i < axes.length, gp'.mode.entry .unknown i = gp.mode.entry .unknown i ∧ gp''.mode.entry .unknown i = gp.mode.entry .unknown i)
    (hf : ∀ i < axes.length, Fair (gp.mode.entry .unknown i) (g.op axes i).kernel)
    (hk : ∀ i < axes.length, (g''.op axes i).kernel = inTurn (g.op axes i).kernel (g'.op axes i).kernel ∧
      (((g.op axes i).kernel = [] ∨ (g.op axes i).kernel.length % 2 = 1) ∨ (g'.op axes i).kernel = [] ∨ (g'.op axes i).kernel.length % 2 = 1))
    (junk junk' junk'' : List Nat → α) :
    ∃ q₁ q₂ q₃ y z, SepPool.forward pool (some p) junk x ax = (q₁, .ok y) ∧ SepPool.forward pool' (some p') junk' y ax' = (q₂, .ok z) ∧
      SepPool.forward pool'' (some p'') junk'' x ax'' = (q₃, .ok z) := by
  have hd : ∀ i < axes.length, Folds (gp.mode.entry .unknown i) := fun i hi => fair_folds (hf i hi)
  obtain ⟨q₁, h1⟩ := fold_call hb hm hc hp hs hd junk
  obtain ⟨q₂, h2⟩ := fold_call hb' hm' (hc'.congr (runTaps_shape (l := tapsOf g gp axes))) hp' hs' (fun i hi => by rw [(hmode i hi).1]; exact hd i hi) junk'
  obtain ⟨q₃, h3⟩ := fold_call hb'' hm'' hc'' hp'' hs'' (fun i hi => by rw [(hmode i hi).2]; exact hd i hi) junk''
  refine ⟨q₁, q₂, q₃, _, _, h1, h2, ?_⟩
  rw [h3, runTaps_join (s := x.shape) (by rw [tapsOf_axis, tapsOf_axis]) (by rw [tapsOf_axis]; exact hc.nodup) (tapsOf_OK hc) (tapsOf_OK hc') ?_ ?_ rfl]
  · congr 3
    rw [tapsOf, tapsOf, tapsOf, List.zipWith_map_left, List.zipWith_map_right, List.zipWith_self]
    apply List.map_congr_left
    intro i hi
    have hi := List.mem_range.1 hi
    rw [(hmode i hi).1, (hmode i hi).2, (hk i hi).1, Tap.join]
    simp only [tapOf, inTurn_length, Tap.mk.injEq, true_and]
    rcases (hk i hi).2 with (h | h) | h | h
    · rw [h]; simp
    · omega
    · rw [h]; simp
    · omega
  · intro o ho
    obtain ⟨i, hi, rfl⟩ := mem_tapsOf.1 ho
    exact keeps_of_fair (hc.pos _ (getD_mem_lt hi)) (hf i hi)
  · intro o ho o' ho' e
    obtain ⟨i, hi, rfl⟩ := mem_tapsOf.1 ho
    obtain ⟨j, hj, rfl⟩ := mem_tapsOf.1 ho'
    have e' : axes.getD i 0 = axes.getD j 0 := e
    have hij : i = j := by
      simp only [List.getD_eq_getElem?_getD, hi, hj, List.getElem?_eq_getElem, Option.getD_some] at e'
      exact (List.Nodup.getElem_inj_iff hc.nodup).1 e'
    subst hij
    rw [(hmode i hi).1]
    rfl

end

/-! ## edge filters -/

section
variable {α : Type} [Field α] [LinearOrder α] [IsStrictOrderedRing α] [FloorRing α]
variable {g : Given (List α)} {gp : PadArgs α} {x y : Tensor α} {ax : Axes} {axes : List Nat} {a : Nat} {w : List α} {s : α}

theorem edgeResponse_taps (h : EdgeSetup g gp x ax axes) (ha : a ∈ axes) (hf : Folds (gp.mode.entry .unknown 0)) :
    edgeResponse w g gp x axes a = runTaps ((tapOf (gp.mode.entry .unknown 0) a w).run x) (tapsOf (PoolArgs.filter g) gp (axes.filter fun b => b ≠ a)) := by
  have hd : ∀ i, Folds (gp.mode.entry .unknown i) := fun i => by rw [uniform_entry h.uniform]; exact hf
  have hc := h.edgeCall w ha
  have e : filtered (.one w) gp x [a] = (tapOf (gp.mode.entry .unknown 0) a w).run x := filtered_taps hc.edge fun i _ => hd i
  have hs := hc.smooth
  rw [edgeResponse, filtered_taps hs fun i _ => hd i, e]

theorem edgeTap_OK (h : EdgeSetup g gp x ax axes) (ha : a ∈ axes) : (tapOf (gp.mode.entry .unknown 0) a w).OK x.shape := by
  refine ⟨(checkAxes_spec h.axes_eq).2 a ha, h.pos a ha, foldOf_lt _, ?_⟩
  intro h
  have h' : w = [] := h
  simp [tapOf, h']

theorem smoothTaps_OK (h : EdgeSetup g gp x ax axes) (ha : a ∈ axes) :
    ∀ o ∈ tapsOf (PoolArgs.filter g) gp (axes.filter fun b => b ≠ a), o.OK x.shape ∧ a ≠ o.axis := by
  intro o ho
  have h1 := tapsOf_OK (h.edgeCall [] ha).smooth o ho
  rw [h.edge_shape [] ha] at h1
  refine ⟨h1, ?_⟩
  have h2 : o.axis ∈ (axes.filter fun b => b ≠ a) := by
    have h3 := List.mem_map_of_mem (f := Tap.axis) ho
    rwa [tapsOf_axis] at h3
  have := (List.mem_filter.1 h2).2
  intro e
  simp [e] at this

theorem folded_scaled {f : Nat → Int → Nat} {b : Nat} (hw : w ≠ []) {ix : List Nat} (hix : InB x.shape ix) :
    (folded f a (w.map (s * ·)) b x).get ix = s * (folded f a w b x).get ix := by
  rw [folded_get (by simpa using hw) hix, folded_get hw hix, List.length_map, mul_sum_map]
  congr 1
  apply List.map_congr_left
  intro j hj
  have hj' := List.mem_range.1 hj
  rw [← mul_assoc]
  congr 1
  simp [List.getD_eq_getElem?_getD, hj']

/-- the borders on which edge components are adjoint up to the factor `s` -/
def Spec.EdgeFair (c : Mode α) (s : α) : Prop := c = .circular ∨ c = .symmetric ∧ s = 1

theorem edge_dot (h : EdgeSetup g gp x ax axes) (ha : a ∈ axes) (hf : EdgeFair (gp.mode.entry .unknown 0) s) (hw : Parity s w)
    (hg : SmoothsEvenly g (axes.length - 1)) {L : List (List Nat)} (hL : ∀ a ∈ axes, Lines x.shape a L) (hy : y.shape = x.shape) :
    (L.map fun ix => y.get ix * (edgeResponse w g gp x axes a).get ix).sum = s * (L.map fun ix => x.get ix * (edgeResponse w g gp y axes a).get ix).sum := by
  have hd : Folds (gp.mode.entry .unknown 0) := hf.imp id And.left
  have h0 : w ≠ [] := by
    rintro rfl
    exact absurd hw.1 (by simp)
  rw [edgeResponse_taps h ha hd, edgeResponse_taps (h.congr hy) ha hd]
  have hE := edgeTap_OK (w := w) h ha
  have hS := smoothTaps_OK h ha
  have hn := hE.pos
  have hlt := hE.lt
  have hadj : ∀ u : Tensor α, u.shape = x.shape → (L.map fun ix => y.get ix * (runTaps u (tapsOf (PoolArgs.filter g) gp (axes.filter fun b => b ≠ a))).get ix).sum =
      (L.map fun ix => u.get ix * (runTaps y (tapsOf (PoolArgs.filter g) gp (axes.filter fun b => b ≠ a))).get ix).sum := by
    intro u hu
    have hc := (h.edgeCall w ha).smooth.congr (hu.trans (h.edge_shape w ha).symm)
    refine tapsOf_dot hc ?_ ?_ (fun b hb => by rw [hu]; exact hL b (List.mem_of_mem_filter hb)) (hy.trans hu.symm)
    · intro i hi
      rw [filter_ne_length h.nodup ha] at hi
      have := hg i hi
      rw [uniform_entry h.uniform]
      exact ⟨hd.imp id fun hm => ⟨hm, this.1, this.2.symm⟩, this.2.symm⟩
    · intro i hi
      rw [filter_ne_length h.nodup ha] at hi
      exact ⟨rfl, (hg i hi).1.symm⟩
  rw [hadj _ (Tap.run_shape _), ← run_runTaps (s := x.shape) hE (fun o ho => ⟨(hS o ho).1, fun e => absurd e (hS o ho).2⟩) hy]
  set v := runTaps y (tapsOf (PoolArgs.filter g) gp (axes.filter fun b => b ≠ a)) with hv
  have hvs : v.shape = x.shape := by rw [hv, runTaps_shape, hy]
  have e1 : (L.map fun ix => ((tapOf (gp.mode.entry .unknown 0) a w).run x).get ix * v.get ix) =
      L.map fun ix => v.get ix * (folded (foldOf (gp.mode.entry .unknown 0)) a w ((w.length - 1) - (w.length - 1) / 2) x).get ix :=
    List.map_congr_left fun ix _ => mul_comm _ _
  have hA : AdjointLines (foldOf (gp.mode.entry .unknown 0)) w ((w.length - 1) - (w.length - 1) / 2) w.reverse ((w.length - 1) - (w.length - 1) / 2)
      (x.shape.getD a 0) := by
    rcases hf with hm | ⟨hm, rfl⟩
    · rw [hm]
      have := hw.1
      exact adjoint_ring hn w (by omega)
    · have hr : w.reverse = w := by rw [hw.2]; simp
      have e : (w.length - 1) - (w.length - 1) / 2 = w.length / 2 := by have := hw.1; omega
      rw [hm, hr, e]
      exact adjoint_mirror hn hr (by have := hw.1; omega)
  rw [e1, folded_dot (hL a ha) hlt hvs (by simp) hA, hw.2, mul_sum_map]
  congr 1
  apply List.map_congr_left
  intro ix hix
  rw [folded_scaled h0 (by rw [hvs]; exact (hL a ha).inB ix hix), Tap.run, tapOf]
  ring

theorem tap_balanced {c : Mode α} {sh : List Nat} (hn : 0 < sh.getD a 0) (h : Fair c w) :
    Balanced (foldOf c) w ((w.length - 1) - (w.length - 1) / 2) (sh.getD a 0) := by
  rcases h with h | ⟨h, hr, ho⟩
  · subst h
    exact balanced_ring hn _ _
  · subst h
    rcases ho with rfl | ho
    · intro v; simp
    · have e : (w.length - 1) - (w.length - 1) / 2 = w.length / 2 := by omega
      rw [e]
      exact balanced_mirror hn hr (by omega)

theorem runTaps_sum {sh : List Nat} {L : List (List Nat)} : ∀ {l : List (Tap α)} {x : Tensor α}, (∀ o ∈ l, o.OK sh) → (∀ o ∈ l, Lines sh o.axis L) →
    (∀ o ∈ l, Balanced o.fold o.kernel o.before (sh.getD o.axis 0)) → x.shape = sh → (L.map x.get).sum = 0 → (L.map (runTaps x l).get).sum = 0
  | [], _, _, _, _, _, h0 => h0
  | o :: l, x, h, hL, hB, hx, h0 => by
    rw [show runTaps x (o :: l) = runTaps (o.run x) l from rfl]
    refine runTaps_sum (fun q hq => h q (by simp [hq])) (fun q hq => hL q (by simp [hq])) (fun q hq => hB q (by simp [hq])) (by rw [o.run_shape, hx]) ?_
    subst hx
    rw [Tap.run, folded_sum (hL o (by simp)) (h o (by simp)).lt (hB o (by simp)), h0, mul_zero]

theorem edge_total (h : EdgeSetup g gp x ax axes) (ha : a ∈ axes) (hf : Fair (gp.mode.entry .unknown 0) w)
    (hg : ∀ i < axes.length - 1, Fair (gp.mode.entry .unknown 0) (g.entry [] i)) (hw : w ≠ []) (h0 : w.sum = 0) {L : List (List Nat)}
    (hL : ∀ a ∈ axes, Lines x.shape a L) : (L.map (edgeResponse w g gp x axes a).get).sum = 0 := by
  have hE := edgeTap_OK (w := w) h ha
  have hS := smoothTaps_OK h ha
  rw [edgeResponse_taps h ha (fair_folds hf)]
  refine runTaps_sum (sh := x.shape) (fun o ho => (hS o ho).1) ?_ ?_ (Tap.run_shape _) ?_
  · intro o ho
    obtain ⟨i, hi, rfl⟩ := mem_tapsOf.1 ho
    exact hL _ (List.mem_of_mem_filter (getD_mem_lt hi))
  · intro o ho
    obtain ⟨i, hi, rfl⟩ := mem_tapsOf.1 ho
    have hp := (hS _ ho).1.pos
    rw [filter_ne_length h.nodup ha] at hi
    rw [uniform_entry h.uniform]
    exact tap_balanced hp (hg i hi)
  · rw [Tap.run, tapOf]
    simp only
    rw [folded_sum (hL a ha) hE.lt (tap_balanced hE.pos hf), if_neg hw, h0, zero_mul]

variable {f : EdgeFilter α} {m : Nat} {ps : EdgePadders α}

/-- **C129.** On a ring the components of an edge filter, whose edge kernel is multiplied by `s` when read backwards and whose smoothing kernels read the
same backwards, are adjoint up to the factor `s`; between half-sample mirrors this holds for `s = 1`.  So is every part which is whole along the axes. -/
theorem C129_components (hf : EdgeBuilt f w g m) (hps : HoldsBoth ps gp) (h : EdgeSetup g gp x ax axes) (hm : g.isMany = true → axes.length - 1 = m)
    (hc : EdgeFair (gp.mode.entry .unknown 0) s) (hw : Parity s (usedKernel w)) (hg : SmoothsEvenly g (axes.length - 1)) (hy : y.shape = x.shape)
    (junk junk' : List Nat → α) :
    ∃ ps' ps'' cs ds, f.allComponents ps junk x ax = (ps', .ok cs) ∧ f.allComponents ps junk' y ax = (ps'', .ok ds) ∧ cs.length = axes.length ∧
      List.Forall₂ (fun c d => dot y c = s * dot x d ∧ ∀ es, (∀ a ∈ axes, a ∈ es) → ∀ jx,
        ((collected x.shape es jx).map fun ix => y.get ix * c.get ix).sum = s * ((collected x.shape es jx).map fun ix => x.get ix * d.get ix).sum) cs ds := by
  obtain ⟨ps', e1, -⟩ := C75_components hf hps h hm junk
  obtain ⟨ps'', e2, -⟩ := C75_components hf hps (h.congr hy) hm junk'
  refine ⟨ps', ps'', _, _, e1, e2, by simp, ?_⟩
  rw [List.forall₂_map_left_iff, List.forall₂_map_right_iff, List.forall₂_same]
  intro a ha
  constructor
  · rw [dot, dot, hy]
    exact edge_dot h ha hc hw hg (fun a _ => lines_all _ _) hy
  · intro es hes jx
    exact edge_dot h ha hc hw hg (fun b hb => lines_collected (hes b hb) jx) hy

/-- **C129.** With fair borders and an edge kernel of sum zero every component sums to zero, over the image and over every part which is whole along the
axes. -/
theorem C129_balanced (hf : EdgeBuilt f w g m) (hps : HoldsBoth ps gp) (h : EdgeSetup g gp x ax axes) (hm : g.isMany = true → axes.length - 1 = m)
    (hc : Fair (gp.mode.entry .unknown 0) (usedKernel w)) (hg : ∀ i < axes.length - 1, Fair (gp.mode.entry .unknown 0) (g.entry [] i))
    (hw : usedKernel w ≠ []) (h0 : (usedKernel w).sum = 0) (junk : List Nat → α) :
    ∃ ps' cs, f.allComponents ps junk x ax = (ps', .ok cs) ∧ cs.length = axes.length ∧ ∀ c ∈ cs, c.data.sum = 0 ∧ ∀ es, (∀ a ∈ axes, a ∈ es) → ∀ jx,
      ((collected x.shape es jx).map c.get).sum = 0 := by
  obtain ⟨ps', e1, -⟩ := C75_components hf hps h hm junk
  refine ⟨ps', _, e1, by simp, ?_⟩
  intro c hcm
  obtain ⟨a, ha, rfl⟩ := List.mem_map.1 hcm
  constructor
  · rw [data_eq_map_get, h.response_shape _ ha]
    exact edge_total h ha hc hg hw h0 fun a _ => lines_all _ _
  · intro es hes jx
    exact edge_total h ha hc hg hw h0 fun b hb => lines_collected (hes b hb) jx

/-! ## Laplace -/

omit [FloorRing α] in
theorem runTaps_nil : ∀ {l : List (Tap α)} {x : Tensor α}, (∀ o ∈ l, o.kernel = []) → runTaps x l = x
  | [], _, _ => rfl
  | o :: l, x, h => by
    rw [show runTaps x (o :: l) = runTaps (o.run x) l from rfl, runTaps_nil fun q hq => h q (by simp [hq]), Tap.run, h o (by simp), folded_nil]

theorem foldOf_self {c : Mode α} {n t : Nat} (ht : t < n) : foldOf c n (t : Int) = t := by
  have h1 := ringAt_self ht
  have h2 := mirroredAt_self ht
  cases c <;> assumption

theorem second_le (h : EdgeSetup (.one []) gp x ax axes) (ha : a ∈ axes) (hf : Folds (gp.mode.entry .unknown 0)) {L : List (List Nat)}
    (hL : ∀ a ∈ axes, Lines x.shape a L) : (L.map fun ix => x.get ix * (edgeResponse [1, -2, 1] (.one []) gp x axes a).get ix).sum ≤ 0 := by
  have hE := edgeTap_OK (w := ([1, -2, 1] : List α)) h ha
  have hx : x.shape.length = x.ndim := rfl
  have hal : a < x.shape.length := hE.lt
  rw [edgeResponse_taps h ha hf, runTaps_nil (by
    intro o ho
    obtain ⟨i, hi, rfl⟩ := mem_tapsOf.1 ho
    rfl)]
  have hfair : Fair (gp.mode.entry .unknown 0) ([1, -2, 1] : List α) := hf.imp id fun hm => ⟨hm, by simp, by simp⟩
  have hone : (([1, -2, 1] : List α).length - 1) - (([1, -2, 1] : List α).length - 1) / 2 = 1 := by simp
  have hbal := tap_balanced (w := ([1, -2, 1] : List α)) hE.pos hfair
  rw [hone] at hbal
  have hsum := folded_sum (x := x.map (· ^ 2)) (f := foldOf (gp.mode.entry .unknown 0)) (w := ([1, -2, 1] : List α)) (b := 1) (hL a ha) hE.lt hbal
  have hz : ([1, -2, 1] : List α).sum = 0 := by norm_num
  rw [if_neg (by simp), hz, zero_mul] at hsum
  have hle : (L.map fun ix => x.get ix * ((tapOf (gp.mode.entry .unknown 0) a ([1, -2, 1] : List α)).run x).get ix).sum ≤
      (L.map fun ix => (1 / 2 : α) * (folded (foldOf (gp.mode.entry .unknown 0)) a ([1, -2, 1] : List α) 1 (x.map (· ^ 2))).get ix).sum := by
    apply List.sum_le_sum
    intro ix hix
    have hin := (hL a ha).inB ix hix
    have hlt : ix.getD a 0 < x.shape.getD a 0 := hin.lt hal
    have hI : ∀ z, InB x.shape (ix.set a (foldOf (gp.mode.entry .unknown 0) (x.shape.getD a 0) z)) := fun z => fold_inB (foldOf_lt _) hal hin z
    have hmid : foldOf (gp.mode.entry .unknown 0) (x.shape.getD a 0) (((ix.getD a 0 + 1 : Nat) : Int) - 1) = ix.getD a 0 := by
      rw [show (((ix.getD a 0 + 1 : Nat) : Int) - 1) = ((ix.getD a 0 : Nat) : Int) by push_cast; ring]
      exact foldOf_self hlt
    rw [Tap.run, tapOf]
    simp only
    rw [hone, folded_get (by simp) hin,
      folded_get (by simp) (show InB (x.map (· ^ 2)).shape ix from hin)]
    have hsh : (x.map (· ^ 2)).shape = x.shape := rfl
    simp only [List.length_cons, List.length_nil, List.range_succ, List.range_zero, List.map_append, List.map_cons, List.map_nil, List.sum_append, List.sum_cons,
      List.sum_nil, List.nil_append, hsh, Nat.cast_one, hmid, set_getD_self]
    rw [get_map _ _ (hI _), get_map _ _ (hI _), get_map _ _ hin]
    simp only [List.getD_cons_zero, List.getD_cons_succ]
    set u := x.get ix
    set v := x.get (ix.set a (foldOf (gp.mode.entry .unknown 0) (x.shape.getD a 0) (((ix.getD a 0 + 0 : Nat) : Int) - 1)))
    set v' := x.get (ix.set a (foldOf (gp.mode.entry .unknown 0) (x.shape.getD a 0) (((ix.getD a 0 + (0 + 1 + 1) : Nat) : Int) - 1)))
    nlinarith [sq_nonneg (v - u), sq_nonneg (v' - u)]
  refine hle.trans ?_
  rw [← mul_sum_map, hsum, mul_zero]

theorem powerSum_one_dot {S : List Nat} {c : Nat → Tensor α} {l : List Nat} (hy : y.shape = S) :
    dot y ((powerSum S 1 c l).map fun v => v + 0) = (l.map fun a => ((indices S).map fun ix => y.get ix * (c a).get ix).sum).sum := by
  rw [dot, hy, ← sum_map_comm]
  congr 1
  apply List.map_congr_left
  intro ix hix
  have hin : InB S ix := mem_indices.1 hix
  rw [get_map _ _ (show InB (powerSum S 1 c l).shape ix from hin), powerSum, get_ofFn hin, add_zero, mul_sum_map]
  simp only [pow_one]

/-- **C129.** On rings and between half-sample mirrors `Laplace` is self-adjoint and negative: the scalar product of an image with its Laplacian is at most
zero, and the Laplacian sums to zero. -/
theorem C129_laplace : ∃ f : EdgeFilter α, EdgeFilter.laplace = .ok f ∧ ∀ {gp : PadArgs α} {ps : EdgePadders α}, HoldsBoth ps gp →
    ∀ {x y : Tensor α} {ax : Axes} {axes : List Nat}, EdgeSetup (.one []) gp x ax axes → Folds (gp.mode.entry .unknown 0) → y.shape = x.shape →
    ∀ junk junk' : List Nat → α, ∃ ps' ps'' z z', f.laplaceForward ps junk x ax = (ps', .ok z) ∧ f.laplaceForward ps junk' y ax = (ps'', .ok z') ∧
      z.shape = x.shape ∧ dot y z = dot x z' ∧ dot x z ≤ 0 ∧ z.data.sum = 0 := by
  obtain ⟨f, e, hf⟩ := laplace_built (α := α)
  refine ⟨f, e, ?_⟩
  intro gp ps hps x y ax axes h hd hy junk junk'
  obtain ⟨-, -, k3, -, k5⟩ := C111_kernels (α := α)
  have hu : usedKernel ([1, -2, 1] : List α) = [1, -2, 1] := usedKernel_fast (Or.inr rfl)
  rw [hu] at k3
  obtain ⟨ps', e1⟩ := magnitude_form hf hps h (by intro h; cases h) id 0 one_ne_zero (Or.inr (Or.inl (by simp))) junk
  obtain ⟨ps'', e2⟩ := magnitude_form hf hps (h.congr hy) (by intro h; cases h) id 0 one_ne_zero (Or.inr (Or.inl (by simp))) junk'
  simp only [if_true, hu] at e1 e2
  rw [hy] at e2
  refine ⟨ps', ps'', _, _, e1, e2, rfl, ?_, ?_, ?_⟩
  · rw [powerSum_one_dot hy, powerSum_one_dot rfl]
    congr 1
    apply List.map_congr_left
    intro a ha
    rw [edge_dot h ha (hd.imp id fun hm => ⟨hm, rfl⟩) k3 (k5 _) (fun a _ => lines_all _ _) hy, one_mul]
  · rw [powerSum_one_dot rfl]
    have := List.sum_le_card_nsmul (axes.map fun a => ((indices x.shape).map fun ix => x.get ix * (edgeResponse [1, -2, 1] (.one []) gp x axes a).get ix).sum) 0 (by
      intro v hv
      obtain ⟨a, ha, rfl⟩ := List.mem_map.1 hv
      exact second_le h ha hd fun a _ => lines_all _ _)
    simpa using this
  · rw [data_eq_map_get]
    have hz : ((indices x.shape).map ((powerSum x.shape 1 (edgeResponse [1, -2, 1] (.one []) gp x axes) axes).map fun v => v + 0).get).sum =
        (axes.map fun a => ((indices x.shape).map (edgeResponse [1, -2, 1] (.one []) gp x axes a).get).sum).sum := by
      have := sum_map_comm (indices x.shape) axes fun ix a => (edgeResponse [1, -2, 1] (.one []) gp x axes a).get ix
      refine Eq.trans ?_ this
      congr 1
      apply List.map_congr_left
      intro ix hix
      have hin : InB x.shape ix := mem_indices.1 hix
      rw [get_map _ _ (show InB (powerSum x.shape 1 _ axes).shape ix from hin), powerSum, get_ofFn hin, add_zero]
      simp only [pow_one]
    refine hz.trans ?_
    apply List.sum_eq_zero
    intro v hv
    obtain ⟨a, ha, rfl⟩ := List.mem_map.1 hv
    exact edge_total h ha (hd.imp id fun hm => ⟨hm, by simp, by simp⟩) (fun i _ => hd.imp id fun hm => ⟨hm, rfl, Or.inl rfl⟩) (by simp) (by norm_num)
      fun a _ => lines_all _ _

/-- **C129** for `SobelFilter`, `PrewittFilter`, `ScharrFilter` and `FaridFilter` on a ring, normalised or not: exchanging the images changes the sign of
the scalar product, so every component is orthogonal to the image. -/
theorem C129_named (normalize : Bool) : ∃ f1 f2 f3 f4 : EdgeFilter α, EdgeFilter.sobel normalize = .ok f1 ∧ EdgeFilter.prewitt normalize = .ok f2 ∧
    EdgeFilter.scharr normalize = .ok f3 ∧ EdgeFilter.farid normalize = .ok f4 ∧ ∀ f ∈ [f1, f2, f3, f4], ∀ {gp : PadArgs α} {ps : EdgePadders α}
      {x y : Tensor α} {ax : Axes} {axes : List Nat}, HoldsBoth ps gp → EdgeSetup (.one []) gp x ax axes → gp.mode.entry .unknown 0 = .circular →
      y.shape = x.shape → ∀ junk junk' : List Nat → α,
      ∃ ps' ps'' cs ds, f.allComponents ps junk x ax = (ps', .ok cs) ∧ f.allComponents ps junk' y ax = (ps'', .ok ds) ∧ cs.length = axes.length ∧
        List.Forall₂ (fun c d => dot y c = - dot x d) cs ds ∧ ∀ c ∈ cs, dot x c = 0 := by
  obtain ⟨⟨f1, e1, b1⟩, ⟨f2, e2, b2⟩, ⟨f3, e3, b3⟩, ⟨f4, e4, b4⟩, _⟩ := C42_named (α := α) normalize
  refine ⟨f1, f2, f3, f4, e1, e2, e3, e4, ?_⟩
  obtain ⟨k1, k2, -, k4, -⟩ := C111_kernels (α := α)
  have key : ∀ {f : EdgeFilter α} {w v : List α}, v ∈ [[1, 2, 1], [1, 1, 1], [3, 10, 3], EdgeFilter.faridSmooth] → Parity (-1 : α) (usedKernel w) →
      EdgeBuilt f w (.one (if normalize then normalised v else v)) 1 → ∀ {gp : PadArgs α} {ps : EdgePadders α}
      {x y : Tensor α} {ax : Axes} {axes : List Nat}, HoldsBoth ps gp → EdgeSetup (.one []) gp x ax axes → gp.mode.entry .unknown 0 = .circular →
      y.shape = x.shape → ∀ junk junk' : List Nat → α,
      ∃ ps' ps'' cs ds, f.allComponents ps junk x ax = (ps', .ok cs) ∧ f.allComponents ps junk' y ax = (ps'', .ok ds) ∧ cs.length = axes.length ∧
        List.Forall₂ (fun c d => dot y c = - dot x d) cs ds ∧ ∀ c ∈ cs, dot x c = 0 := by
    intro f w v hv hw hb gp ps x y ax axes hps h hc hy junk junk'
    have h' := EdgeSetup_one (g' := .one (if normalize then normalised v else v)) h rfl
    have hg := k4 normalize (axes.length - 1) v hv
    obtain ⟨ps', ps'', cs, ds, a1, a2, a3, a4⟩ := C129_components hb hps h' (by intro h; cases h) (Or.inl hc) hw hg hy junk junk'
    obtain ⟨_, _, cs1, ds1, b1, b2, _, b4⟩ := C129_components hb hps h' (by intro h; cases h) (Or.inl hc) hw hg rfl junk junk
    rw [a1] at b1 b2
    obtain rfl := Except.ok.inj (Prod.ext_iff.1 b1).2
    obtain rfl := Except.ok.inj (Prod.ext_iff.1 b2).2
    refine ⟨ps', ps'', cs, ds, a1, a2, a3, a4.imp fun c d h => by rw [h.1, neg_one_mul], ?_⟩
    intro c hcm
    have := (List.forall₂_same.1 b4 c hcm).1
    linarith
  intro f hf
  simp only [List.mem_cons, List.not_mem_nil, or_false] at hf
  rcases hf with rfl | rfl | rfl | rfl
  · exact key (by simp) k1 b1
  · exact key (by simp) k1 b2
  · exact key (by simp) k1 b3
  · exact key (by simp) k2 b4

end

/-! ## examples -/

namespace AdjointExample
open SsimExample EnergyExample EdgeSymExample

theorem sameCall {mode : Mode ℚ} (hmode : Folds mode) (w : List ℚ) : SameCall (PoolArgs.filter (.one w)) (args mode) (sig [1, 2, 4, 8]) .none [0] where
  axes_eq := by decide
  ne := by decide
  nodup := by decide
  fits := by intro h; cases h
  rest := ⟨trivial, trivial, trivial, trivial⟩
  stride := by intro i _; exact Nat.one_pos
  pos := by decide
  valued := by
    intro o ho _
    obtain ⟨i, _, rfl⟩ := sameOps_mem ho
    rcases hmode with rfl | rfl <;> exact ⟨by simp [sameSetting, AxisPad.rule?, args, Given.entry], by simp [sameSetting, args, Given.entry]⟩

/-- a pooling with one list of weights and stride one -/
theorem one_built (w : List ℚ) : ∃ pool : SepPool ℚ, SepPool.init (PoolArgs.pyKernel w) (PoolArgs.pyStride (some 1)) = .ok pool ∧ Built pool (PoolArgs.filter (.one w)) 1 := by
  have hv : (PoolArgs.filter (.one w)).Valid := by
    intro s hs
    simp only [PoolArgs.filter, Given.values, List.mem_singleton] at hs
    rw [hs]; simp
  obtain ⟨pool, e, _⟩ := poolIs_init (g := PoolArgs.filter (.one w)) Nat.one_pos ⟨trivial, trivial⟩ hv
  exact ⟨pool, e, .separable Nat.one_pos ⟨trivial, trivial⟩ hv e⟩

/-- weights 1, 2, 5 on a ring of four samples, and the weights 5, 2, 1 -/
example (junk junk' : List Nat → ℚ) {y : Tensor ℚ} (hy : y.shape = [4]) : ∃ pool pool' : SepPool ℚ, ∃ q q' z z',
    SepPool.init (PoolArgs.pyKernel [1, 2, 5]) (PoolArgs.pyStride (some 1)) = .ok pool ∧
    SepPool.init (PoolArgs.pyKernel [5, 2, 1]) (PoolArgs.pyStride (some 1)) = .ok pool' ∧
    SepPool.forward pool (some ((args .circular).padder 1)) junk (sig [1, 2, 4, 8]) .none = (q, .ok z) ∧
    SepPool.forward pool' (some ((args .circular).padder 1)) junk' y .none = (q', .ok z') ∧ dot y z = dot (sig [1, 2, 4, 8]) z' := by
  obtain ⟨pool, e1, b1⟩ := one_built [1, 2, 5]
  obtain ⟨pool', e2, b2⟩ := one_built [5, 2, 1]
  obtain ⟨q, q', z, z', h1, h2, _, _, h3, _⟩ := C129_adjoint b1 (by intro h; cases h) (sameCall (Or.inl rfl) _) (holds_padder _ 1) (fun _ _ => rfl)
    (fun i _ => ⟨Or.inl rfl, Or.inr (by simp [PoolArgs.op, PoolArgs.filter, Given.entry])⟩) b2 (by intro h; cases h) ((sameCall (Or.inl rfl) _).congr hy) (holds_padder _ 1) (fun _ _ => rfl)
    (fun i _ => ⟨rfl, rfl⟩) hy junk junk'
  exact ⟨pool, pool', q, q', z, z', e1, e2, h1, h2, h3⟩

example : run [1, 2, 5] .circular (sig [1, 2, 4, 8]) = some [20, 25, 50, 25] ∧ run [5, 2, 1] .circular (sig [1, 0, 0, 3]) = some [17, 5, 3, 7] ∧
    dot (sig [1, 0, 0, 3]) (sig [20, 25, 50, 25]) = 95 ∧ dot (sig [1, 2, 4, 8]) (sig [17, 5, 3, 7]) = 95 := by
  decide +kernel

/-- weights 1, 2, 1 between mirrors -/
example (junk junk' : List Nat → ℚ) {y : Tensor ℚ} (hy : y.shape = [4]) : ∃ pool : SepPool ℚ, ∃ q q' z z',
    SepPool.init (PoolArgs.pyKernel [1, 2, 1]) (PoolArgs.pyStride (some 1)) = .ok pool ∧
    SepPool.forward pool (some ((args .symmetric).padder 1)) junk (sig [1, 2, 4, 8]) .none = (q, .ok z) ∧
    SepPool.forward pool (some ((args .symmetric).padder 1)) junk' y .none = (q', .ok z') ∧ dot y z = dot (sig [1, 2, 4, 8]) z' := by
  obtain ⟨pool, e1, b1⟩ := one_built [1, 2, 1]
  obtain ⟨q, q', z, z', h1, h2, _, _, h3, _⟩ := C129_self_adjoint b1 (by intro h; cases h) (sameCall (Or.inr rfl) _) (holds_padder _ 1) (fun _ _ => rfl)
    (fun i _ => ⟨Or.inr rfl, rfl, Or.inr (by simp [PoolArgs.op, PoolArgs.filter, Given.entry])⟩) hy junk junk'
  exact ⟨pool, q, q', z, z', e1, h1, h2, h3⟩

/-- weights 1, 2 and weights 3, 0, 7 on a ring, in both orders, and the weights 3, 6, 7, 14 -/
example (junk junk' junk'' : List Nat → ℚ) : ∃ pool pool' pool'' : SepPool ℚ, SepPool.init (PoolArgs.pyKernel [1, 2]) (PoolArgs.pyStride (some 1)) = .ok pool ∧
    SepPool.init (PoolArgs.pyKernel [3, 0, 7]) (PoolArgs.pyStride (some 1)) = .ok pool' ∧
    SepPool.init (PoolArgs.pyKernel [3, 6, 7, 14]) (PoolArgs.pyStride (some 1)) = .ok pool'' ∧
    (∃ q₁ q₂ q₃ q₄ y z v, SepPool.forward pool (some ((args .circular).padder 1)) junk (sig [1, 2, 4, 8]) .none = (q₁, .ok y) ∧
      SepPool.forward pool' (some ((args .circular).padder 1)) junk' y .none = (q₂, .ok v) ∧
      SepPool.forward pool' (some ((args .circular).padder 1)) junk' (sig [1, 2, 4, 8]) .none = (q₃, .ok z) ∧
      SepPool.forward pool (some ((args .circular).padder 1)) junk z .none = (q₄, .ok v)) ∧
    ∃ q₁ q₂ q₃ y z, SepPool.forward pool (some ((args .circular).padder 1)) junk (sig [1, 2, 4, 8]) .none = (q₁, .ok y) ∧
      SepPool.forward pool' (some ((args .circular).padder 1)) junk' y .none = (q₂, .ok z) ∧
      SepPool.forward pool'' (some ((args .circular).padder 1)) junk'' (sig [1, 2, 4, 8]) .none = (q₃, .ok z) := by
  obtain ⟨pool, e1, b1⟩ := one_built [1, 2]
  obtain ⟨pool', e2, b2⟩ := one_built [3, 0, 7]
  obtain ⟨pool'', e3, b3⟩ := one_built [3, 6, 7, 14]
  refine ⟨pool, pool', pool'', e1, e2, e3, ?_, ?_⟩
  · exact C129_commute b1 (by intro h; cases h) (sameCall (Or.inl rfl) _) (holds_padder _ 1) (fun _ _ => rfl) (fun _ _ => Or.inl rfl)
      b2 (by intro h; cases h) (sameCall (Or.inl rfl) _) (holds_padder _ 1) (fun _ _ => rfl) (fun _ _ => Or.inl rfl)
      (fun _ _ _ _ _ => ⟨rfl, Or.inl rfl, Or.inl rfl⟩) junk junk'
  · refine C129_compose b1 (by intro h; cases h) (sameCall (Or.inl rfl) _) (holds_padder _ 1) (fun _ _ => rfl)
      b2 (by intro h; cases h) (sameCall (Or.inl rfl) _) (holds_padder _ 1) (fun _ _ => rfl)
      b3 (by intro h; cases h) (sameCall (Or.inl rfl) _) (holds_padder _ 1) (fun _ _ => rfl)
      (fun _ _ => ⟨rfl, rfl⟩) (fun _ _ => Or.inl rfl) (fun i _ => ⟨?_, Or.inr (Or.inr (by simp [PoolArgs.op, PoolArgs.filter, Given.entry]))⟩) junk junk' junk''
    show ([3, 6, 7, 14] : List ℚ) = inTurn [1, 2] [3, 0, 7]
    decide +kernel

/-- `SobelFilter` on a ring -/
example (junk junk' : List Nat → ℚ) {y : Tensor ℚ} (hy : y.shape = Example.x.shape) : ∃ f : EdgeFilter ℚ, EdgeFilter.sobel true = .ok f ∧
    ∃ ps' ps'' cs ds, f.allComponents circularPadders junk Example.x .none = (ps', .ok cs) ∧ f.allComponents circularPadders junk' y .none = (ps'', .ok ds) ∧
      cs.length = 2 ∧ List.Forall₂ (fun c d => dot y c = - dot Example.x d) cs ds ∧ ∀ c ∈ cs, dot Example.x c = 0 := by
  obtain ⟨f, _, _, _, h1, -, -, -, h⟩ := C129_named (α := ℚ) true
  exact ⟨f, h1, h f (by simp) circular_holds (setup_circular rfl) rfl hy junk junk'⟩

/-- the same from the parities of the kernels; the components sum to zero -/
example (junk junk' : List Nat → ℚ) {y : Tensor ℚ} (hy : y.shape = Example.x.shape) : ∃ f : EdgeFilter ℚ, EdgeFilter.sobel false = .ok f ∧
    (∃ ps' ps'' cs ds, f.allComponents circularPadders junk Example.x .none = (ps', .ok cs) ∧ f.allComponents circularPadders junk' y .none = (ps'', .ok ds) ∧
      List.Forall₂ (fun c d => dot y c = -1 * dot Example.x d) cs ds) ∧
    ∃ ps' cs, f.allComponents circularPadders junk Example.x .none = (ps', .ok cs) ∧ cs.length = 2 ∧ ∀ c ∈ cs, c.data.sum = 0 := by
  obtain ⟨f, h1, h2⟩ := Example.sobel_built
  obtain ⟨k1, -, -, k4, -⟩ := C111_kernels (α := ℚ)
  have hu : usedKernel ([-1, 0, 1] : List ℚ) = [-1, 0, 1] := usedKernel_fast (Or.inl rfl)
  obtain ⟨ps', ps'', cs, ds, e1, e2, _, e4⟩ := C129_components h2 circular_holds (setup_circular rfl) (by intro h; cases h) (Or.inl rfl) k1
    (k4 false _ [1, 2, 1] (by simp)) hy junk junk'
  obtain ⟨ps3, cs3, d1, d2, d3⟩ := C129_balanced h2 circular_holds (setup_circular rfl) (by intro h; cases h) (Or.inl rfl) (fun _ _ => Or.inl rfl)
    (by rw [hu]; simp) (by rw [hu]; norm_num) junk
  exact ⟨f, h1, ⟨ps', ps'', cs, ds, e1, e2, e4.imp fun _ _ h => h.1⟩, ps3, cs3, d1, d2, fun c hc => (d3 c hc).1⟩

/-- `Laplace` on a ring -/
example (junk junk' : List Nat → ℚ) {y : Tensor ℚ} (hy : y.shape = Example.x.shape) : ∃ f : EdgeFilter ℚ, EdgeFilter.laplace = .ok f ∧
    ∃ ps' ps'' z z', f.laplaceForward circularPadders junk Example.x .none = (ps', .ok z) ∧ f.laplaceForward circularPadders junk' y .none = (ps'', .ok z') ∧
      z.shape = Example.x.shape ∧ dot y z = dot Example.x z' ∧ dot Example.x z ≤ 0 ∧ z.data.sum = 0 := by
  obtain ⟨f, h1, h⟩ := C129_laplace (α := ℚ)
  exact ⟨f, h1, h circular_holds (setup_circular rfl) (Or.inl rfl) hy junk junk'⟩

/-- the Laplacian of a small image -/
def lap (mode : Mode ℚ) (x : Tensor ℚ) : Option (List ℚ) := do
  let f ← (EdgeFilter.laplace (α := ℚ)).toOption
  let y ← (f.laplaceForward (.shared (some ((Example.modeArgs mode).padder 1))) (fun _ => 7) x .none).2.toOption
  some y.data

end AdjointExample

open AdjointExample EnergyExample SsimExample in
/-- **C129**: the conditions of the adjoint are needed.  With mirrors at the samples a kernel which reads the same backwards is not self-adjoint, between
half-sample mirrors kernels which do not are not either, and with an even number of weights the kernel read backwards is not the adjoint on a ring. -/
theorem C129_adjoint_conditions : run [1, 2, 1] .reflect (sig [1, 0, 0]) = some [2, 1, 0] ∧ run [1, 2, 1] .reflect (sig [0, 1, 0]) = some [2, 2, 2] ∧
    dot (sig [0, 1, 0]) (sig [2, 1, 0]) ≠ dot (sig [1, 0, 0]) (sig [2, 2, 2]) ∧
    run [1, 2, 5] .symmetric (sig [1, 0, 0]) = some [3, 1, 0] ∧ run [5, 2, 1] .symmetric (sig [1, 0, 0]) = some [7, 5, 0] ∧
    dot (sig [1, 0, 0]) (sig [3, 1, 0]) ≠ dot (sig [1, 0, 0]) (sig [7, 5, 0]) ∧
    run [1, 2] .circular (sig [1, 0, 0]) = some [2, 1, 0] ∧ run [2, 1] .circular (sig [0, 1, 0]) = some [0, 1, 2] ∧
    dot (sig [0, 1, 0]) (sig [2, 1, 0]) ≠ dot (sig [1, 0, 0]) (sig [0, 1, 2]) := by
  decide +kernel

open AdjointExample EnergyExample SsimExample in
/-- **C129**: filters between half-sample mirrors do not commute if one of the kernels does not read the same backwards, and two filters with two weights
each are not the filter with the convolved kernel, they move the image by one sample. -/
theorem C129_order_conditions : ((run [-1, 0, 1] .symmetric (sig [1, 0, 0])).bind fun l => run [1, 2, 1] .symmetric (sig l)) = some [-4, -3, -1] ∧
    ((run [1, 2, 1] .symmetric (sig [1, 0, 0])).bind fun l => run [-1, 0, 1] .symmetric (sig l)) = some [-2, -3, -1] ∧
    inTurn [1, 1] [1, 1] = ([1, 2, 1] : List ℚ) ∧ ((run [1, 1] .circular (sig [1, 0, 0, 0])).bind fun l => run [1, 1] .circular (sig l)) = some [1, 2, 1, 0] ∧
    run [1, 2, 1] .circular (sig [1, 0, 0, 0]) = some [2, 1, 0, 1] := by
  decide +kernel

open AdjointExample SsimExample in
/-- **C129**: with repeated zeros around the image the Laplacian does not sum to zero, with mirrors at the samples it is not self-adjoint -/
theorem C129_laplace_conditions : lap .constant (ofFn [2, 2] fun _ => 1) = some [-2, -2, -2, -2] ∧
    lap .reflect (ofFn [3, 1] fun ix => if ix = [0, 0] then 1 else 0) = some [-2, 1, 0] ∧
    lap .reflect (ofFn [3, 1] fun ix => if ix = [1, 0] then 1 else 0) = some [2, -2, 2] := by
  decide +kernel

end TI
