import Verif.Model.CfaWith
import Verif.Spec.CfaWith
import Verif.Proofs.CfaMalvar
import Verif.Proofs.IntPad
import Verif.Proofs.FltValue
import Verif.Proofs.Rounding

/-!
# Colour filter arrays with other numbers
-/

set_option linter.unusedSectionVars false

namespace TI
open Tensor Spec

/-! ## lists -/

/-- positions in the window of a convolution -/
def cells (inC size : Nat) : List (Nat × Nat × Nat) :=
  (List.range inC).flatMap fun k => (List.range size).flatMap fun a => (List.range size).map fun b => (k, a, b)

theorem cells_map {γ : Type} (inC size : Nat) (f : Nat → Nat → Nat → γ) :
    ((List.range inC).flatMap fun k => (List.range size).flatMap fun a => (List.range size).map fun b => f k a b) = (cells inC size).map fun c => f c.1 c.2.1 c.2.2 := by
  simp only [cells, List.map_flatMap, List.map_map]
  rfl

theorem zipWith_maps {γ δ ε ζ : Type} (g : δ → ε → ζ) (f : γ → δ) (f' : γ → ε) : ∀ l : List γ, List.zipWith g (l.map f) (l.map f') = l.map fun c => g (f c) (f' c)
  | [] => rfl
  | c :: l => by simp [zipWith_maps g f f' l]

theorem sum_flatMap_cells {γ δ : Type} [AddCommMonoid δ] (f : γ → List δ) : ∀ l : List γ, (l.flatMap f).sum = (l.map fun c => (f c).sum).sum
  | [] => rfl
  | c :: l => by simp [sum_flatMap_cells f l]

theorem cells_sum {δ : Type} [AddCommMonoid δ] (inC size : Nat) (f : Nat → Nat → Nat → δ) :
    ((cells inC size).map fun c => f c.1 c.2.1 c.2.2).sum = ∑ k ∈ Finset.range inC, ∑ a ∈ Finset.range size, ∑ b ∈ Finset.range size, f k a b := by
  rw [← cells_map, sum_flatMap_cells, sum_range_list]
  refine Finset.sum_congr rfl fun k _ => ?_
  rw [sum_flatMap_cells, sum_range_list]
  refine Finset.sum_congr rfl fun a _ => ?_
  rw [sum_range_list]

theorem mem_cells {inC size : Nat} {c : Nat × Nat × Nat} : c ∈ cells inC size ↔ c.1 < inC ∧ c.2.1 < size ∧ c.2.2 < size := by
  obtain ⟨k, a, b⟩ := c
  simp [cells]

/-! ## the convolution at a pixel -/

section
variable {β : Type} [Zero β] {b : List Nat} {h w : Nat}

/-- the window around a pixel, continued by reflection -/
def patch (x : Tensor β) (bi : List Nat) (h w inC size i j : Nat) : List β :=
  (cells inC size).map fun c => x.get (bi ++ [c.1, reflC h ((i : Int) + c.2.1 - (size / 2 : Nat)), reflC w ((j : Int) + c.2.2 - (size / 2 : Nat))])

theorem conv2dWith_eq {x : Tensor β} {inC outC size : Nat} {conv : Nat → List Nat → List β → β} (hx : x.shape = b ++ [inC, h, w])
    (hb : b.length ≤ 1) (h0 : size ≠ 0) (hh : size ≤ h) (hw : size ≤ w) :
    ∃ z, conv2dWith inC outC size conv x = .ok z ∧ z.shape = b ++ [outC, (h - size) / 2 + 1, (w - size) / 2 + 1] ∧
      ∀ bi o i j, InB b bi → o < outC → i < (h - size) / 2 + 1 → j < (w - size) / 2 + 1 → z.get (bi ++ [o, i, j]) =
        conv o (bi ++ [o, i, j]) ((cells inC size).map fun c => x.get (bi ++ [c.1, 2 * i + c.2.1, 2 * j + c.2.2])) := by
  refine ⟨ofFn (b ++ [outC, (h - size) / 2 + 1, (w - size) / 2 + 1]) fun ix =>
      conv (ix.getD (ix.length - 3) 0) ix ((List.range inC).flatMap fun k => (List.range size).flatMap fun a => (List.range size).map fun c =>
        x.get (ix.take (ix.length - 3) ++ [k, 2 * ix.getD (ix.length - 2) 0 + a, 2 * ix.getD (ix.length - 1) 0 + c])), ?_, rfl, ?_⟩
  · simp only [conv2dWith, axisEnd_two hx, axisEnd_one hx, axisEnd_three hx, ndim_three hx, initShape3 hx]
    rw [if_pos]
    exact ⟨by omega, trivial, h0, hh, hw⟩
  · intro bi o i j hb ho hi hj
    rw [get_ofFn (inB3 hb ho hi hj)]
    simp only [take_three, getD_two, getD_one, getD_three]
    rw [cells_map inC size fun k a c => x.get (bi ++ [k, 2 * i + a, 2 * j + c])]

theorem convAtWith_eq {inC outC size : Nat} {conv : Pos → Nat → List Nat → List β → β} {p : Pos} {r s : Nat} {x : Tensor β} (hx : x.shape = b ++ [inC, h, w])
    (hf : ConvFits b inC size h w) (hr : r < 2) (hs : s < 2) :
    ∃ v, convAtWith inC outC size conv p r s x = .ok v ∧ v.shape = b ++ [outC, h / 2, w / 2] ∧
      ∀ bi o i j, InB b bi → o < outC → i < h / 2 → j < w / 2 → v.get (bi ++ [o, i, j]) =
        conv p o (bi ++ [o, i, j]) (patch x bi h w inC size (2 * i + r) (2 * j + s)) := by
  have h1 := hf.evenH
  have h2 := hf.evenW
  have h3 := hf.fitsH
  have h4 := hf.fitsW
  have h5 := hf.pos
  obtain ⟨y, e1, s1, g1⟩ := bayerPad_eq hx hf.rank hf.channels (by omega) (by omega) h3 h4 hr hs
  obtain ⟨v, e2, s2, g2⟩ := conv2dWith_eq (outC := outC) (conv := conv p) s1 hf.rank hf.pos (by omega) (by omega)
  have q1 : (h + 2 * (size / 2) - 1 - size) / 2 + 1 = h / 2 := by omega
  have q2 : (w + 2 * (size / 2) - 1 - size) / 2 + 1 = w / 2 := by omega
  rw [q1, q2] at s2 g2
  refine ⟨v, by simp only [convAtWith, e1, ok_bind, e2], s2, ?_⟩
  intro bi o i j hb ho hi hj
  rw [g2 bi o i j hb ho hi hj, patch]
  congr 1
  refine List.map_congr_left fun c hc => ?_
  obtain ⟨hk, ha, hc⟩ := mem_cells.1 hc
  have q3 : (((2 * i + c.2.1 : Nat) : Int) - ((size / 2 : Nat) - r)) = ((2 * i + r : Nat) : Int) + c.2.1 - (size / 2 : Nat) := by push_cast; ring
  have q4 : (((2 * j + c.2.2 : Nat) : Int) - ((size / 2 : Nat) - s)) = ((2 * j + s : Nat) : Int) + c.2.2 - (size / 2 : Nat) := by push_cast; ring
  rw [g1 bi c.1 _ _ hb hk (by omega) (by omega), q3, q4]

theorem bayerForwardWith_eq (junk : List Nat → β) {inC outC size : Nat} {conv : Pos → Nat → List Nat → List β → β} {x : Tensor β} (hx : x.shape = b ++ [inC, h, w])
    (hf : ConvFits b inC size h w) {p : Pattern} {s : List Char} (hp : p.Spelled s) :
    ∃ z, bayerForwardWith inC outC size conv junk x s = .ok z ∧ z.shape = b ++ [outC, h, w] ∧
      ∀ bi o i j, InB b bi → o < outC → i < h → j < w → z.get (bi ++ [o, i, j]) =
        conv (posOf (p.kind i j)) o (bi ++ [o, i / 2, j / 2]) (patch x bi h w inC size i j) := by
  obtain ⟨beg, hbeg, hcell⟩ := begIndex_eq p
  obtain ⟨z, h1, h2, h3⟩ := forPos_eq (P := p) (b := b) (c := outC) (h := h) (w := w)
    (f := fun p y => do
      let (r, c) := beg p
      let v ← convAtWith inC outC size conv p r c x
      y.setLast [every2 r, every2 c] v)
    (g := fun P bi o i j => conv P o (bi ++ [o, i / 2, j / 2]) (patch x bi h w inC size i j)) (by
      intro P ret hret
      obtain ⟨hr, hs, hkind⟩ := hcell P
      generalize beg P = rc at hr hs hkind
      obtain ⟨r, c⟩ := rc
      simp only at hr hs hkind
      obtain ⟨v, e0, s0, g0⟩ := convAtWith_eq (outC := outC) (conv := conv) (p := P) hx hf hr hs
      obtain ⟨ret1, f1, t1, k1⟩ := setTile hret hr hs (v := v) (by rw [half_even hf.evenH hr, half_even hf.evenW hs, s0])
      refine ⟨ret1, by simp only [e0, ok_bind, f1], t1.trans hret, ?_⟩
      intro bi q i j hb hq hi hj
      rw [k1 bi q i j hb hq hi hj]
      by_cases hc : i % 2 = r ∧ j % 2 = c
      · have e1 := hf.evenH
        have e2 := hf.evenW
        rw [if_pos hc, if_pos ((hkind i j).1 hc), g0 bi q _ _ hb hq (by omega) (by omega), show 2 * (i / 2) + r = i by omega, show 2 * (j / 2) + c = j by omega]
      · rw [if_neg hc, if_neg (fun e => hc ((hkind i j).2 e))])
    (y := Tensor.empty junk (b ++ [outC, h, w])) rfl
  refine ⟨z, ?_, h2, h3⟩
  simp only [bayerForwardWith, checkAlignment_ok hp, ok_bind, hbeg, initShape3 hx, lastTwo3 hx]
  exact h1

end

/-! ## two calls side by side -/

section
variable {α β : Type} [Zero α] [Zero β] {R : α → β → Prop}

theorem Tensor.Rel.axisEnd {x : Tensor α} {y : Tensor β} (h : x.Rel R y) (k : Nat) : x.axisEnd k = y.axisEnd k := by rw [Tensor.axisEnd, Tensor.axisEnd, h.shape]
theorem Tensor.Rel.initShape {x : Tensor α} {y : Tensor β} (h : x.Rel R y) (k : Nat) : x.initShape k = y.initShape k := by rw [Tensor.initShape, Tensor.initShape, h.shape]

theorem rel_getLast (h0 : R 0 0) {x : Tensor α} {y : Tensor β} (h : x.Rel R y) (sl : List PySlice) : ExRel (Tensor.Rel R) (x.getLast sl) (y.getLast sl) := by
  rw [getLast, getLast, h.ndim]
  exact .ite Iff.rfl (fun _ => .error _) (fun _ => .ok (h.getSlice h0 _))

theorem rel_setLast (h0 : R 0 0) {x v : Tensor α} {y w : Tensor β} (h : x.Rel R y) (hv : v.Rel R w) (sl : List PySlice) :
    ExRel (Tensor.Rel R) (x.setLast sl v) (y.setLast sl w) := by
  rw [setLast, setLast, h.ndim]
  exact .ite Iff.rfl (fun _ => .error _) (fun _ => h.setSlice h0 hv _)

theorem Tensor.Rel.hasChan {x : Tensor α} {y : Tensor β} (h : x.Rel R y) (k : Nat) : x.hasChan k = y.hasChan k := by
  rw [Tensor.hasChan, Tensor.hasChan, h.ndim, h.axisEnd]

theorem rel_getChan (h0 : R 0 0) {x : Tensor α} {y : Tensor β} (h : x.Rel R y) (k : Nat) (s t : PySlice) : ExRel (Tensor.Rel R) (x.getChan k s t) (y.getChan k s t) := by
  rw [getChan, getChan, h.hasChan]
  exact .ite Iff.rfl (fun _ => rel_getLast h0 h _) (fun _ => .error _)

theorem rel_setChan (h0 : R 0 0) {x v : Tensor α} {y w : Tensor β} (h : x.Rel R y) (hv : v.Rel R w) (k : Nat) (s t : PySlice) :
    ExRel (Tensor.Rel R) (x.setChan k s t v) (y.setChan k s t w) := by
  rw [setChan, setChan, h.hasChan]
  exact .ite Iff.rfl (fun _ => rel_setLast h0 h hv _) (fun _ => .error _)

theorem rel_forPos {γ δ : Type} {P : γ → δ → Prop} {f : Pos → γ → Except Err γ} {g : Pos → δ → Except Err δ} (hf : ∀ p x y, P x y → ExRel P (f p x) (g p y)) {x : γ} {y : δ}
    (h : P x y) : ExRel P (forPos f x) (forPos g y) := by
  simp only [forPos]
  exact (hf _ _ _ h).bind fun _ _ h => (hf _ _ _ h).bind fun _ _ h => (hf _ _ _ h).bind fun _ _ h => hf _ _ _ h

theorem rel_lastStep (h0 : R 0 0) {junk : List Nat → α} {junk' : List Nat → β} (hj : ∀ ix, R (junk ix) (junk' ix)) {x y : Tensor α} {x' y' : Tensor β} (hx : x.Rel R x')
    (hy : y.Rel R y') (sa : List Char) : ExRel (Tensor.Rel R) (lastStep junk x y sa) (lastStep junk' x' y' sa) := by
  simp only [lastStep]
  refine .bind_same _ fun sa _ => .bind_same _ fun beg _ => .ite (by rw [hx.initShape, hy.initShape, hx.shape, hy.shape]) (fun _ => rel_forPos ?_ ?_) (fun _ => .error _)
  · intro p r r' hr
    refine .bind_same _ fun q _ => ?_
    exact (rel_getLast h0 hx _).bind fun _ _ hv => (rel_setChan h0 hr hv _ _ _).bind fun _ _ hr => (rel_getChan h0 hy _ _ _).bind fun _ _ hv =>
      (rel_setChan h0 hr hv _ _ _).bind fun _ _ hr => (rel_getChan h0 hy _ _ _).bind fun _ _ hv => rel_setChan h0 hr hv _ _ _
  · exact rel_ofFn h0 (by rw [hx.initShape, hx.shape]) fun ix _ => hj ix

theorem rel_bayerPad (h0 : R 0 0) {x : Tensor α} {x' : Tensor β} (hx : x.Rel R x') (size r c : Nat) : ExRel (Tensor.Rel R) (bayerPad size r c x) (bayerPad size r c x') := by
  simp only [bayerPad, reflectionPad2d, hx.axisEnd, hx.ndim, hx.initShape]
  exact .ite Iff.rfl (fun _ => .ok (rel_ofFn h0 rfl fun ix _ => hx.get _)) (fun _ => .error _)

theorem rel_conv2dWith (h0 : R 0 0) {inC outC size : Nat} {conv : Nat → List Nat → List α → α} {conv' : Nat → List Nat → List β → β}
    (hc : ∀ o ix l l', List.Forall₂ R l l' → l.length = inC * (size * size) → R (conv o ix l) (conv' o ix l')) {x : Tensor α} {x' : Tensor β} (hx : x.Rel R x') :
    ExRel (Tensor.Rel R) (conv2dWith inC outC size conv x) (conv2dWith inC outC size conv' x') := by
  simp only [conv2dWith, hx.axisEnd, hx.ndim, hx.initShape]
  refine .ite Iff.rfl (fun _ => .ok (rel_ofFn h0 rfl fun ix _ => ?_)) (fun _ => .error _)
  rw [cells_map inC size fun k a c => x.get _, cells_map inC size fun k a c => x'.get _]
  refine hc _ _ _ _ ?_ ?_
  · rw [List.forall₂_map_left_iff, List.forall₂_map_right_iff, List.forall₂_same]
    exact fun c _ => hx.get _
  · simp [cells]

theorem rel_bayerForwardWith (h0 : R 0 0) {inC outC size : Nat} {conv : Pos → Nat → List Nat → List α → α} {conv' : Pos → Nat → List Nat → List β → β}
    (hc : ∀ p o ix l l', List.Forall₂ R l l' → l.length = inC * (size * size) → R (conv p o ix l) (conv' p o ix l')) {junk : List Nat → α} {junk' : List Nat → β}
    (hj : ∀ ix, R (junk ix) (junk' ix)) {x : Tensor α} {x' : Tensor β} (hx : x.Rel R x') (sa : List Char) :
    ExRel (Tensor.Rel R) (bayerForwardWith inC outC size conv junk x sa) (bayerForwardWith inC outC size conv' junk' x' sa) := by
  simp only [bayerForwardWith]
  refine .bind_same _ fun sa _ => .bind_same _ fun beg _ => rel_forPos ?_ ?_
  · intro p y y' hy
    have h := (rel_bayerPad h0 hx size (beg p).1 (beg p).2).bind fun _ _ hv => rel_conv2dWith (outC := outC) h0 (hc p) hv
    exact ExRel.bind h fun _ _ hv => rel_setLast h0 hy hv _
  · exact rel_ofFn h0 (by rw [hx.initShape, hx.shape]) fun ix _ => hj ix

end

/-! ## exact convolutions -/

section
variable {α : Type} [Field α]

theorem weights_eq (m : BayerConv α) (p : Pos) (o : Nat) : m.weights p o = (cells m.inC m.size).map fun c => m.weight p o c.1 c.2.1 c.2.2 := cells_map _ _ _

/-- the exact convolution as a function of the window -/
def BayerConv.exact (m : BayerConv α) (p : Pos) (o : Nat) (_ix : List Nat) (l : List α) : α := (List.zipWith (fun w v => w * v) (m.weights p o) l).sum + m.bias p o

theorem conv2dWith_exact (m : BayerConv α) (p : Pos) (x : Tensor α) : conv2dWith m.inC m.outC m.size (m.exact p) x = conv2dStride2 m.inC m.outC m.size (m.weight p) (m.bias p) x := by
  simp only [conv2dWith, conv2dStride2]
  split_ifs
  · congr 1
    apply ofFn_congr
    intro ix _
    simp only [BayerConv.exact, weights_eq]
    rw [cells_map m.inC m.size fun k a c => x.get _, zipWith_maps]
    rw [cells_sum m.inC m.size fun k a c => m.weight p (ix.getD (ix.length - 3) 0) k a c *
      x.get (ix.take (ix.length - 3) ++ [k, 2 * ix.getD (ix.length - 2) 0 + a, 2 * ix.getD (ix.length - 1) 0 + c])]
    simp only [sum_range_list]
  · rfl

theorem forwardWith_exact (m : BayerConv α) (junk : List Nat → α) (x : Tensor α) (sa : List Char) :
    bayerForwardWith m.inC m.outC m.size m.exact junk x sa = m.forward junk x sa := by
  simp only [bayerForwardWith, BayerConv.forward, convAtWith, BayerConv.convAt, conv2dWith_exact]

end

/-! ## weighted sums of numbers that are not finite -/

section
variable {α : Type} [Field α] [LinearOrder α] [IsStrictOrderedRing α]

theorem weighted_finite {l : List (α × Flt α)} : IsFinite (l.map fun e => Flt.num e.1 * e.2).sum ↔ ∀ e ∈ l, IsFinite e.2 := by
  rw [Flt.finite_sum]
  constructor
  · intro h e he
    exact (Flt.finite_mul.1 (h _ (List.mem_map.2 ⟨e, he, rfl⟩))).2
  · intro h b hb
    obtain ⟨e, he, rfl⟩ := List.mem_map.1 hb
    exact Flt.finite_mul.2 ⟨⟨_, rfl⟩, h e he⟩

theorem not_finite_cases {b : Flt α} : ¬ IsFinite b ↔ b = .nan ∨ ∃ s, b = .inf s := by
  cases b with
  | num a => exact iff_of_false (fun h => h ⟨a, rfl⟩) (by rintro (h | ⟨_, h⟩) <;> cases h)
  | inf s => exact iff_of_true (by rintro ⟨_, h⟩; cases h) (Or.inr ⟨s, rfl⟩)
  | nan => exact iff_of_true (by rintro ⟨_, h⟩; cases h) (Or.inl rfl)

theorem weighted_infinite {l : List (α × Flt α)} (s : Bool) :
    (l.map fun e => Flt.num e.1 * e.2).sum = .inf s ↔ (∃ e ∈ l, Pulls e.1 e.2 s) ∧ ¬ Undefined l := by
  have hm : ∀ b, b ∈ (l.map fun e => Flt.num e.1 * e.2) ↔ ∃ e ∈ l, Flt.num e.1 * e.2 = b := fun b => List.mem_map
  rw [Flt.sum_eq_inf, hm, hm, hm]
  simp only [Flt.num_mul_eq_inf, Flt.num_mul_eq_nan, not_finite_cases]
  refine and_congr_right fun hs => ?_
  rw [Undefined, not_or, not_or, not_and_or]
  constructor
  · rintro ⟨h1, h2⟩
    refine ⟨fun ⟨e, he, h⟩ => h1 ⟨e, he, Or.inl h⟩, fun ⟨e, he, h3, h4⟩ => h1 ⟨e, he, Or.inr ⟨h3, Or.inr h4⟩⟩, ?_⟩
    cases s
    · exact Or.inl h2
    · exact Or.inr h2
  · rintro ⟨h1, h2, h3⟩
    refine ⟨?_, ?_⟩
    · rintro ⟨e, he, h | ⟨h, h' | h'⟩⟩
      · exact h1 ⟨e, he, h⟩
      · exact h1 ⟨e, he, h'⟩
      · exact h2 ⟨e, he, h, h'⟩
    · cases s
      · exact h3.resolve_right (not_not_intro hs)
      · exact h3.resolve_left (not_not_intro hs)

theorem weighted_nan {l : List (α × Flt α)} : (l.map fun e => Flt.num e.1 * e.2).sum = .nan ↔ Undefined l := by
  constructor
  · intro h
    by_contra hu
    have hf : ¬ IsFinite (l.map fun e => Flt.num e.1 * e.2).sum := by rw [h]; rintro ⟨_, h⟩; cases h
    rw [weighted_finite] at hf
    push Not at hf
    obtain ⟨e, he, hf⟩ := hf
    have h1 : e.2 ≠ .nan := fun h1 => hu (Or.inl ⟨e, he, h1⟩)
    obtain ⟨r, hr⟩ := (not_finite_cases.1 hf).resolve_left h1
    have h2 : e.1 ≠ 0 := fun h2 => hu (Or.inr (Or.inl ⟨e, he, h2, r, hr⟩))
    have h3 : ∃ s, Pulls e.1 e.2 s := by
      rcases lt_or_gt_of_ne h2 with h3 | h3
      · exact ⟨!r, Or.inr ⟨h3, by rw [hr, Bool.not_not]⟩⟩
      · exact ⟨r, Or.inl ⟨h3, hr⟩⟩
    obtain ⟨s, hs⟩ := h3
    have := (weighted_infinite s).2 ⟨⟨e, he, hs⟩, hu⟩
    rw [h] at this
    cases this
  · intro hu
    cases hv : (l.map fun e => Flt.num e.1 * e.2).sum with
    | nan => rfl
    | inf s => exact absurd hu ((weighted_infinite s).1 hv).2
    | num a =>
      have hf := weighted_finite.1 ⟨a, hv⟩
      exfalso
      rcases hu with ⟨e, he, h⟩ | ⟨e, he, _, s, h⟩ | ⟨⟨e, he, h⟩, _⟩
      · obtain ⟨_, h'⟩ := hf e he
        rw [h] at h'
        cases h'
      · obtain ⟨_, h'⟩ := hf e he
        rw [h] at h'
        cases h'
      · obtain ⟨_, h'⟩ := hf e he
        rcases h with ⟨_, h⟩ | ⟨_, h⟩ <;> rw [h] at h' <;> cases h'

end

/-! ## the weights of the estimates -/

section
variable {α : Type} [Field α]

theorem cells_five : cells 1 5 = offsets.map fun d => (0, (d.1 + 2).toNat, (d.2 + 2).toNat) := by decide

theorem wf_weight [CharZero α] (P : Pos) (o : Nat) (ho : o < 2) {d : Int × Int} (hd : d ∈ offsets) :
    ((wfAt (α := α) P o).getD (d.1 + 2).toNat []).getD (d.2 + 2).toNat 0 =
      malvarWeight P.kind (if o = 0 then (colorOf P.kind).others.1 else (colorOf P.kind).others.2) d.1 d.2 := by
  have ho' : o = 0 ∨ o = 1 := by omega
  have key : ∀ d ∈ offsets, ((wfAt (α := α) P o).getD (d.1 + 2).toNat []).getD (d.2 + 2).toNat 0 =
      malvarWeight P.kind (if o = 0 then (colorOf P.kind).others.1 else (colorOf P.kind).others.2) d.1 d.2 := by
    rcases ho' with rfl | rfl <;> cases P <;>
    · simp only [offsets, List.flatMap_cons, List.flatMap_nil, List.map_cons, List.map_nil, List.cons_append, List.nil_append, List.forall_mem_cons, List.not_mem_nil,
        false_imp_iff, implies_true, and_true]
      simp [wfAt, wf0, wf1, wf2, wf3, eighth, malvarWeight, rowWeight, colorOf, Pos.kind, Color.others, List.range, List.range.loop]
      try norm_num
  exact key d hd

theorem malvar_sum [CharZero α] (k : Kind) (t : Color) (v : Int → Int → α) : malvar k t v = (offsets.map fun d => malvarWeight k t d.1 d.2 * v d.1 d.2).sum := by
  cases k <;> cases t <;>
  · simp [offsets, malvar, malvarWeight, rowWeight]
    try ring

/-- the window of a kernel of size 5 -/
theorem patch_five {β : Type} [Zero β] (x : Tensor β) (bi : List Nat) (h w i j : Nat) : patch x bi h w 1 5 i j = offsets.map fun d => around x bi h w i j d.1 d.2 := by
  rw [patch, cells_five, List.map_map]
  refine List.map_congr_left fun d hd => ?_
  have hb : ∀ d ∈ offsets, 0 ≤ d.1 + 2 ∧ 0 ≤ d.2 + 2 := by decide
  obtain ⟨h1, h2⟩ := hb d hd
  have e1 : (i : Int) + ((d.1 + 2).toNat : Int) - ((5 / 2 : Nat) : Int) = i + d.1 := by rw [Int.toNat_of_nonneg h1]; norm_num; ring
  have e2 : (j : Int) + ((d.2 + 2).toNat : Int) - ((5 / 2 : Nat) : Int) = j + d.2 := by rw [Int.toNat_of_nonneg h2]; norm_num; ring
  simp only [Function.comp, around, e1, e2]

theorem weights_five [CharZero α] {m : BayerConv α} (h1 : m.inC = 1) (h3 : m.size = 5) (h4 : ∀ P o k a b, o < 2 → m.weight P o k a b = ((wfAt P o).getD a []).getD b 0) (P : Pos) {o : Nat}
    (ho : o < 2) : m.weights P o = offsets.map fun d => malvarWeight P.kind (if o = 0 then (colorOf P.kind).others.1 else (colorOf P.kind).others.2) d.1 d.2 := by
  rw [weights_eq, h1, h3, cells_five, List.map_map]
  refine List.map_congr_left fun d hd => ?_
  simp only [Function.comp]
  rw [h4 P o _ _ _ ho, wf_weight P o ho hd]

end

end TI
