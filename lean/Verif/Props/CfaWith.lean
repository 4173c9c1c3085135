import Verif.Proofs.CfaWith
import Verif.Props.Cfa
import Verif.Props.IntSharpen
import Verif.Props.Rounding
import Verif.Props.FltSsim

/-!
# Colour filter arrays: images of integers (C142), images with entries that are not finite (C143), rounding errors of demosaicing (C144)
-/

set_option linter.unusedSectionVars false

namespace TI
open Tensor Spec

/-! ## C142 -/

section
variable {α : Type} [Field α] [LinearOrder α] [IsStrictOrderedRing α] [FloorRing α] {t : IntType} {b : List Nat} {h w : Nat}

theorem value_add (v v' : t.Word) : t.value (v + v') = wrapped t (t.value v + t.value v') := by
  rw [← value_wrapped, BitVec.ofInt_add, ofInt_value, ofInt_value]

theorem downsample4cWord_eq {X : Tensor t.Word} (hX : X.shape = b ++ [4, h, w]) {p : Pattern} {s : List Char} (hp : p.Spelled s) :
    ∃ z : Tensor α, downsample4cWord t X s = .ok z ∧ z.shape = b ++ [3, h, w] ∧ ∀ bi i j, InB b bi → i < h → j < w →
      z.get (bi ++ [0, i, j]) = ((t.value (X.get (bi ++ [firstCell p .red, i, j])) : ℤ) : α) ∧
      z.get (bi ++ [1, i, j]) = ((wrapped t (t.value (X.get (bi ++ [firstCell p .green, i, j])) + t.value (X.get (bi ++ [lastGreen p, i, j]))) : ℤ) : α) / 2 ∧
      z.get (bi ++ [2, i, j]) = ((t.value (X.get (bi ++ [firstCell p .blue, i, j])) : ℤ) : α) := by
  obtain ⟨r, e1, s1, g1⟩ := getPlaneFull hX (firstCell_lt p .red)
  obtain ⟨g, e2, s2, g2⟩ := getPlaneFull hX (firstCell_lt p .green)
  obtain ⟨g', e3, s3, g3⟩ := getPlaneFull hX (lastGreen_lt p)
  obtain ⟨bl, e4, s4, g4⟩ := getPlaneFull hX (firstCell_lt p .blue)
  have hb := bop_same (f := fun a b : t.Word => a + b) (s2.trans s3.symm)
  have i1 : indexOf p.name 'R' = .ok (firstCell p .red) := indexOf_eq p .red
  have i2 : indexOf p.name 'G' = .ok (firstCell p .green) := indexOf_eq p .green
  have i3 : indexOf p.name 'B' = .ok (firstCell p .blue) := indexOf_eq p .blue
  set m : Tensor α := (t.floats (Tensor.ofFn g.shape fun ix => g.get ix + g'.get ix)).map fun v => v / 2 with hm
  have sm : m.shape = b ++ [h, w] := s2
  have sr : (t.floats r : Tensor α).shape = b ++ [h, w] := s1
  have sb : (t.floats bl : Tensor α).shape = b ++ [h, w] := s4
  obtain ⟨z, h1, h2, h3⟩ := stack3_eq (x := t.floats r) (rest := [m, t.floats bl]) (b := b) (h := h) (w := w) (by
    intro y hy
    simp only [List.mem_cons, List.not_mem_nil, or_false] at hy
    rcases hy with rfl | rfl | rfl
    · exact sr
    · exact sm
    · exact sb)
  refine ⟨z, ?_, h2, ?_⟩
  · simp only [downsample4cWord, checkAlignment_ok hp, check4c_ok hX, ok_bind, i1, i2, i3, rindexOf_eq, e1, e2, e3, e4]
    rw [hb]
    exact h1
  · intro bi i j hb hi hj
    have hin : InB (b ++ [h, w]) (bi ++ [i, j]) := inB2 hb hi hj
    rw [h3 bi 0 i j hb (by simp) hi hj, h3 bi 1 i j hb (by simp) hi hj, h3 bi 2 i j hb (by simp) hi hj]
    simp only [List.map_cons, List.map_nil, List.getD_cons_succ, List.getD_cons_zero]
    refine ⟨?_, ?_, ?_⟩
    · rw [IntType.floats, get_map _ _ (by rw [s1]; exact hin), g1 bi i j hb hi hj]
    · rw [hm, get_map _ _ (by simpa [IntType.floats, s2] using hin), IntType.floats, get_map _ _ (by simpa [s2] using hin), get_ofFn (by rw [s2]; exact hin),
        g2 bi i j hb hi hj, g3 bi i j hb hi hj, value_add]
    · rw [IntType.floats, get_map _ _ (by rw [s4]; exact hin), g4 bi i j hb hi hj]

/-- **C142**, 4-channel form: red and blue are kept; green is half the sum of its two cells, which is taken modulo the size of the type. -/
theorem C142_four_channels {X : Tensor t.Word} (hX : X.shape = b ++ [4, h, w]) {p : Pattern} {s : List Char} (hp : p.Spelled s) :
    ∃ z : Tensor α, downsample4cWord t X s = .ok z ∧ z.shape = b ++ [3, h, w] ∧ ∀ bi i j, InB b bi → i < h → j < w →
      (∀ r c, r < 2 → c < 2 → p.color r c = .red → z.get (bi ++ [0, i, j]) = ((t.value (X.get (bi ++ [2 * r + c, i, j])) : ℤ) : α)) ∧
      (∀ r c r' c', r < 2 → c < 2 → r' < 2 → c' < 2 → p.color r c = .green → p.color r' c' = .green → (r, c) ≠ (r', c') →
        z.get (bi ++ [1, i, j]) = ((wrapped t (t.value (X.get (bi ++ [2 * r + c, i, j])) + t.value (X.get (bi ++ [2 * r' + c', i, j]))) : ℤ) : α) / 2) ∧
      (∀ r c, r < 2 → c < 2 → p.color r c = .blue → z.get (bi ++ [2, i, j]) = ((t.value (X.get (bi ++ [2 * r + c, i, j])) : ℤ) : α)) := by
  obtain ⟨z, e, s1, g⟩ := downsample4cWord_eq (α := α) hX hp
  refine ⟨z, e, s1, ?_⟩
  intro bi i j hb hi hj
  obtain ⟨g0, g1, g2⟩ := g bi i j hb hi hj
  have f1 : ∀ r < 2, ∀ c < 2, p.color r c = .red → firstCell p .red = 2 * r + c := by cases p <;> decide
  have f2 : ∀ r < 2, ∀ c < 2, p.color r c = .blue → firstCell p .blue = 2 * r + c := by cases p <;> decide
  have f3 : ∀ r c r' c' : Fin 2, p.color r c = .green → p.color r' c' = .green → (r.1, c.1) ≠ (r'.1, c'.1) →
      (firstCell p .green = 2 * r.1 + c.1 ∧ lastGreen p = 2 * r'.1 + c'.1) ∨ (firstCell p .green = 2 * r'.1 + c'.1 ∧ lastGreen p = 2 * r.1 + c.1) := by
    cases p <;> decide
  refine ⟨fun r c hr hc hcol => by rw [g0, f1 r hr c hc hcol], ?_, fun r c hr hc hcol => by rw [g2, f2 r hr c hc hcol]⟩
  intro r c r' c' hr hc hr' hc' h1 h2 h3
  rcases f3 ⟨r, hr⟩ ⟨c, hc⟩ ⟨r', hr'⟩ ⟨c', hc'⟩ h1 h2 h3 with ⟨q1, q2⟩ | ⟨q1, q2⟩
  · rw [g1, q1, q2]
  · rw [g1, q1, q2, add_comm]

/-- **C142**, 1-channel form. -/
theorem C142_one_channel {X : Tensor t.Word} (hX : X.shape = b ++ [1, h, w]) (hh : h % 2 = 0) (hw : w % 2 = 0) {p : Pattern} {s : List Char} (hp : p.Spelled s) :
    ∃ z : Tensor α, downsample1cWord t X s = .ok z ∧ z.shape = b ++ [3, h / 2, w / 2] ∧ ∀ bi i j, InB b bi → i < h / 2 → j < w / 2 →
      (∀ r c, r < 2 → c < 2 → p.color r c = .red → z.get (bi ++ [0, i, j]) = ((t.value (X.get (bi ++ [0, 2 * i + r, 2 * j + c])) : ℤ) : α)) ∧
      (∀ r c r' c', r < 2 → c < 2 → r' < 2 → c' < 2 → p.color r c = .green → p.color r' c' = .green → (r, c) ≠ (r', c') →
        z.get (bi ++ [1, i, j]) = ((wrapped t (t.value (X.get (bi ++ [0, 2 * i + r, 2 * j + c])) + t.value (X.get (bi ++ [0, 2 * i + r', 2 * j + c']))) : ℤ) : α) / 2) ∧
      (∀ r c, r < 2 → c < 2 → p.color r c = .blue → z.get (bi ++ [2, i, j]) = ((t.value (X.get (bi ++ [0, 2 * i + r, 2 * j + c])) : ℤ) : α)) := by
  obtain ⟨y, e1, s1, g1⟩ := bayer1cTo4c_eq hX hh hw
  obtain ⟨z, e2, s2, g2⟩ := C142_four_channels (α := α) s1 hp
  refine ⟨z, by rw [downsample1cWord, e1, ok_bind, e2], s2, ?_⟩
  intro bi i j hb hi hj
  obtain ⟨q0, q1, q2⟩ := g2 bi i j hb hi hj
  have val : ∀ r c, r < 2 → c < 2 → y.get (bi ++ [2 * r + c, i, j]) = X.get (bi ++ [0, 2 * i + r, 2 * j + c]) := by
    intro r c hr hc
    rw [g1 bi _ i j hb (by omega) hi hj, show (2 * r + c) / 2 = r by omega, show (2 * r + c) % 2 = c by omega]
  refine ⟨?_, ?_, ?_⟩
  · intro r c hr hc hcol
    rw [q0 r c hr hc hcol, val r c hr hc]
  · intro r c r' c' hr hc hr' hc' h1 h2 h3
    rw [q1 r c r' c' hr hc hr' hc' h1 h2 h3, val r c hr hc, val r' c' hr' hc']
  · intro r c hr hc hcol
    rw [q2 r c hr hc hcol, val r c hr hc]

theorem floats_get {X : Tensor t.Word} {ix : List Nat} (hix : InB X.shape ix) : (t.floats X : Tensor α).get ix = ((t.value (X.get ix) : ℤ) : α) := by
  rw [IntType.floats, get_map _ _ hix]

/-- **C142**: the result is that of the same numbers exactly where the sums of the two green samples are numbers of the type (for types of at least one bit). -/
theorem C142_exact (hbits : 0 < t.bits) {X : Tensor t.Word} (hX : X.shape = b ++ [4, h, w]) {p : Pattern} {s : List Char} (hp : p.Spelled s) :
    ∃ z z' : Tensor α, downsample4cWord t X s = .ok z ∧ downsample4c (t.floats X) s = .ok z' ∧ z.shape = z'.shape ∧ ∀ bi i j, InB b bi → i < h → j < w →
      z.get (bi ++ [0, i, j]) = z'.get (bi ++ [0, i, j]) ∧ z.get (bi ++ [2, i, j]) = z'.get (bi ++ [2, i, j]) ∧
      ∀ r c r' c', r < 2 → c < 2 → r' < 2 → c' < 2 → p.color r c = .green → p.color r' c' = .green → (r, c) ≠ (r', c') →
        (z.get (bi ++ [1, i, j]) = z'.get (bi ++ [1, i, j]) ↔ Holdable t (t.value (X.get (bi ++ [2 * r + c, i, j])) + t.value (X.get (bi ++ [2 * r' + c', i, j])))) := by
  have hX' : (t.floats X : Tensor α).shape = b ++ [4, h, w] := hX
  obtain ⟨z, e, s1, g⟩ := C142_four_channels (α := α) hX hp
  obtain ⟨z', e', s1', g'⟩ := C50_four_channels hX' hp
  refine ⟨z, z', e, e', s1.trans s1'.symm, ?_⟩
  intro bi i j hb hi hj
  obtain ⟨q0, q1, q2⟩ := g bi i j hb hi hj
  obtain ⟨q0', q1', q2'⟩ := g' bi i j hb hi hj
  have ex1 : ∃ r, r < 2 ∧ ∃ c, c < 2 ∧ p.color r c = .red := by cases p <;> decide
  have ex2 : ∃ r, r < 2 ∧ ∃ c, c < 2 ∧ p.color r c = .blue := by cases p <;> decide
  have val : ∀ k, k < 4 → (t.floats X : Tensor α).get (bi ++ [k, i, j]) = ((t.value (X.get (bi ++ [k, i, j])) : ℤ) : α) := by
    intro k hk
    exact floats_get (by rw [hX]; exact inB3 hb hk hi hj)
  refine ⟨?_, ?_, ?_⟩
  · obtain ⟨r, hr, c, hc, hcc⟩ := ex1
    rw [q0 r c hr hc hcc, q0' r c hr hc hcc, val _ (by omega)]
  · obtain ⟨r, hr, c, hc, hcc⟩ := ex2
    rw [q2 r c hr hc hcc, q2' r c hr hc hcc, val _ (by omega)]
  · intro r c r' c' hr hc hr' hc' h1 h2 h3
    rw [q1 r c r' c' hr hc hr' hc' h1 h2 h3, q1' r c r' c' hr hc hr' hc' h1 h2 h3, val _ (by omega), val _ (by omega)]
    constructor
    · intro e
      have e2 := (div_left_inj' (two_ne_zero (α := α))).1 e
      have e3 : wrapped t (t.value (X.get (bi ++ [2 * r + c, i, j])) + t.value (X.get (bi ++ [2 * r' + c', i, j]))) =
          t.value (X.get (bi ++ [2 * r + c, i, j])) + t.value (X.get (bi ++ [2 * r' + c', i, j])) := by exact_mod_cast e2
      rw [← e3]
      exact wrapped_holdable _
    · intro hh
      rw [wrapped_id hbits hh, Int.cast_add]

/-- **C142**: with an unsigned type, green is at most half of the largest number of the type. -/
theorem C142_green (hu : t.signed = false) {X : Tensor t.Word} (hX : X.shape = b ++ [4, h, w]) {p : Pattern} {s : List Char} (hp : p.Spelled s) {z : Tensor α}
    (hz : downsample4cWord t X s = .ok z) {bi : List Nat} {i j : Nat} (hb : InB b bi) (hi : i < h) (hj : j < w) :
    0 ≤ z.get (bi ++ [1, i, j]) ∧ z.get (bi ++ [1, i, j]) ≤ (2 ^ t.bits - 1) / 2 := by
  obtain ⟨z', e, _, g⟩ := downsample4cWord_eq (α := α) hX hp
  rw [hz] at e
  cases e
  rw [(g bi i j hb hi hj).2.1]
  generalize t.value (X.get (bi ++ [firstCell p .green, i, j])) + t.value (X.get (bi ++ [lastGreen p, i, j])) = n
  have h0 : (0 : ℤ) < 2 ^ t.bits := by positivity
  have h1 : 0 ≤ wrapped t n := by rw [wrapped, hu]; exact Int.emod_nonneg _ h0.ne'
  have h2 : wrapped t n + 1 ≤ 2 ^ t.bits := by rw [wrapped, hu]; exact Int.emod_lt_of_pos _ h0
  have h1' : (0 : α) ≤ ((wrapped t n : ℤ) : α) := by exact_mod_cast h1
  have h2' : ((wrapped t n : ℤ) : α) + 1 ≤ 2 ^ t.bits := by exact_mod_cast h2
  constructor
  · positivity
  · linarith

theorem pattern_or (s : List Char) : (∃ p : Pattern, p.Spelled s) ∨ ∀ p : Pattern, ¬ p.Spelled s := by
  by_cases h : ∃ p : Pattern, p.Spelled s
  · exact Or.inl h
  · exact Or.inr fun p hp => h ⟨p, hp⟩

/-- **C142**: what is rejected is what is rejected for other numbers. -/
theorem C142_rejects (X : Tensor t.Word) (s : List Char) :
    ((¬ ((∃ b h w, X.shape = b ++ [4, h, w]) ∧ ∃ p : Pattern, p.Spelled s)) → downsample4cWord (α := α) t X s = .error .assertion) ∧
    ((¬ ((∃ b h w, X.shape = b ++ [1, h, w] ∧ h % 2 = 0 ∧ w % 2 = 0) ∧ ∃ p : Pattern, p.Spelled s)) → downsample1cWord (α := α) t X s = .error .assertion) := by
  have key : ∀ X : Tensor t.Word, (¬ ((∃ b h w, X.shape = b ++ [4, h, w]) ∧ ∃ p : Pattern, p.Spelled s)) → downsample4cWord (α := α) t X s = .error .assertion := by
    intro X hn
    rcases checkAlignment_eq s with ⟨p, hp, e⟩ | ⟨_, e⟩
    · have hc : check4c X = .error .assertion := by
        rw [check4c, if_neg]
        rintro ⟨h1, h2⟩
        have := split_shape h1
        rw [h2] at this
        exact hn ⟨⟨_, _, _, this⟩, p, hp⟩
      simp only [downsample4cWord, e, ok_bind, hc]
      rfl
    · simp only [downsample4cWord, e]
      rfl
  refine ⟨key X, fun hn => ?_⟩
  by_cases h1 : ∃ b h w, X.shape = b ++ [1, h, w] ∧ h % 2 = 0 ∧ w % 2 = 0
  · obtain ⟨b, h, w, hX, hh, hw⟩ := h1
    obtain ⟨y, e1, s1, _⟩ := bayer1cTo4c_eq hX hh hw
    rw [downsample1cWord, e1, ok_bind]
    exact key y fun h' => hn ⟨⟨b, h, w, hX, hh, hw⟩, h'.2⟩
  · rw [downsample1cWord, (C46_rejects (fun _ => 0) X).1 h1]
    rfl

/-- **C142**: images of integers are never demosaiced: AssertionError for a name that is not a Bayer pattern, else RuntimeError. -/
theorem C142_demosaic (junk : List Nat → t.Word) (junk' : List Nat → α) (X : Tensor t.Word) (s : List Char) (clamp : α) :
    ((∃ p : Pattern, p.Spelled s) → demosaicWord t junk junk' X s clamp = .error .runtime) ∧
    ((∀ p : Pattern, ¬ p.Spelled s) → demosaicWord t junk junk' X s clamp = .error .assertion) := by
  constructor
  · rintro ⟨p, hp⟩
    obtain ⟨beg, hbeg, _⟩ := begIndex_eq p
    simp only [demosaicWord, bayerForwardWord, checkAlignment_ok hp, ok_bind, hbeg, forPos]
    rfl
  · intro h
    simp only [demosaicWord, bayerForwardWord, C51_rejects s h]
    rfl

end

/-! ## C143 -/

section
variable {α : Type} [Field α] [LinearOrder α] [IsStrictOrderedRing α] {b : List Nat} {h w : Nat} {junk junk' : List Nat → α} {J J' : List Nat → Flt α}
variable {x : Tensor α} {X : Tensor (Flt α)}

theorem agrees_conv (ws : List α) (c : α) : ∀ {l : List α} {l' : List (Flt α)}, List.Forall₂ Flt.Agrees l l' →
    Flt.Agrees ((List.zipWith (fun w v => w * v) ws l).sum + c) ((List.zipWith (fun (w : α) v => Flt.num w * v) ws l').sum + .num c) := by
  intro l l' hl
  refine Flt.agrees_ringRel.add ?_ (Flt.agrees_num c)
  induction ws generalizing l l' with
  | nil => exact Flt.agrees_num 0
  | cons a ws ih =>
    cases hl with
    | nil => exact Flt.agrees_num 0
    | cons h1 h2 =>
      rw [List.zipWith_cons_cons, List.sum_cons, List.zipWith_cons_cons, List.sum_cons]
      exact Flt.agrees_ringRel.add (Flt.agrees_ringRel.mul (Flt.agrees_num a) h1) (ih h2)

theorem rel_forwardCfa (m : BayerConv α) {R : α → Flt α → Prop} (h0 : R 0 0)
    (hc : ∀ ws c (l : List α) (l' : List (Flt α)), List.Forall₂ R l l' →
      R ((List.zipWith (fun w v => w * v) ws l).sum + c) ((List.zipWith (fun (w : α) v => Flt.num w * v) ws l').sum + .num c))
    (hj : ∀ ix, R (junk ix) (J ix)) (hx : x.Rel R X) (s : List Char) : ExRel (Tensor.Rel R) (m.forward junk x s) (m.forwardFlt J X s) := by
  rw [← forwardWith_exact, BayerConv.forwardFlt]
  exact rel_bayerForwardWith h0 (fun p o ix l l' hl _ => hc (m.weights p o) (m.bias p o) l l' hl) hj hx s

/-- **C143.** Convolution of an image with entries that are not finite: the same exception as for the numbers, or an image of the same shape with the same finite entries.  No assumption on the
weights, the shape or the pattern. -/
theorem C143_forward (m : BayerConv α) (hx : FillsIn x X) (hj : ∀ ix a, J ix = .num a → junk ix = a) (s : List Char) :
    AlikeOutcome (m.forward junk x s) (m.forwardFlt J X s) :=
  alikeOutcome_of (rel_forwardCfa m (Flt.agrees_num 0) (fun ws c _ _ hl => agrees_conv ws c hl) hj (fillsIn_iff.1 hx) s)

/-- **C143**: what the convolution of an image with entries that are not finite returns at a pixel: NaN exactly if the weighted sum of the window is undefined, an infinity exactly if it is not
and an infinite entry pulls this way, and else the sum of the finite products and the bias. -/
theorem C143_filter {m : BayerConv α} (hX : X.shape = b ++ [m.inC, h, w]) (hf : ConvFits b m.inC m.size h w) {p : Pattern} {s : List Char} (hp : p.Spelled s) :
    ∃ Z, m.forwardFlt J X s = .ok Z ∧ Z.shape = b ++ [m.outC, h, w] ∧ ∀ bi o i j, InB b bi → o < m.outC → i < h → j < w →
      ∀ l, l = filterWindow X bi h w m.inC m.size (m.weight (posOf (p.kind i j)) o) i j →
        (Z.get (bi ++ [o, i, j]) = .nan ↔ Undefined l) ∧
        (∀ q, Z.get (bi ++ [o, i, j]) = .inf q ↔ (∃ e ∈ l, Pulls e.1 e.2 q) ∧ ¬ Undefined l) ∧
        (∀ f : Flt α → α, (∀ a, f (.num a) = a) → (∀ e ∈ l, IsFinite e.2) →
          Z.get (bi ++ [o, i, j]) = .num ((l.map fun e => e.1 * f e.2).sum + m.bias (posOf (p.kind i j)) o)) := by
  obtain ⟨Z, h1, h2, h3⟩ := bayerForwardWith_eq J (outC := m.outC)
    (conv := fun p o _ l => (List.zipWith (fun (w : α) v => Flt.num w * v) (m.weights p o) l).sum + .num (m.bias p o)) hX hf hp
  refine ⟨Z, h1, h2, ?_⟩
  rintro bi o i j hb ho hi hj l rfl
  have e1 : List.zipWith (fun (w : α) v => Flt.num w * v) (m.weights (posOf (p.kind i j)) o) (patch X bi h w m.inC m.size i j) =
      (filterWindow X bi h w m.inC m.size (m.weight (posOf (p.kind i j)) o) i j).map fun e => Flt.num e.1 * e.2 := by
    rw [weights_eq, patch, zipWith_maps, filterWindow, cells_map m.inC m.size fun k a c => (m.weight (posOf (p.kind i j)) o k a c,
      X.get (bi ++ [k, reflC h ((i : Int) + a - (m.size / 2 : Nat)), reflC w ((j : Int) + c - (m.size / 2 : Nat))])), List.map_map]
    rfl
  rw [h3 bi o i j hb ho hi hj, e1]
  generalize filterWindow X bi h w m.inC m.size (m.weight (posOf (p.kind i j)) o) i j = l
  generalize m.bias (posOf (p.kind i j)) o = c
  refine ⟨?_, ?_, ?_⟩
  · rw [← weighted_nan]
    cases (l.map fun e => Flt.num e.1 * e.2).sum with
    | num a => exact iff_of_false (fun h => by cases h) (fun h => by cases h)
    | inf r => exact iff_of_false (fun h => by cases h) (fun h => by cases h)
    | nan => exact iff_of_true rfl rfl
  · intro q
    rw [← weighted_infinite]
    cases (l.map fun e => Flt.num e.1 * e.2).sum with
    | num a => exact iff_of_false (fun h => by cases h) (fun h => by cases h)
    | inf r => exact Iff.rfl
    | nan => exact iff_of_false (fun h => by cases h) (fun h => by cases h)
  · intro f hf hfin
    have e2 : (l.map fun e => Flt.num e.1 * e.2) = (l.map fun e => e.1 * f e.2).map Flt.num := by
      rw [List.map_map]
      refine List.map_congr_left fun e he => ?_
      obtain ⟨a, ha⟩ := hfin e he
      simp only [Function.comp, ha, hf]
      rfl
    rw [e2, Flt.sum_map_num]
    rfl

theorem demosaicFlt_eq (hX : X.shape = b ++ [1, h, w]) (hf : ConvFits b 1 5 h w) {p : Pattern} {s : List Char} (hp : p.Spelled s) (clamp : α) :
    ∃ Z, demosaicFlt J J' X s clamp = .ok Z ∧ Z.shape = b ++ [3, h, w] ∧ ∀ bi t i j, InB b bi → i < h → j < w → Z.get (bi ++ [t.channel, i, j]) =
      Flt.clampTo 0 clamp (if t = p.color i j then X.get (bi ++ [0, i, j]) else ((malvarWindow (p.kind i j) t (around X bi h w i j)).map fun e => Flt.num e.1 * e.2).sum) := by
  obtain ⟨m, e0, h1, h2, h3, h4, h5⟩ := pretrained_wf (α := α)
  obtain ⟨y, e1, s1, g1⟩ := bayerForwardWith_eq J (outC := m.outC) (x := X) (b := b) (h := h) (w := w) (inC := m.inC) (size := m.size)
    (conv := fun p o _ l => (List.zipWith (fun (w : α) v => Flt.num w * v) (m.weights p o) l).sum + .num (m.bias p o)) (by rw [h1]; exact hX) (by rw [h1, h3]; exact hf) hp
  have e1' : m.forwardFlt J X s = .ok y := e1
  rw [h2] at s1 g1
  obtain ⟨z, e2, s2, g2⟩ := lastStep_eq J' hX s1 hp
  refine ⟨z.map (Flt.clampTo 0 clamp), by simp only [demosaicFlt, e0, ok_bind, e1', e2], s2, ?_⟩
  intro bi t i j hb hi hj
  have key : ∀ o, o < 2 → y.get (bi ++ [o, i, j]) = ((malvarWindow (p.kind i j) (if o = 0 then (p.color i j).others.1 else (p.color i j).others.2) (around X bi h w i j)).map
      fun e => Flt.num e.1 * e.2).sum := by
    intro o ho
    rw [g1 bi o i j hb ho hi hj, weights_five h1 h3 h4 _ ho, h1, h3, patch_five, zipWith_maps, h5, kind_posOf, colorOf_kind, malvarWindow, List.map_map]
    exact add_zero _
  rw [get_map _ _ (by rw [s2]; exact inB3 hb (channel_lt t) hi hj), g2 bi t.channel i j hb (channel_lt t) hi hj, lastValue, key 0 (by omega), key 1 (by omega)]
  congr 1
  cases p.color i j <;> cases t <;> simp [Color.channel, Color.others]

/-- **C143**: demosaicing an image with entries that are not finite raises what demosaicing any image of this shape raises, and else returns an image of the same shape. -/
theorem C143_outcome (hx : x.shape = X.shape) (s : List Char) (clamp : α) :
    (∃ e, demosaic junk junk' x s clamp = .error e ∧ demosaicFlt J J' X s clamp = .error e) ∨
      ∃ z Z, demosaic junk junk' x s clamp = .ok z ∧ demosaicFlt J J' X s clamp = .ok Z ∧ z.shape = Z.shape := by
  obtain ⟨m, e0, _⟩ := pretrained_wf (α := α)
  have h := (rel_forwardCfa (junk := junk) (J := J) m (R := fun _ _ => True) trivial (fun _ _ _ _ _ => trivial) (fun _ => trivial) (rel_true hx) s).bind fun y Y hy =>
    (rel_lastStep (junk := junk') (junk' := J') trivial (fun _ => trivial) (rel_true hx) hy s).bind fun z Z hz =>
      ExRel.ok (P := Tensor.Rel fun (_ : α) (_ : Flt α) => True) (hz.map (f := clampTo 0 clamp) (g := Flt.clampTo 0 clamp) trivial fun _ _ _ => trivial)
  have h' : ExRel (Tensor.Rel fun (_ : α) (_ : Flt α) => True) (demosaic junk junk' x s clamp) (demosaicFlt J J' X s clamp) := by
    simp only [demosaic, demosaicFlt, e0, ok_bind, BayerConv.interpolate]
    exact h
  rcases h'.cases with ⟨e, h1, h2⟩ | ⟨z, Z, h1, h2, h3⟩
  · exact Or.inl ⟨e, h1, h2⟩
  · exact Or.inr ⟨z, Z, h1, h2, h3.shape⟩

/-- **C143**: the estimates of demosaicing.  NaN exactly if the weighted sum of the 5 x 5 window is undefined; an infinite sum is clamped, and looks like a white or a black sample. -/
theorem C143_estimate (hX : X.shape = b ++ [1, h, w]) (hf : ConvFits b 1 5 h w) {p : Pattern} {s : List Char} (hp : p.Spelled s) (clamp : α) :
    ∃ Z, demosaicFlt J J' X s clamp = .ok Z ∧ Z.shape = b ++ [3, h, w] ∧ ∀ bi t i j, InB b bi → i < h → j < w → t ≠ p.color i j →
      ∀ l, l = malvarWindow (p.kind i j) t (around X bi h w i j) →
        (Z.get (bi ++ [t.channel, i, j]) = .nan ↔ Undefined l) ∧
        ((∃ e ∈ l, Pulls e.1 e.2 false) → ¬ Undefined l → Z.get (bi ++ [t.channel, i, j]) = .num clamp) ∧
        ((∃ e ∈ l, Pulls e.1 e.2 true) → ¬ Undefined l → Z.get (bi ++ [t.channel, i, j]) = .num (min 0 clamp)) := by
  obtain ⟨Z, h1, h2, h3⟩ := demosaicFlt_eq (J := J) (J' := J') hX hf hp clamp
  refine ⟨Z, h1, h2, ?_⟩
  rintro bi t i j hb hi hj ht l rfl
  rw [h3 bi t i j hb hi hj, if_neg ht]
  generalize malvarWindow (p.kind i j) t (around X bi h w i j) = l
  refine ⟨?_, ?_, ?_⟩
  · rw [← weighted_nan]
    cases (l.map fun e => Flt.num e.1 * e.2).sum with
    | num a => exact iff_of_false (fun h => by cases h) (fun h => by cases h)
    | inf r => exact iff_of_false (fun h => by cases r <;> cases h) (fun h => by cases h)
    | nan => exact iff_of_true rfl rfl
  · intro h1 h2
    rw [(weighted_infinite false).2 ⟨h1, h2⟩]
    rfl
  · intro h1 h2
    rw [(weighted_infinite true).2 ⟨h1, h2⟩]
    rfl

/-- **C143**: the measured samples: NaN stays, infinities are clamped. -/
theorem C143_measured (hX : X.shape = b ++ [1, h, w]) (hf : ConvFits b 1 5 h w) {p : Pattern} {s : List Char} (hp : p.Spelled s) (clamp : α) :
    ∃ Z, demosaicFlt J J' X s clamp = .ok Z ∧ ∀ bi i j, InB b bi → i < h → j < w →
      (X.get (bi ++ [0, i, j]) = .nan → Z.get (bi ++ [(p.color i j).channel, i, j]) = .nan) ∧
      (X.get (bi ++ [0, i, j]) = .inf false → Z.get (bi ++ [(p.color i j).channel, i, j]) = .num clamp) ∧
      (X.get (bi ++ [0, i, j]) = .inf true → Z.get (bi ++ [(p.color i j).channel, i, j]) = .num (min 0 clamp)) ∧
      ∀ a, X.get (bi ++ [0, i, j]) = .num a → Z.get (bi ++ [(p.color i j).channel, i, j]) = .num (min (max a 0) clamp) := by
  obtain ⟨Z, h1, h2, h3⟩ := demosaicFlt_eq (J := J) (J' := J') hX hf hp clamp
  refine ⟨Z, h1, fun bi i j hb hi hj => ?_⟩
  rw [h3 bi _ i j hb hi hj, if_pos rfl]
  refine ⟨fun h => by rw [h]; rfl, fun h => by rw [h]; rfl, fun h => by rw [h]; rfl, fun a h => by rw [h]; rfl⟩

/-- **C143**: where the 5 x 5 window (continued by reflection) is finite, demosaicing returns what it returns for any image with the same finite samples. -/
theorem C143_finite (hx : FillsIn x X) (hX : X.shape = b ++ [1, h, w]) (hf : ConvFits b 1 5 h w) {p : Pattern} {s : List Char} (hp : p.Spelled s) (clamp : α) :
    ∃ z Z, demosaic junk junk' x s clamp = .ok z ∧ demosaicFlt J J' X s clamp = .ok Z ∧ ∀ bi (t : Color) i j, InB b bi → i < h → j < w →
      (∀ d ∈ offsets, IsFinite (around X bi h w i j d.1 d.2)) → Z.get (bi ++ [t.channel, i, j]) = .num (z.get (bi ++ [t.channel, i, j])) := by
  have hx' : x.shape = b ++ [1, h, w] := hx.1.trans hX
  obtain ⟨Z, h1, h2, h3⟩ := demosaicFlt_eq (J := J) (J' := J') hX hf hp clamp
  obtain ⟨z, k1, k2, k3⟩ := demosaic_eq junk junk' hx' hf hp clamp
  refine ⟨z, Z, k1, h1, fun bi t i j hb hi hj hfin => ?_⟩
  obtain ⟨f1, f2⟩ := ConvFits.four hf
  have hval : ∀ d ∈ offsets, around X bi h w i j d.1 d.2 = .num (around x bi h w i j d.1 d.2) := by
    intro d hd
    obtain ⟨a, ha⟩ := hfin d hd
    have hb2 : ∀ d ∈ offsets, -2 ≤ d.1 ∧ d.1 ≤ 2 ∧ -2 ≤ d.2 ∧ d.2 ≤ 2 := by decide
    obtain ⟨q1, q2, q3, q4⟩ := hb2 d hd
    have hin : InB X.shape (bi ++ [0, reflC h (i + d.1), reflC w (j + d.2)]) := by
      rw [hX]
      exact inB3 hb (by omega) (window_ok f1 hi q1 q2).1 (window_ok f2 hj q3 q4).1
    have := hx.2 _ hin a ha
    rw [ha, around, this]
  rw [h3 bi t i j hb hi hj, k3 bi t i j hb hi hj, demosaicValue]
  by_cases ht : t = p.color i j
  · rw [if_pos ht, if_pos ht]
    have h0 := hval (0, 0) (by decide)
    have r1 : reflC h ((i : Int) + 0) = i := by rw [add_zero, reflC_inside (by omega) (by omega)]; simp
    have r2 : reflC w ((j : Int) + 0) = j := by rw [add_zero, reflC_inside (by omega) (by omega)]; simp
    simp only [around, r1, r2] at h0
    rw [h0]
    rfl
  · rw [if_neg ht, if_neg ht, malvar_sum]
    have e2 : ((malvarWindow (p.kind i j) t (around X bi h w i j)).map fun e => Flt.num e.1 * e.2) =
        (offsets.map fun d => malvarWeight (p.kind i j) t d.1 d.2 * around x bi h w i j d.1 d.2).map Flt.num := by
      rw [malvarWindow, List.map_map, List.map_map]
      refine List.map_congr_left fun d hd => ?_
      simp only [Function.comp, hval d hd]
      rfl
    rw [e2, Flt.sum_map_num]
    rfl

/-- **C143**: the result holds no infinities: every sample is NaN or lies in `[0, clamp]`. -/
theorem C143_range (hX : X.shape = b ++ [1, h, w]) (hf : ConvFits b 1 5 h w) {p : Pattern} {s : List Char} (hp : p.Spelled s) {clamp : α} (hc : 0 ≤ clamp) :
    ∃ Z, demosaicFlt J J' X s clamp = .ok Z ∧ ∀ bi (t : Color) i j, InB b bi → i < h → j < w →
      Z.get (bi ++ [t.channel, i, j]) = .nan ∨ ∃ a, Z.get (bi ++ [t.channel, i, j]) = .num a ∧ 0 ≤ a ∧ a ≤ clamp := by
  obtain ⟨Z, h1, h2, h3⟩ := demosaicFlt_eq (J := J) (J' := J') hX hf hp clamp
  refine ⟨Z, h1, fun bi t i j hb hi hj => ?_⟩
  rw [h3 bi t i j hb hi hj]
  cases (if t = p.color i j then X.get (bi ++ [0, i, j]) else ((malvarWindow (p.kind i j) t (around X bi h w i j)).map fun e => Flt.num e.1 * e.2).sum) with
  | num a => exact Or.inr ⟨_, rfl, clampTo_mem hc a⟩
  | nan => exact Or.inl rfl
  | inf r =>
    cases r
    · exact Or.inr ⟨_, rfl, hc, le_rfl⟩
    · exact Or.inr ⟨_, rfl, by rw [min_eq_left hc], by rw [min_eq_left hc]; exact hc⟩

end

/-! ## C144 -/

section
variable {α : Type} [Field α] [LinearOrder α] [IsStrictOrderedRing α] {b : List Nat} {h w : Nat} {u : α} {dot : Nat → List Nat → List α → List α → α} {x : Tensor α}

theorem demosaicRounded_eq (junk junk' : List Nat → α) (hx : x.shape = b ++ [1, h, w]) (hf : ConvFits b 1 5 h w) {p : Pattern} {s : List Char} (hp : p.Spelled s) (clamp : α) :
    ∃ z, demosaicRounded dot junk junk' x s clamp = .ok z ∧ z.shape = b ++ [3, h, w] ∧ ∀ bi t i j, InB b bi → i < h → j < w → z.get (bi ++ [t.channel, i, j]) =
      clampTo 0 clamp (if t = p.color i j then x.get (bi ++ [0, i, j]) else dot (if t = (p.color i j).others.1 then 0 else 1)
        (bi ++ [if t = (p.color i j).others.1 then 0 else 1, i / 2, j / 2]) (offsets.map fun d => around x bi h w i j d.1 d.2)
        (offsets.map fun d => malvarWeight (p.kind i j) t d.1 d.2)) := by
  obtain ⟨m, e0, h1, h2, h3, h4, h5⟩ := pretrained_wf (α := α)
  obtain ⟨y, e1, s1, g1⟩ := bayerForwardWith_eq junk (outC := m.outC) (x := x) (b := b) (h := h) (w := w) (inC := m.inC) (size := m.size)
    (conv := fun p o ix l => dot o ix l (m.weights p o)) (by rw [h1]; exact hx) (by rw [h1, h3]; exact hf) hp
  rw [h2] at s1 g1
  obtain ⟨z, e2, s2, g2⟩ := lastStep_eq junk' hx s1 hp
  refine ⟨z.map (clampTo 0 clamp), by simp only [demosaicRounded, e0, ok_bind, e1, e2], s2, ?_⟩
  intro bi t i j hb hi hj
  have key : ∀ o, o < 2 → y.get (bi ++ [o, i, j]) = dot o (bi ++ [o, i / 2, j / 2]) (offsets.map fun d => around x bi h w i j d.1 d.2)
      (offsets.map fun d => malvarWeight (p.kind i j) (if o = 0 then (p.color i j).others.1 else (p.color i j).others.2) d.1 d.2) := by
    intro o ho
    rw [g1 bi o i j hb ho hi hj, weights_five h1 h3 h4 _ ho, h1, h3, patch_five, kind_posOf, colorOf_kind]
  rw [get_map _ _ (by rw [s2]; exact inB3 hb (channel_lt t) hi hj), g2 bi t.channel i j hb (channel_lt t) hi hj, lastValue, key 0 (by omega), key 1 (by omega)]
  congr 1
  cases p.color i j <;> cases t <;> simp [Color.channel, Color.others]

theorem clamp_near (clamp a c : α) : |clampTo 0 clamp a - clampTo 0 clamp c| ≤ |a - c| := by
  simp only [clampTo]
  exact (abs_min_sub_min_le_max _ _ _ _).trans (by simpa using (abs_max_sub_max_le_max a 0 c 0))

/-- **C144**: whatever the arithmetic: the same exception as with exact arithmetic, or an image of the same shape. -/
theorem C144_outcome (dot : Nat → List Nat → List α → List α → α) (junk junk' : List Nat → α) (x : Tensor α) (s : List Char) (clamp : α) :
    (∃ e, demosaic junk junk' x s clamp = .error e ∧ demosaicRounded dot junk junk' x s clamp = .error e) ∨
      ∃ z z', demosaic junk junk' x s clamp = .ok z ∧ demosaicRounded dot junk junk' x s clamp = .ok z' ∧ z.shape = z'.shape := by
  obtain ⟨m, e0, _⟩ := pretrained_wf (α := α)
  have hR : x.Rel (fun _ _ : α => True) x := rel_of_get trivial rfl fun _ _ => trivial
  have h := (rel_bayerForwardWith (R := fun _ _ : α => True) (inC := m.inC) (outC := m.outC) (size := m.size) (conv := m.exact) (conv' := fun p o ix l => dot o ix l (m.weights p o))
    trivial (fun _ _ _ _ _ _ _ => trivial) (junk := junk) (junk' := junk) (fun _ => trivial) hR s).bind fun y y' hy =>
    (rel_lastStep (junk := junk') (junk' := junk') trivial (fun _ => trivial) hR hy s).bind fun z z' hz =>
      ExRel.ok (P := Tensor.Rel fun _ _ : α => True) (hz.map (f := clampTo 0 clamp) (g := clampTo 0 clamp) trivial fun _ _ _ => trivial)
  have h' : ExRel (Tensor.Rel fun _ _ : α => True) (demosaic junk junk' x s clamp) (demosaicRounded dot junk junk' x s clamp) := by
    simp only [demosaic, demosaicRounded, e0, ok_bind, BayerConv.interpolate, ← forwardWith_exact]
    exact h
  rcases h'.cases with ⟨e, h1, h2⟩ | ⟨z, Z, h1, h2, h3⟩
  · exact Or.inl ⟨e, h1, h2⟩
  · exact Or.inr ⟨z, Z, h1, h2, h3.shape⟩

/-- **C144**: with exact scalar products it is the code of the other properties. -/
theorem C144_exact (junk junk' : List Nat → α) (x : Tensor α) (s : List Char) (clamp : α) :
    demosaicRounded (fun _ _ l w => (List.zipWith (fun a v => a * v) w l).sum) junk junk' x s clamp = demosaic junk junk' x s clamp := by
  obtain ⟨m, e0, _, _, _, _, h5⟩ := pretrained_wf (α := α)
  have he : (fun p o (_ : List Nat) l => (List.zipWith (fun a v => a * v) (m.weights p o) l).sum) = m.exact := by
    funext p o ix l
    rw [BayerConv.exact, h5, add_zero]
  simp only [demosaic, demosaicRounded, e0, ok_bind, BayerConv.interpolate, ← forwardWith_exact, he]

/-- **C144**: measured samples are not rounded, and every estimate is off by at most `(1 + u) ^ 26 - 1` times the absolute weights applied to the absolute values of its window. -/
theorem C144_error (hu : 0 ≤ u) (hd : AccurateDot u dot) (junk junk' : List Nat → α) (hx : x.shape = b ++ [1, h, w]) (hf : ConvFits b 1 5 h w) {p : Pattern} {s : List Char}
    (hp : p.Spelled s) (clamp : α) :
    ∃ z z', demosaic junk junk' x s clamp = .ok z ∧ demosaicRounded dot junk junk' x s clamp = .ok z' ∧ z'.shape = b ++ [3, h, w] ∧ ∀ bi t i j, InB b bi → i < h → j < w →
      (t = p.color i j → z'.get (bi ++ [t.channel, i, j]) = z.get (bi ++ [t.channel, i, j])) ∧
      |z'.get (bi ++ [t.channel, i, j]) - z.get (bi ++ [t.channel, i, j])| ≤ roundingBound u 26 * malvarScale (p.kind i j) t (around x bi h w i j) := by
  obtain ⟨z, k1, k2, k3⟩ := demosaic_eq junk junk' hx hf hp clamp
  obtain ⟨z', h1, h2, h3⟩ := demosaicRounded_eq (dot := dot) junk junk' hx hf hp clamp
  refine ⟨z, z', k1, h1, h2, fun bi t i j hb hi hj => ?_⟩
  rw [h3 bi t i j hb hi hj, k3 bi t i j hb hi hj, demosaicValue]
  have hs : 0 ≤ malvarScale (p.kind i j) t (around x bi h w i j) := List.sum_nonneg (by
    intro a ha
    obtain ⟨d, _, rfl⟩ := List.mem_map.1 ha
    positivity)
  by_cases ht : t = p.color i j
  · rw [if_pos ht, if_pos ht]
    refine ⟨fun _ => rfl, ?_⟩
    rw [sub_self, abs_zero]
    exact mul_nonneg (roundingBound_nonneg hu _) hs
  · rw [if_neg ht, if_neg ht, malvar_sum]
    refine ⟨fun h => absurd h ht, (clamp_near _ _ _).trans ?_⟩
    generalize p.kind i j = k
    generalize around x bi h w i j = v
    set W := offsets.map fun d => malvarWeight (α := α) k t d.1 d.2 with hW
    set V := offsets.map fun d => v d.1 d.2 with hV
    have hlen : W.length = 25 := by rw [hW, List.length_map]; rfl
    have hlen' : V.length = 25 := by rw [hV, List.length_map]; rfl
    obtain ⟨w', hw1, hw2, hw3⟩ := hd (if t = (p.color i j).others.1 then 0 else 1) (bi ++ [if t = (p.color i j).others.1 then 0 else 1, i / 2, j / 2]) V W
      (by intro h; rw [h] at hlen; cases hlen) (hlen'.trans hlen.symm)
    have hc := hw3.chain hu (e := u) (f := fun j => W.getD j 0 * V.getD j 0) (F := fun j => |W.getD j 0| * |V.getD j 0|) (by
      intro j hj
      have := hw2 j hj
      rw [Rounds] at this
      rw [← sub_mul, abs_mul, ← mul_assoc]
      exact mul_le_mul_of_nonneg_right this (abs_nonneg _)) (fun j _ => (abs_mul _ _).le)
    have e1 : ((List.range W.length).map fun j => W.getD j 0 * V.getD j 0).sum = (offsets.map fun d => malvarWeight k t d.1 d.2 * v d.1 d.2).sum := by
      rfl
    have e2 : ((List.range W.length).map fun j => |W.getD j 0| * |V.getD j 0|).sum = malvarScale k t v := by
      rw [malvarScale]
      rfl
    rw [e1, e2, hlen] at hc
    refine hc.trans (le_of_eq ?_)
    rw [roundingBound, ← pow_succ']

/-- **C144**: the scale is at most 5/2 of the largest absolute value, and at most twice this value for green at red and blue pixels. -/
theorem C144_scale {M : α} {v : Int → Int → α} (hv : ∀ d ∈ offsets, |v d.1 d.2| ≤ M) (k : Kind) (t : Color) (ht : t ≠ colorOf k) :
    malvarScale k t v ≤ 5 / 2 * M ∧ (t = .green → malvarScale k t v ≤ 2 * M) := by
  have hM : 0 ≤ M := (abs_nonneg _).trans (hv (0, 0) (by decide))
  have key : malvarScale k t v ≤ (offsets.map fun d => |malvarWeight (α := α) k t d.1 d.2|).sum * M := by
    rw [malvarScale, ← List.sum_map_mul_right]
    exact List.sum_le_sum fun d hd => mul_le_mul_of_nonneg_left (hv d hd) (abs_nonneg _)
  have hs : (offsets.map fun d => |malvarWeight (α := α) k t d.1 d.2|).sum = if t = .green then 2 else 5 / 2 := by
    cases k <;> cases t <;> first | exact absurd rfl ht | skip
    all_goals
      simp [offsets, malvarWeight, rowWeight, abs_of_pos]
      norm_num
  rw [hs] at key
  split_ifs at key with h
  · exact ⟨by linarith, fun _ => key⟩
  · exact ⟨key, fun h' => absurd h' h⟩

/-- **C144**: the result keeps the range, whatever the arithmetic. -/
theorem C144_range (junk junk' : List Nat → α) (hx : x.shape = b ++ [1, h, w]) (hf : ConvFits b 1 5 h w) {p : Pattern} {s : List Char} (hp : p.Spelled s) {clamp : α} (hc : 0 ≤ clamp) :
    ∃ z', demosaicRounded dot junk junk' x s clamp = .ok z' ∧ ∀ bi (t : Color) i j, InB b bi → i < h → j < w →
      0 ≤ z'.get (bi ++ [t.channel, i, j]) ∧ z'.get (bi ++ [t.channel, i, j]) ≤ clamp := by
  obtain ⟨z', h1, _, h3⟩ := demosaicRounded_eq (dot := dot) junk junk' hx hf hp clamp
  refine ⟨z', h1, fun bi t i j hb hi hj => ?_⟩
  rw [h3 bi t i j hb hi hj]
  exact clampTo_mem hc _

end

namespace CfaWithExample

/-- unsigned bytes -/
def u8 : IntType := ⟨8, false⟩

/-- a mosaic of four channels with one pixel -/
def four (l : List Nat) : Tensor u8.Word := Tensor.ofFn [4, 1, 1] fun ix => BitVec.ofNat 8 (l.getD (ix.getD 0 0) 0)

/-- C142: the mean of 10 and 21, with the red and the blue sample -/
example : (downsample4cWord u8 (four [7, 10, 21, 9]) ['R', 'G', 'G', 'B'] : Except Err (Tensor ℚ)).toOption.map (·.data) = some [7, 31 / 2, 9] := by decide +kernel

/-- C142: the green of a white pixel is 127, of a mosaic with greens of 200 it is 72 -/
example : (downsample4cWord u8 (four [255, 255, 255, 255]) ['R', 'G', 'G', 'B'] : Except Err (Tensor ℚ)).toOption.map (·.data) = some [255, 127, 255] ∧
    (downsample4cWord u8 (four [200, 200, 200, 200]) ['R', 'G', 'G', 'B'] : Except Err (Tensor ℚ)).toOption.map (·.data) = some [200, 72, 200] := by decide +kernel

/-- C142: the mosaic with one channel -/
example : (downsample1cWord u8 (Tensor.ofFn [1, 2, 2] fun ix => BitVec.ofNat 8 (100 + 50 * ix.getD 1 0 + ix.getD 2 0)) ['g', 'r', 'b', 'g'] : Except Err (Tensor ℚ)).toOption.map
    (·.data) = some [101, (251 : ℚ) / 2, 150] := by decide +kernel

/-- C142: integers are not demosaiced -/
example : (demosaicWord u8 (fun _ => 0) (fun _ => 0) (Tensor.ofFn [1, 4, 4] fun _ => 5) ['R', 'G', 'G', 'B'] 1 : Except Err (Tensor ℚ)).toOption.map (·.data) = none := by decide +kernel

/-- one sample, everything else zero -/
def spot (v : Flt ℚ) : Tensor (Flt ℚ) := Tensor.ofFn [1, 6, 6] fun ix => if ix = [0, 2, 2] then v else 0

/-- some samples of the result -/
def look (v : Flt ℚ) : Option (List (Flt ℚ)) := (demosaicFlt (fun _ => 0) (fun _ => 0) (spot v) ['R', 'G', 'G', 'B'] 1).toOption.map fun z =>
  [z.get [0, 2, 2], z.get [1, 2, 2], z.get [2, 2, 2], z.get [1, 2, 4], z.get [1, 1, 1], z.get [0, 2, 1], z.get [1, 0, 0], z.get [0, 2, 4], z.get [2, 5, 5]]

/-- C143: infinities look like white and black samples or make the estimate NaN; the samples measured elsewhere, and pixels with other windows, are not touched -/
example : look (.inf false) = some [.num 1, .num 1, .num 1, .num 0, .nan, .num 1, .nan, .num 0, .num 0] ∧
    look (.inf true) = some [.num 0, .num 0, .num 0, .num 1, .nan, .num 0, .nan, .num 0, .num 0] ∧
    look .nan = some [.nan, .nan, .nan, .nan, .nan, .nan, .nan, .num 0, .num 0] := by decide +kernel

theorem fits : ConvFits [] 1 5 6 6 := by
  refine ⟨?_, ?_, ?_, ?_, ?_, ?_, ?_⟩ <;> simp

/-- C143: weighted sums that are not defined, and one that is -/
example : Undefined [((0 : ℚ), .inf false)] ∧ Undefined [((1 : ℚ), .inf false), (2, .inf true)] ∧ ¬ Undefined [((1 : ℚ), .inf false), (-2, .inf true), (0, .num 5)] := by
  refine ⟨Or.inr (Or.inl ⟨_, List.mem_singleton.2 rfl, rfl, false, rfl⟩), ?_, ?_⟩
  · rw [← weighted_nan]
    decide +kernel
  · rw [← weighted_nan]
    decide +kernel

/-- C143: a convolution of the library on an image with an infinite sample -/
example : ∃ Z, demosaicFlt (fun _ => 0) (fun _ => 0) (spot (.inf false)) ['R', 'G', 'G', 'B'] 1 = .ok Z ∧ Z.get [1, 1, 1] = .nan := by
  obtain ⟨Z, h1, _, h3⟩ := C143_estimate (b := []) (h := 6) (w := 6) (X := spot (.inf false)) (J := fun _ => 0) (J' := fun _ => 0) rfl fits (p := .rggb)
    ((spelled_iff .rggb ['R', 'G', 'G', 'B']).2 (by decide)) 1
  refine ⟨Z, h1, ((h3 [] .green 1 1 trivial (by omega) (by omega) (by decide) _ rfl).1).2 ?_⟩
  rw [← weighted_nan]
  decide +kernel

/-- an image of samples between -12 and 23 -/
def ramp : Tensor ℚ := Tensor.ofFn [1, 6, 6] fun ix => (6 * ix.getD 1 0 + ix.getD 2 0 : Nat) - 12

/-- C144: arithmetic that rounds everything up by a percent -/
example : ∃ z z', demosaic (fun _ => 0) (fun _ => 0) ramp ['R', 'G', 'G', 'B'] 30 = .ok z ∧
    demosaicRounded (upDot (1 / 100)) (fun _ => 0) (fun _ => 0) ramp ['R', 'G', 'G', 'B'] 30 = .ok z' ∧ z' ≠ z ∧
      |z'.get [1, 3, 3] - z.get [1, 3, 3]| ≤ roundingBound (1 / 100) 26 * malvarScale .blue .green (around ramp [] 6 6 3 3) := by
  obtain ⟨z, z', h1, h2, _, h4⟩ := C144_error (u := 1 / 100) (by norm_num) (upDot_accurate (by norm_num)) (fun _ => 0) (fun _ => 0) (x := ramp) (b := []) (h := 6) (w := 6) rfl fits
    (p := .rggb) ((spelled_iff .rggb ['R', 'G', 'G', 'B']).2 (by decide)) 30
  refine ⟨z, z', h1, h2, ?_, (h4 [] .green 3 3 trivial (by omega) (by omega)).2⟩
  rintro rfl
  have : (demosaic (fun _ => 0) (fun _ => 0) ramp ['R', 'G', 'G', 'B'] 30).toOption.map (·.get [1, 3, 3]) ≠
      (demosaicRounded (upDot (1 / 100)) (fun _ => 0) (fun _ => 0) ramp ['R', 'G', 'G', 'B'] 30).toOption.map (·.get [1, 3, 3]) := by decide +kernel
  rw [h1, h2] at this
  exact this rfl

/-- C144: the scale of an estimate -/
example : malvarScale .blue .green (around ramp [] 6 6 3 3) = 75 / 4 ∧ malvarScale .blue .red (around ramp [] 6 6 3 3) ≤ 5 / 2 * 23 := by
  simp only [malvarScale, abs_eq_max_neg]
  decide +kernel

end CfaWithExample

end TI
