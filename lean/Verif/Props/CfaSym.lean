import Verif.Spec.CfaSym
import Verif.Props.Cfa

/-!
# Symmetries of demosaicing (C107)
-/

set_option linter.unusedSectionVars false

namespace TI
open Tensor Spec

section patterns

theorem swap_color (p : Pattern) (i j : Nat) : p.swap.color i j = (p.color i j).swap := by
  have hi : i % 2 = 0 ∨ i % 2 = 1 := by omega
  have hj : j % 2 = 0 ∨ j % 2 = 1 := by omega
  cases p <;> rcases hi with hi | hi <;> rcases hj with hj | hj <;> simp [Pattern.color, Pattern.swap, Color.swap, hi, hj]

theorem mirror_color (p : Pattern) (i j : Nat) : p.mirror.color i (j + 1) = p.color i j := by
  have hi : i % 2 = 0 ∨ i % 2 = 1 := by omega
  have hj : j % 2 = 0 ∧ (j + 1) % 2 = 1 ∨ j % 2 = 1 ∧ (j + 1) % 2 = 0 := by omega
  cases p <;> rcases hi with hi | hi <;> rcases hj with ⟨hj, hj'⟩ | ⟨hj, hj'⟩ <;> simp [Pattern.color, Pattern.mirror, hi, hj, hj']

theorem upturn_color (p : Pattern) (i j : Nat) : p.upturn.color (i + 1) j = p.color i j := by
  have hj : j % 2 = 0 ∨ j % 2 = 1 := by omega
  have hi : i % 2 = 0 ∧ (i + 1) % 2 = 1 ∨ i % 2 = 1 ∧ (i + 1) % 2 = 0 := by omega
  cases p <;> rcases hj with hj | hj <;> rcases hi with ⟨hi, hi'⟩ | ⟨hi, hi'⟩ <;> simp [Pattern.color, Pattern.upturn, hi, hj, hi']

theorem transpose_color (p : Pattern) (i j : Nat) : p.transpose.color i j = p.color j i := by
  have hi : i % 2 = 0 ∨ i % 2 = 1 := by omega
  have hj : j % 2 = 0 ∨ j % 2 = 1 := by omega
  cases p <;> rcases hi with hi | hi <;> rcases hj with hj | hj <;> simp [Pattern.color, Pattern.transpose, hi, hj]

theorem color_congr (p : Pattern) {i i' j j' : Nat} (hi : i % 2 = i' % 2) (hj : j % 2 = j' % 2) : p.color i j = p.color i' j' := by
  rw [← color_mod p i j, ← color_mod p i' j', hi, hj]

theorem kind_congr (p : Pattern) {i i' j j' : Nat} (hi : i % 2 = i' % 2) (hj : j % 2 = j' % 2) : p.kind i j = p.kind i' j' := by
  rw [Pattern.kind, Pattern.kind, color_congr p hi hj, color_congr p hi (show (j + 1) % 2 = (j' + 1) % 2 by omega)]

/-- kinds with red and blue exchanged -/
def swapKind : Kind → Kind
  | .red => .blue
  | .blue => .red
  | .greenInRed => .greenInBlue
  | .greenInBlue => .greenInRed

/-- kinds with rows and columns exchanged -/
def transposeKind : Kind → Kind
  | .red => .red
  | .blue => .blue
  | .greenInRed => .greenInBlue
  | .greenInBlue => .greenInRed

theorem swap_kind (p : Pattern) (i j : Nat) : p.swap.kind i j = swapKind (p.kind i j) := by
  have hi : i % 2 = 0 ∨ i % 2 = 1 := by omega
  have hj : j % 2 = 0 ∧ (j + 1) % 2 = 1 ∨ j % 2 = 1 ∧ (j + 1) % 2 = 0 := by omega
  cases p <;> rcases hi with hi | hi <;> rcases hj with ⟨hj, hj'⟩ | ⟨hj, hj'⟩ <;> simp [Pattern.kind, Pattern.color, Pattern.swap, swapKind, hi, hj, hj']

theorem transpose_kind (p : Pattern) (i j : Nat) : p.transpose.kind i j = transposeKind (p.kind j i) := by
  have hi : i % 2 = 0 ∧ (i + 1) % 2 = 1 ∨ i % 2 = 1 ∧ (i + 1) % 2 = 0 := by omega
  have hj : j % 2 = 0 ∧ (j + 1) % 2 = 1 ∨ j % 2 = 1 ∧ (j + 1) % 2 = 0 := by omega
  cases p <;> rcases hi with ⟨hi, hi'⟩ | ⟨hi, hi'⟩ <;> rcases hj with ⟨hj, hj'⟩ | ⟨hj, hj'⟩ <;>
    simp [Pattern.kind, Pattern.color, Pattern.transpose, transposeKind, hi, hj, hj', hi']

theorem mirror_kind (p : Pattern) (i j : Nat) : p.mirror.kind i (j + 1) = p.kind i j := by
  rw [Pattern.kind, Pattern.kind, mirror_color, mirror_color]

theorem upturn_kind (p : Pattern) (i j : Nat) : p.upturn.kind (i + 1) j = p.kind i j := by
  rw [Pattern.kind, Pattern.kind, upturn_color, upturn_color]

theorem upturn_upturn (p : Pattern) : p.upturn.upturn = p := by cases p <;> rfl

theorem mirror_mirror (p : Pattern) : p.mirror.mirror = p := by cases p <;> rfl

theorem from_color (p : Pattern) (r c i j : Nat) : (p.from r c).color i j = p.color (r + i) (c + j) := by
  have h1 : (if r % 2 = 1 then p.upturn else p).color i (c + j) = p.color (r + i) (c + j) := by
    split_ifs with hr
    · rw [← upturn_color p.upturn, upturn_upturn]
      exact color_congr p (by omega) rfl
    · exact color_congr p (by omega) rfl
  rw [Pattern.from, ← h1]
  generalize (if r % 2 = 1 then p.upturn else p) = q
  split_ifs with hc
  · rw [← mirror_color q.mirror, mirror_mirror]
    exact color_congr _ rfl (by omega)
  · exact color_congr _ rfl (by omega)

theorem from_kind (p : Pattern) (r c i j : Nat) : (p.from r c).kind i j = p.kind (r + i) (c + j) := by
  rw [Pattern.kind, Pattern.kind, from_color, from_color]
  rfl

end patterns

section
variable {α : Type} [Field α] [LinearOrder α] [IsStrictOrderedRing α] {b : List Nat} {h w : Nat}

/-- the estimate depends on the samples at most two rows and columns away -/
theorem malvar_near (k : Kind) (t : Color) {v v' : Int → Int → α} (hv : ∀ di dj : Int, -2 ≤ di → di ≤ 2 → -2 ≤ dj → dj ≤ 2 → v di dj = v' di dj) :
    malvar k t v = malvar k t v' := by
  simp only [malvar]
  rw [hv 0 0 (by omega) (by omega) (by omega) (by omega), hv (-1) 0 (by omega) (by omega) (by omega) (by omega),
    hv 1 0 (by omega) (by omega) (by omega) (by omega), hv 0 (-1) (by omega) (by omega) (by omega) (by omega),
    hv 0 1 (by omega) (by omega) (by omega) (by omega), hv (-1) (-1) (by omega) (by omega) (by omega) (by omega),
    hv (-1) 1 (by omega) (by omega) (by omega) (by omega), hv 1 (-1) (by omega) (by omega) (by omega) (by omega),
    hv 1 1 (by omega) (by omega) (by omega) (by omega), hv (-2) 0 (by omega) (by omega) (by omega) (by omega),
    hv 2 0 (by omega) (by omega) (by omega) (by omega), hv 0 (-2) (by omega) (by omega) (by omega) (by omega),
    hv 0 2 (by omega) (by omega) (by omega) (by omega)]

theorem malvar_swap (k : Kind) (t : Color) (v : Int → Int → α) : malvar (swapKind k) t.swap v = malvar k t v := by
  cases k <;> cases t <;> rfl

theorem malvar_mirror (k : Kind) (t : Color) (v : Int → Int → α) : malvar k t (fun di dj => v di (-dj)) = malvar k t v := by
  cases k <;> cases t <;> simp only [malvar, neg_neg, neg_zero] <;> ring

theorem malvar_upturn (k : Kind) (t : Color) (v : Int → Int → α) : malvar k t (fun di dj => v (-di) dj) = malvar k t v := by
  cases k <;> cases t <;> simp only [malvar, neg_neg, neg_zero] <;> ring

theorem malvar_transpose (k : Kind) (t : Color) (v : Int → Int → α) : malvar (transposeKind k) t (fun di dj => v dj di) = malvar k t v := by
  cases k <;> cases t <;> simp only [malvar, transposeKind] <;> ring

theorem malvar_scale (k : Kind) (t : Color) (v : Int → Int → α) (c : α) : malvar k t (fun di dj => c * v di dj) = c * malvar k t v := by
  cases k <;> cases t <;> simp only [malvar] <;> ring

theorem _root_.TI.Spec.ConvFits.sides {b : List Nat} (hf : ConvFits b 1 5 h w) : 2 < h ∧ 2 < w := by
  have h1 := hf.fitsH
  have h2 := hf.fitsW
  omega

theorem _root_.TI.Spec.ConvFits.transpose {b : List Nat} (hf : ConvFits b 1 5 h w) : ConvFits b 1 5 w h :=
  ⟨hf.rank, hf.channels, hf.pos, hf.evenW, hf.evenH, hf.fitsW, hf.fitsH⟩

theorem reflC_two {n i : Nat} (hn : 2 < n) (hi : i < n) {d : Int} (h1 : -2 ≤ d) (h2 : d ≤ 2) : reflC n (i + d) < n :=
  reflC_bound (by omega) (by omega) (by omega)

theorem reflC_mirror {n i : Nat} (hn : 2 < n) (hi : i < n) {d : Int} (h1 : -2 ≤ d) (h2 : d ≤ 2) :
    reflC n ((n - 1 - i : Nat) + d) = n - 1 - reflC n (i + -d) := by
  have e1 := reflC_window (n := n) (z := (n - 1 - i : Nat) + d) (by omega) (by omega) (by omega)
  have e2 := reflC_window (n := n) (z := (i : Int) + -d) (by omega) (by omega) (by omega)
  split_ifs at e1 e2 <;> omega

/-- **C107**: when red and blue are exchanged in the name of the pattern, they are exchanged in the result. -/
theorem C107_swapped (junk junk' : List Nat → α) {x : Tensor α} (hx : x.shape = b ++ [1, h, w]) (hf : ConvFits b 1 5 h w) {p : Pattern} {s s' : List Char}
    (hp : p.Spelled s) (hp' : p.swap.Spelled s') (clamp : α) :
    ∃ z z', demosaic junk junk' x s clamp = .ok z ∧ demosaic junk junk' x s' clamp = .ok z' ∧ z.shape = b ++ [3, h, w] ∧ z'.shape = b ++ [3, h, w] ∧
      ∀ bi t i j, InB b bi → i < h → j < w → z'.get (bi ++ [Color.channel t.swap, i, j]) = z.get (bi ++ [Color.channel t, i, j]) := by
  obtain ⟨z, e, hz, hg⟩ := C54_formula junk junk' hx hf hp clamp
  obtain ⟨z', e', hz', hg'⟩ := C54_formula junk junk' hx hf hp' clamp
  refine ⟨z, z', e, e', hz, hz', fun bi t i j hb hi hj => ?_⟩
  rw [hg bi t i j hb hi hj, hg' bi t.swap i j hb hi hj, swap_kind, malvar_swap, swap_color]
  have : (t.swap = (p.color i j).swap) = (t = p.color i j) := by
    cases t <;> cases p.color i j <;> simp [Color.swap]
  simp only [this]

/-- **C107**: the result for the image mirrored from left to right, whose pattern has its columns exchanged, is the mirrored result. -/
theorem C107_mirrored (junk junk' : List Nat → α) {x x' : Tensor α} (hx : x.shape = b ++ [1, h, w]) (hx' : x'.shape = b ++ [1, h, w])
    (hxx : ∀ bi i j, InB b bi → i < h → j < w → x'.get (bi ++ [0, i, w - 1 - j]) = x.get (bi ++ [0, i, j])) (hf : ConvFits b 1 5 h w)
    {p : Pattern} {s s' : List Char} (hp : p.Spelled s) (hp' : p.mirror.Spelled s') (clamp : α) :
    ∃ z z', demosaic junk junk' x s clamp = .ok z ∧ demosaic junk junk' x' s' clamp = .ok z' ∧ z.shape = b ++ [3, h, w] ∧ z'.shape = b ++ [3, h, w] ∧
      ∀ bi t i j, InB b bi → i < h → j < w → z'.get (bi ++ [Color.channel t, i, w - 1 - j]) = z.get (bi ++ [Color.channel t, i, j]) := by
  obtain ⟨z, e, hz, hg⟩ := C54_formula junk junk' hx hf hp clamp
  obtain ⟨z', e', hz', hg'⟩ := C54_formula junk junk' hx' hf hp' clamp
  obtain ⟨hh2, hw2⟩ := hf.sides
  have hev := hf.evenW
  refine ⟨z, z', e, e', hz, hz', fun bi t i j hb hi hj => ?_⟩
  rw [hg bi t i j hb hi hj, hg' bi t i (w - 1 - j) hb hi (by omega), hxx bi i j hb hi hj]
  have h1 : p.mirror.color i (w - 1 - j) = p.color i j := by
    rw [← mirror_color p i j]; exact color_congr _ rfl (by omega)
  have h2 : p.mirror.kind i (w - 1 - j) = p.kind i j := by
    rw [← mirror_kind p i j]; exact kind_congr _ rfl (by omega)
  have h3 : malvar (p.kind i j) t (around x' bi h w i (w - 1 - j)) = malvar (p.kind i j) t (around x bi h w i j) := by
    rw [← malvar_mirror _ _ (around x bi h w i j)]
    refine malvar_near _ _ fun di dj a1 a2 a3 a4 => ?_
    rw [around, around, reflC_mirror hw2 hj a3 a4, hxx bi _ _ hb (reflC_two hh2 hi a1 a2) (reflC_two hw2 hj (by omega) (by omega))]
  rw [h1, h2, h3]

/-- **C107**: the result for the image turned upside down, whose pattern has its rows exchanged, is the result turned upside down. -/
theorem C107_upturned (junk junk' : List Nat → α) {x x' : Tensor α} (hx : x.shape = b ++ [1, h, w]) (hx' : x'.shape = b ++ [1, h, w])
    (hxx : ∀ bi i j, InB b bi → i < h → j < w → x'.get (bi ++ [0, h - 1 - i, j]) = x.get (bi ++ [0, i, j])) (hf : ConvFits b 1 5 h w)
    {p : Pattern} {s s' : List Char} (hp : p.Spelled s) (hp' : p.upturn.Spelled s') (clamp : α) :
    ∃ z z', demosaic junk junk' x s clamp = .ok z ∧ demosaic junk junk' x' s' clamp = .ok z' ∧ z.shape = b ++ [3, h, w] ∧ z'.shape = b ++ [3, h, w] ∧
      ∀ bi t i j, InB b bi → i < h → j < w → z'.get (bi ++ [Color.channel t, h - 1 - i, j]) = z.get (bi ++ [Color.channel t, i, j]) := by
  obtain ⟨z, e, hz, hg⟩ := C54_formula junk junk' hx hf hp clamp
  obtain ⟨z', e', hz', hg'⟩ := C54_formula junk junk' hx' hf hp' clamp
  obtain ⟨hh2, hw2⟩ := hf.sides
  have hev := hf.evenH
  refine ⟨z, z', e, e', hz, hz', fun bi t i j hb hi hj => ?_⟩
  rw [hg bi t i j hb hi hj, hg' bi t (h - 1 - i) j hb (by omega) hj, hxx bi i j hb hi hj]
  have h1 : p.upturn.color (h - 1 - i) j = p.color i j := by
    rw [← upturn_color p i j]; exact color_congr _ (by omega) rfl
  have h2 : p.upturn.kind (h - 1 - i) j = p.kind i j := by
    rw [← upturn_kind p i j]; exact kind_congr _ (by omega) rfl
  have h3 : malvar (p.kind i j) t (around x' bi h w (h - 1 - i) j) = malvar (p.kind i j) t (around x bi h w i j) := by
    rw [← malvar_upturn _ _ (around x bi h w i j)]
    refine malvar_near _ _ fun di dj a1 a2 a3 a4 => ?_
    rw [around, around, reflC_mirror hh2 hi a1 a2, hxx bi _ _ hb (reflC_two hh2 hi (by omega) (by omega)) (reflC_two hw2 hj a3 a4)]
  rw [h1, h2, h3]

/-- **C107**: the result for the image with rows and columns exchanged, and the pattern likewise, is the result with rows and columns exchanged. -/
theorem C107_transposed (junk junk' : List Nat → α) {x x' : Tensor α} (hx : x.shape = b ++ [1, h, w]) (hx' : x'.shape = b ++ [1, w, h])
    (hxx : ∀ bi i j, InB b bi → i < h → j < w → x'.get (bi ++ [0, j, i]) = x.get (bi ++ [0, i, j])) (hf : ConvFits b 1 5 h w)
    {p : Pattern} {s s' : List Char} (hp : p.Spelled s) (hp' : p.transpose.Spelled s') (clamp : α) :
    ∃ z z', demosaic junk junk' x s clamp = .ok z ∧ demosaic junk junk' x' s' clamp = .ok z' ∧ z.shape = b ++ [3, h, w] ∧ z'.shape = b ++ [3, w, h] ∧
      ∀ bi t i j, InB b bi → i < h → j < w → z'.get (bi ++ [Color.channel t, j, i]) = z.get (bi ++ [Color.channel t, i, j]) := by
  obtain ⟨z, e, hz, hg⟩ := C54_formula junk junk' hx hf hp clamp
  obtain ⟨z', e', hz', hg'⟩ := C54_formula junk junk' hx' hf.transpose hp' clamp
  obtain ⟨hh2, hw2⟩ := hf.sides
  refine ⟨z, z', e, e', hz, hz', fun bi t i j hb hi hj => ?_⟩
  have h3 : malvar (transposeKind (p.kind i j)) t (around x' bi w h j i) = malvar (p.kind i j) t (around x bi h w i j) := by
    rw [← malvar_transpose _ _ (around x bi h w i j)]
    refine malvar_near _ _ fun di dj a1 a2 a3 a4 => ?_
    rw [around, around, hxx bi _ _ hb (reflC_two hh2 hi a3 a4) (reflC_two hw2 hj a1 a2)]
  rw [hg bi t i j hb hi hj, hg' bi t j i hb hj hi, hxx bi i j hb hi hj, transpose_color, transpose_kind, h3]

/-- **C107**: samples and clamp value `c ≥ 0` times as large give a result `c` times as large. -/
theorem C107_scaled (junk junk' : List Nat → α) {x x' : Tensor α} (hx : x.shape = b ++ [1, h, w]) (hx' : x'.shape = b ++ [1, h, w]) {c : α} (hc : 0 ≤ c)
    (hxx : ∀ bi i j, InB b bi → i < h → j < w → x'.get (bi ++ [0, i, j]) = c * x.get (bi ++ [0, i, j])) (hf : ConvFits b 1 5 h w)
    {p : Pattern} {s : List Char} (hp : p.Spelled s) (clamp : α) :
    ∃ z z', demosaic junk junk' x s clamp = .ok z ∧ demosaic junk junk' x' s (c * clamp) = .ok z' ∧ z.shape = b ++ [3, h, w] ∧ z'.shape = b ++ [3, h, w] ∧
      ∀ bi t i j, InB b bi → i < h → j < w → z'.get (bi ++ [Color.channel t, i, j]) = c * z.get (bi ++ [Color.channel t, i, j]) := by
  obtain ⟨z, e, hz, hg⟩ := C54_formula junk junk' hx hf hp clamp
  obtain ⟨z', e', hz', hg'⟩ := C54_formula junk junk' hx' hf hp (c * clamp)
  obtain ⟨hh2, hw2⟩ := hf.sides
  refine ⟨z, z', e, e', hz, hz', fun bi t i j hb hi hj => ?_⟩
  have h3 : malvar (p.kind i j) t (around x' bi h w i j) = c * malvar (p.kind i j) t (around x bi h w i j) := by
    rw [← malvar_scale]
    refine malvar_near _ _ fun di dj a1 a2 a3 a4 => ?_
    rw [around, around, hxx bi _ _ hb (reflC_two hh2 hi a1 a2) (reflC_two hw2 hj a3 a4)]
  rw [hg bi t i j hb hi hj, hg' bi t i j hb hi hj, hxx bi i j hb hi hj, h3, ← mul_ite, mul_min_of_nonneg _ _ hc, mul_max_of_nonneg _ _ hc, mul_zero]

/-- **C107**: away from the borders, the result for a part of an image, with the pattern seen from its first pixel, is the part of the result. -/
theorem C107_part (junk junk' : List Nat → α) {x x' : Tensor α} {h' w' r c : Nat} (hx : x.shape = b ++ [1, h, w]) (hx' : x'.shape = b ++ [1, h', w'])
    (hr : r + h' ≤ h) (hc : c + w' ≤ w)
    (hxx : ∀ bi i j, InB b bi → i < h' → j < w' → x'.get (bi ++ [0, i, j]) = x.get (bi ++ [0, r + i, c + j])) (hf : ConvFits b 1 5 h w)
    (hf' : ConvFits b 1 5 h' w') {p : Pattern} {s s' : List Char} (hp : p.Spelled s) (hp' : (p.from r c).Spelled s') (clamp : α) :
    ∃ z z', demosaic junk junk' x s clamp = .ok z ∧ demosaic junk junk' x' s' clamp = .ok z' ∧ z.shape = b ++ [3, h, w] ∧ z'.shape = b ++ [3, h', w'] ∧
      ∀ bi t i j, InB b bi → 2 ≤ i → i + 2 < h' → 2 ≤ j → j + 2 < w' →
        z'.get (bi ++ [Color.channel t, i, j]) = z.get (bi ++ [Color.channel t, r + i, c + j]) := by
  obtain ⟨z, e, hz, hg⟩ := C54_formula junk junk' hx hf hp clamp
  obtain ⟨z', e', hz', hg'⟩ := C54_formula junk junk' hx' hf' hp' clamp
  refine ⟨z, z', e, e', hz, hz', fun bi t i j hb hi hi' hj hj' => ?_⟩
  have h3 : malvar (p.kind (r + i) (c + j)) t (around x' bi h' w' i j) = malvar (p.kind (r + i) (c + j)) t (around x bi h w (r + i) (c + j)) := by
    refine malvar_near _ _ fun di dj a1 a2 a3 a4 => ?_
    rw [around, around, reflC_inside (n := h') (by omega) (by omega), reflC_inside (n := w') (by omega) (by omega),
      reflC_inside (n := h) (by omega) (by omega), reflC_inside (n := w) (by omega) (by omega), hxx bi _ _ hb (by omega) (by omega)]
    have e1 : r + ((i : Int) + di).toNat = (((r + i : Nat) : Int) + di).toNat := by omega
    have e2 : c + ((j : Int) + dj).toNat = (((c + j : Nat) : Int) + dj).toNat := by omega
    rw [e1, e2]
  rw [hg bi t (r + i) (c + j) hb (by omega) (by omega), hg' bi t i j hb (by omega) (by omega), hxx bi i j hb (by omega) (by omega), from_color, from_kind, h3]

theorem abs_clamp_le (a c clamp : α) : |min (max a 0) clamp - min (max c 0) clamp| ≤ |a - c| :=
  le_trans (abs_min_sub_min_le_max _ _ _ _) (by
    rw [sub_self, abs_zero]
    refine max_le (le_trans (abs_max_sub_max_le_max _ _ _ _) ?_) (abs_nonneg _)
    rw [sub_self, abs_zero]
    exact max_le le_rfl (abs_nonneg _))

theorem malvar_sub (k : Kind) (t : Color) (v v' : Int → Int → α) : malvar k t v' - malvar k t v = malvar k t (fun di dj => v' di dj - v di dj) := by
  cases k <;> cases t <;> simp only [malvar] <;> ring

/-- the absolute values of the coefficients of an estimate add up to at most `5 / 2` -/
theorem malvar_bound (k : Kind) (t : Color) (v : Int → Int → α) {δ : α} (hv : ∀ di dj : Int, -2 ≤ di → di ≤ 2 → -2 ≤ dj → dj ≤ 2 → |v di dj| ≤ δ) :
    |malvar k t v| ≤ 5 / 2 * δ := by
  have hδ : 0 ≤ δ := le_trans (abs_nonneg _) (hv 0 0 (by omega) (by omega) (by omega) (by omega))
  have a1 := abs_le.1 (hv 0 0 (by omega) (by omega) (by omega) (by omega))
  have a2 := abs_le.1 (hv (-1) 0 (by omega) (by omega) (by omega) (by omega))
  have a3 := abs_le.1 (hv 1 0 (by omega) (by omega) (by omega) (by omega))
  have a4 := abs_le.1 (hv 0 (-1) (by omega) (by omega) (by omega) (by omega))
  have a5 := abs_le.1 (hv 0 1 (by omega) (by omega) (by omega) (by omega))
  have a6 := abs_le.1 (hv (-1) (-1) (by omega) (by omega) (by omega) (by omega))
  have a7 := abs_le.1 (hv (-1) 1 (by omega) (by omega) (by omega) (by omega))
  have a8 := abs_le.1 (hv 1 (-1) (by omega) (by omega) (by omega) (by omega))
  have a9 := abs_le.1 (hv 1 1 (by omega) (by omega) (by omega) (by omega))
  have b1 := abs_le.1 (hv (-2) 0 (by omega) (by omega) (by omega) (by omega))
  have b2 := abs_le.1 (hv 2 0 (by omega) (by omega) (by omega) (by omega))
  have b3 := abs_le.1 (hv 0 (-2) (by omega) (by omega) (by omega) (by omega))
  have b4 := abs_le.1 (hv 0 2 (by omega) (by omega) (by omega) (by omega))
  rw [abs_le]
  cases k <;> cases t <;> simp only [malvar] <;> constructor <;> linarith

/-- **C108**: when no sample changes by more than `δ`, no value of the result changes by more than `5 / 2 * δ`, and no measured colour by more than `δ`. -/
theorem C108_stable (junk junk' : List Nat → α) {x x' : Tensor α} (hx : x.shape = b ++ [1, h, w]) (hx' : x'.shape = b ++ [1, h, w]) {δ : α}
    (hxx : ∀ bi i j, InB b bi → i < h → j < w → |x'.get (bi ++ [0, i, j]) - x.get (bi ++ [0, i, j])| ≤ δ) (hf : ConvFits b 1 5 h w)
    {p : Pattern} {s : List Char} (hp : p.Spelled s) (clamp : α) :
    ∃ z z', demosaic junk junk' x s clamp = .ok z ∧ demosaic junk junk' x' s clamp = .ok z' ∧ z.shape = b ++ [3, h, w] ∧ z'.shape = b ++ [3, h, w] ∧
      ∀ bi t i j, InB b bi → i < h → j < w → |z'.get (bi ++ [Color.channel t, i, j]) - z.get (bi ++ [Color.channel t, i, j])| ≤
        (if t = p.color i j then 1 else 5 / 2) * δ := by
  obtain ⟨z, e, hz, hg⟩ := C54_formula junk junk' hx hf hp clamp
  obtain ⟨z', e', hz', hg'⟩ := C54_formula junk junk' hx' hf hp clamp
  obtain ⟨hh2, hw2⟩ := hf.sides
  refine ⟨z, z', e, e', hz, hz', fun bi t i j hb hi hj => ?_⟩
  rw [hg bi t i j hb hi hj, hg' bi t i j hb hi hj]
  refine le_trans (abs_clamp_le _ _ _) ?_
  split_ifs with ht
  · rw [one_mul]
    exact hxx bi i j hb hi hj
  · rw [malvar_sub]
    exact malvar_bound _ _ _ fun di dj a1 a2 a3 a4 => hxx bi _ _ hb (reflC_two hh2 hi a1 a2) (reflC_two hw2 hj a3 a4)

/-- **C108**: the result at a pixel depends on the samples at most two rows and columns away. -/
theorem C108_local (junk junk' : List Nat → α) {x x' : Tensor α} (hx : x.shape = b ++ [1, h, w]) (hx' : x'.shape = b ++ [1, h, w]) (hf : ConvFits b 1 5 h w)
    {p : Pattern} {s : List Char} (hp : p.Spelled s) (clamp : α) :
    ∃ z z', demosaic junk junk' x s clamp = .ok z ∧ demosaic junk junk' x' s clamp = .ok z' ∧ z.shape = b ++ [3, h, w] ∧ z'.shape = b ++ [3, h, w] ∧
      ∀ bi t i j, InB b bi → i < h → j < w →
        (∀ i' j', i' < h → j' < w → i' ≤ i + 2 → i ≤ i' + 2 → j' ≤ j + 2 → j ≤ j' + 2 → x'.get (bi ++ [0, i', j']) = x.get (bi ++ [0, i', j'])) →
        z'.get (bi ++ [Color.channel t, i, j]) = z.get (bi ++ [Color.channel t, i, j]) := by
  obtain ⟨z, e, hz, hg⟩ := C54_formula junk junk' hx hf hp clamp
  obtain ⟨z', e', hz', hg'⟩ := C54_formula junk junk' hx' hf hp clamp
  obtain ⟨hh2, hw2⟩ := hf.sides
  have near : ∀ {n i : Nat} {d : Int}, 2 < n → i < n → -2 ≤ d → d ≤ 2 → reflC n (i + d) < n ∧ reflC n (i + d) ≤ i + 2 ∧ i ≤ reflC n (i + d) + 2 := by
    intro n i d hn hi h1 h2
    have := reflC_window (n := n) (z := (i : Int) + d) (by omega) (by omega) (by omega)
    split_ifs at this <;> omega
  refine ⟨z, z', e, e', hz, hz', fun bi t i j hb hi hj hxx => ?_⟩
  have h3 : malvar (p.kind i j) t (around x' bi h w i j) = malvar (p.kind i j) t (around x bi h w i j) := by
    refine malvar_near _ _ fun di dj a1 a2 a3 a4 => ?_
    obtain ⟨c1, c2, c3⟩ := near hh2 hi a1 a2
    obtain ⟨d1, d2, d3⟩ := near hw2 hj a3 a4
    exact hxx _ _ c1 d1 c2 c3 d2 d3
  rw [hg bi t i j hb hi hj, hg' bi t i j hb hi hj, hxx i j hi hj (by omega) (by omega) (by omega) (by omega), h3]

end

/-! ## concrete cases meeting the hypotheses -/

namespace CfaSymExample

/-- a 4 x 6 image -/
def x : Tensor ℚ := Tensor.ofFn [1, 4, 6] fun ix => ((ix.getD 1 0 * ix.getD 1 0 + 3 * ix.getD 2 0 : Nat) : ℚ) / 20

/-- mirrored -/
def x' : Tensor ℚ := Tensor.ofFn [1, 4, 6] fun ix => x.get [0, ix.getD 1 0, 5 - ix.getD 2 0]

/-- upside down -/
def xu : Tensor ℚ := Tensor.ofFn [1, 4, 6] fun ix => x.get [0, 3 - ix.getD 1 0, ix.getD 2 0]

/-- transposed -/
def xt : Tensor ℚ := Tensor.ofFn [1, 6, 4] fun ix => x.get [0, ix.getD 2 0, ix.getD 1 0]

/-- twice as bright -/
def x2 : Tensor ℚ := Tensor.ofFn [1, 4, 6] fun ix => 2 * x.get ix

theorem fits : ConvFits [] 1 5 4 6 := ⟨by simp, by simp, by simp, by simp, by simp, by simp, by simp⟩

/-- a larger image, and its part that begins at row 1 and column 2 -/
def big : Tensor ℚ := Tensor.ofFn [1, 8, 8] fun ix => ((ix.getD 1 0 * ix.getD 2 0 : Nat) : ℚ) / 50

def small : Tensor ℚ := Tensor.ofFn [1, 6, 6] fun ix => big.get [0, 1 + ix.getD 1 0, 2 + ix.getD 2 0]

end CfaSymExample

open CfaSymExample in
example : ∃ z z', demosaic (fun _ => 7) (fun _ => 7) x ['g', 'r', 'b', 'g'] 1 = .ok z ∧ demosaic (fun _ => 7) (fun _ => 7) x ['G', 'B', 'R', 'G'] 1 = .ok z' ∧
    z.shape = [3, 4, 6] ∧ z'.shape = [3, 4, 6] ∧
      ∀ bi t i j, InB [] bi → i < 4 → j < 6 → z'.get (bi ++ [Color.channel t.swap, i, j]) = z.get (bi ++ [Color.channel t, i, j]) :=
  C107_swapped _ _ (b := []) (p := .grbg) rfl fits ((spelled_iff .grbg _).2 (by decide)) ((spelled_iff .gbrg _).2 (by decide)) 1

open CfaSymExample in
example : ∃ z z', demosaic (fun _ => 7) (fun _ => 7) x ['g', 'r', 'b', 'g'] 1 = .ok z ∧ demosaic (fun _ => 7) (fun _ => 7) x' ['R', 'G', 'G', 'B'] 1 = .ok z' ∧
    z.shape = [3, 4, 6] ∧ z'.shape = [3, 4, 6] ∧
      ∀ bi t i j, InB [] bi → i < 4 → j < 6 → z'.get (bi ++ [Color.channel t, i, 6 - 1 - j]) = z.get (bi ++ [Color.channel t, i, j]) := by
  refine C107_mirrored _ _ (b := []) (p := .grbg) rfl rfl ?_ fits ((spelled_iff .grbg _).2 (by decide)) ((spelled_iff .rggb _).2 (by decide)) 1
  intro bi i j hb hi hj
  obtain rfl : bi = [] := List.length_eq_zero_iff.1 hb.length_eq
  rw [x', get_ofFn (by simp [InB]; omega)]
  congr 1
  simp
  omega

open CfaSymExample in
example : ∃ z z', demosaic (fun _ => 7) (fun _ => 7) x ['g', 'r', 'b', 'g'] 1 = .ok z ∧ demosaic (fun _ => 7) (fun _ => 7) xu ['B', 'G', 'G', 'R'] 1 = .ok z' ∧
    z.shape = [3, 4, 6] ∧ z'.shape = [3, 4, 6] ∧
      ∀ bi t i j, InB [] bi → i < 4 → j < 6 → z'.get (bi ++ [Color.channel t, 4 - 1 - i, j]) = z.get (bi ++ [Color.channel t, i, j]) := by
  refine C107_upturned _ _ (b := []) (p := .grbg) rfl rfl ?_ fits ((spelled_iff .grbg _).2 (by decide)) ((spelled_iff .bggr _).2 (by decide)) 1
  intro bi i j hb hi hj
  obtain rfl : bi = [] := List.length_eq_zero_iff.1 hb.length_eq
  rw [xu, get_ofFn (by simp [InB]; omega)]
  congr 1
  simp
  omega

open CfaSymExample in
example : ∃ z z', demosaic (fun _ => 7) (fun _ => 7) x ['g', 'r', 'b', 'g'] 1 = .ok z ∧ demosaic (fun _ => 7) (fun _ => 7) xt ['G', 'b', 'R', 'G'] 1 = .ok z' ∧
    z.shape = [3, 4, 6] ∧ z'.shape = [3, 6, 4] ∧
      ∀ bi t i j, InB [] bi → i < 4 → j < 6 → z'.get (bi ++ [Color.channel t, j, i]) = z.get (bi ++ [Color.channel t, i, j]) := by
  refine C107_transposed _ _ (b := []) (p := .grbg) rfl rfl ?_ fits ((spelled_iff .grbg _).2 (by decide)) ((spelled_iff .gbrg _).2 (by decide)) 1
  intro bi i j hb hi hj
  obtain rfl : bi = [] := List.length_eq_zero_iff.1 hb.length_eq
  rw [xt, get_ofFn (by simp [InB]; omega)]
  rfl

open CfaSymExample in
example : ∃ z z', demosaic (fun _ => 7) (fun _ => 7) x ['g', 'r', 'b', 'g'] 1 = .ok z ∧ demosaic (fun _ => 7) (fun _ => 7) x2 ['g', 'r', 'b', 'g'] (2 * 1) = .ok z' ∧
    z.shape = [3, 4, 6] ∧ z'.shape = [3, 4, 6] ∧
      ∀ bi t i j, InB [] bi → i < 4 → j < 6 → z'.get (bi ++ [Color.channel t, i, j]) = 2 * z.get (bi ++ [Color.channel t, i, j]) := by
  refine C107_scaled _ _ (b := []) (p := .grbg) rfl rfl (by norm_num) ?_ fits ((spelled_iff .grbg _).2 (by decide)) 1
  intro bi i j hb hi hj
  obtain rfl : bi = [] := List.length_eq_zero_iff.1 hb.length_eq
  rw [x2, get_ofFn (by simp [InB]; omega)]

open CfaSymExample in
example : ∃ z z', demosaic (fun _ => 7) (fun _ => 7) big ['g', 'r', 'b', 'g'] 1 = .ok z ∧ demosaic (fun _ => 7) (fun _ => 7) small ['b', 'g', 'g', 'r'] 1 = .ok z' ∧
    z.shape = [3, 8, 8] ∧ z'.shape = [3, 6, 6] ∧ ∀ bi t i j, InB [] bi → 2 ≤ i → i + 2 < 6 → 2 ≤ j → j + 2 < 6 →
      z'.get (bi ++ [Color.channel t, i, j]) = z.get (bi ++ [Color.channel t, 1 + i, 2 + j]) := by
  refine C107_part _ _ (b := []) (p := .grbg) (r := 1) (c := 2) rfl rfl (by omega) (by omega) ?_ ⟨by simp, by simp, by simp, by simp, by simp, by simp, by simp⟩
    ⟨by simp, by simp, by simp, by simp, by simp, by simp, by simp⟩ ((spelled_iff .grbg _).2 (by decide)) ((spelled_iff .bggr _).2 (by decide)) 1
  intro bi i j hb hi hj
  obtain rfl : bi = [] := List.length_eq_zero_iff.1 hb.length_eq
  rw [small, get_ofFn (by simp [InB]; omega)]
  rfl

/-- C108: the factor cannot be smaller: red at a blue pixel, when the sample and its diagonal neighbours grow by 1/10 and the samples two away become
smaller by 1/10 -/
example : (do
    let d := fun i j : Nat => if (i, j) ∈ [(3, 3), (2, 2), (2, 4), (4, 2), (4, 4)] then (1 / 10 : ℚ) else if (i, j) ∈ [(1, 3), (5, 3), (3, 1), (3, 5)] then -1 / 10 else 0
    let z ← demosaic (fun _ => 7) (fun _ => 7) (Tensor.ofFn [1, 6, 6] fun _ => (1 / 2 : ℚ)) ['R', 'G', 'G', 'B'] 1
    let z' ← demosaic (fun _ => 7) (fun _ => 7) (Tensor.ofFn [1, 6, 6] fun ix => 1 / 2 + d (ix.getD 1 0) (ix.getD 2 0)) ['R', 'G', 'G', 'B'] 1
    .ok (z'.get [0, 3, 3] - z.get [0, 3, 3])) = (.ok (5 / 2 * (1 / 10)) : Except Err ℚ) := by decide +kernel

open CfaSymExample in
example : ∃ z z', demosaic (fun _ => 7) (fun _ => 7) x ['g', 'r', 'b', 'g'] 1 = .ok z ∧
    demosaic (fun _ => 7) (fun _ => 7) (Tensor.ofFn [1, 4, 6] fun ix => x.get ix + 1 / 100) ['g', 'r', 'b', 'g'] 1 = .ok z' ∧
    z.shape = [3, 4, 6] ∧ z'.shape = [3, 4, 6] ∧ ∀ bi t i j, InB [] bi → i < 4 → j < 6 →
      |z'.get (bi ++ [Color.channel t, i, j]) - z.get (bi ++ [Color.channel t, i, j])| ≤ (if t = Pattern.grbg.color i j then 1 else 5 / 2) * (1 / 100) := by
  refine C108_stable _ _ (b := []) (p := .grbg) rfl rfl ?_ fits ((spelled_iff .grbg _).2 (by decide)) 1
  intro bi i j hb hi hj
  obtain rfl : bi = [] := List.length_eq_zero_iff.1 hb.length_eq
  rw [get_ofFn (by simp [InB]; omega), add_sub_cancel_left, abs_of_nonneg (by norm_num)]

open CfaSymExample in
/-- a sample in the lower right corner does not matter in the upper left -/
example : ∃ z z', demosaic (fun _ => 7) (fun _ => 7) x ['g', 'r', 'b', 'g'] 1 = .ok z ∧
    demosaic (fun _ => 7) (fun _ => 7) (Tensor.ofFn [1, 4, 6] fun ix => if ix = [0, 3, 5] then 0 else x.get ix) ['g', 'r', 'b', 'g'] 1 = .ok z' ∧
    z'.get [2, 3, 2] = z.get [2, 3, 2] := by
  obtain ⟨z, z', h1, h2, -, -, h3⟩ := C108_local (fun _ => 7) (fun _ => 7) (x := x)
    (x' := Tensor.ofFn [1, 4, 6] fun ix => if ix = [0, 3, 5] then 0 else x.get ix) (b := []) (h := 4) (w := 6) (p := .grbg) rfl rfl fits
    ((spelled_iff .grbg ['g', 'r', 'b', 'g']).2 (by decide)) 1
  refine ⟨z, z', h1, h2, h3 [] .blue 3 2 trivial (by omega) (by omega) fun i' j' hi hj _ _ hj2 _ => ?_⟩
  rw [get_ofFn (by simp [InB]; omega), if_neg]
  simp
  omega

end TI
