import Verif.Proofs.CfaConv
import Mathlib.Tactic.Ring
import Mathlib.Tactic.FieldSimp
import Mathlib.Tactic.NormNum

/-!
# Colour filter arrays: gradient-corrected demosaicing
-/

set_option linter.unusedSectionVars false

namespace TI
open Tensor Spec

section
variable {α : Type} [Field α]

/-- the kernels of `wf_dict`, by pixel and output channel -/
def wfAt : Pos → Nat → List (List α)
  | .R, 0 => wf0
  | .R, _ => wf3
  | .B, 0 => wf3
  | .B, _ => wf0
  | .GR, 0 => wf1
  | .GR, _ => wf2
  | .GB, 0 => wf2
  | .GB, _ => wf1

theorem pretrained_wf : ∃ m : BayerConv α, BayerConv.pretrained wfDict = .ok m ∧ m.inC = 1 ∧ m.outC = 2 ∧ m.size = 5 ∧
    (∀ P o k a b, o < 2 → m.weight P o k a b = ((wfAt P o).getD a []).getD b 0) ∧ ∀ P o, m.bias P o = 0 := by
  refine ⟨_, rfl, rfl, rfl, rfl, ?_, fun _ _ => rfl⟩
  intro P o k a b ho
  have ho' : o = 0 ∨ o = 1 := by omega
  rcases ho' with rfl | rfl <;> cases P <;> rfl

theorem filter_malvar (x : Tensor α) (bi : List Nat) (h w i j : Nat) {m : BayerConv α}
    (hm : ∀ P o k a b, o < 2 → m.weight P o k a b = ((wfAt P o).getD a []).getD b 0) (P : Pos) :
    bayerFilter x bi h w 1 5 (m.weight P 0) i j = malvar P.kind (colorOf P.kind).others.1 (around x bi h w i j) ∧
    bayerFilter x bi h w 1 5 (m.weight P 1) i j = malvar P.kind (colorOf P.kind).others.2 (around x bi h w i j) := by
  have key : ∀ o, o < 2 → bayerFilter x bi h w 1 5 (m.weight P o) i j =
      ∑ a ∈ Finset.range 5, ∑ b ∈ Finset.range 5, ((wfAt P o).getD a []).getD b 0 * around x bi h w i j ((a : Int) - 2) ((b : Int) - 2) := by
    intro o ho
    rw [bayerFilter, Finset.sum_range_one]
    apply Finset.sum_congr rfl
    intro a _
    apply Finset.sum_congr rfl
    intro b _
    rw [hm P o 0 a b ho, around]
    have e1 : (i : Int) + a - ((5 / 2 : Nat) : Int) = i + ((a : Int) - 2) := by norm_num; ring
    have e2 : (j : Int) + b - ((5 / 2 : Nat) : Int) = j + ((b : Int) - 2) := by norm_num; ring
    rw [e1, e2]
  rw [key 0 (by omega), key 1 (by omega)]
  generalize around x bi h w i j = v
  cases P <;>
  · simp only [Finset.sum_range_succ, Finset.sum_range_zero, wfAt, wf0, wf1, wf2, wf3, eighth, malvar, colorOf, Pos.kind, Color.others, List.map_cons, List.map_nil,
      List.getD_cons_zero, List.getD_cons_succ, List.range, List.range.loop]
    norm_num
    constructor <;> ring

end

section
variable {α : Type} [Field α] [LinearOrder α] {b : List Nat} {h w : Nat}

/-- what demosaicing puts in channel `t` of a pixel: the measured sample in its own channel, the estimate in the others; clamped -/
def demosaicValue (x : Tensor α) (p : Pattern) (clamp : α) (h w : Nat) (bi : List Nat) (t : Color) (i j : Nat) : α :=
  clampTo 0 clamp (if t = p.color i j then x.get (bi ++ [0, i, j]) else malvar (p.kind i j) t (around x bi h w i j))

theorem demosaic_eq (junk junk' : List Nat → α) {x : Tensor α} (hx : x.shape = b ++ [1, h, w]) (hf : ConvFits b 1 5 h w) {p : Pattern} {s : List Char}
    (hp : p.Spelled s) (clamp : α) :
    ∃ z, demosaic junk junk' x s clamp = .ok z ∧ z.shape = b ++ [3, h, w] ∧
      ∀ bi t i j, InB b bi → i < h → j < w → z.get (bi ++ [t.channel, i, j]) = demosaicValue x p clamp h w bi t i j := by
  obtain ⟨m, e0, h1, h2, h3, h4, h5⟩ := pretrained_wf (α := α)
  obtain ⟨y, e1, s1, g1⟩ := forward_eq junk (m := m) (x := x) (b := b) (h := h) (w := w) (by rw [h1]; exact hx) (by rw [h1, h3]; exact hf) hp
  rw [h2] at s1 g1
  obtain ⟨z, e2, s2, g2⟩ := lastStep_eq junk' hx s1 hp
  refine ⟨z.map (clampTo 0 clamp), by simp only [demosaic, e0, ok_bind, BayerConv.interpolate, e1, e2], s2, ?_⟩
  intro bi t i j hb hi hj
  have hk : (colorOf (posOf (p.kind i j)).kind) = p.color i j := by rw [kind_posOf, colorOf_kind]
  obtain ⟨f0, f1⟩ := filter_malvar x bi h w i j h4 (posOf (p.kind i j))
  rw [kind_posOf, colorOf_kind] at f0 f1
  rw [get_map _ _ (by rw [s2]; exact inB3 hb (channel_lt t) hi hj), g2 bi t.channel i j hb (channel_lt t) hi hj, lastValue, g1 bi 0 i j hb (by omega) hi hj,
    g1 bi 1 i j hb (by omega) hi hj, h1, h3, h5, h5, f0, f1, add_zero, add_zero, demosaicValue]
  congr 1
  cases p.color i j <;> cases t <;> simp [Color.channel, Color.others]

end

section
variable {α : Type} [Field α] [LinearOrder α] [IsStrictOrderedRing α] {b : List Nat} {h w : Nat}

theorem clampTo_mem {clamp : α} (hc : 0 ≤ clamp) (v : α) : 0 ≤ clampTo 0 clamp v ∧ clampTo 0 clamp v ≤ clamp :=
  ⟨le_min (le_max_right _ _) hc, min_le_right _ _⟩

theorem clampTo_id {clamp v : α} (h0 : 0 ≤ v) (h1 : v ≤ clamp) : clampTo 0 clamp v = v := by
  rw [clampTo, max_eq_left h0, min_eq_left h1]

/-- positions in the window around a pixel -/
theorem window_ok {n i : Nat} {d : Int} (hn : 4 ≤ n) (hi : i < n) (h1 : -2 ≤ d) (h2 : d ≤ 2) :
    reflC n (i + d) < n ∧ reflC n (i + d) % 2 = (i + d.natAbs) % 2 := by
  have q1 := reflC_bound (n := n) (z := i + d) (by omega) (by omega) (by omega)
  have q2 := reflC_parity (n := n) (z := i + d) (by omega) (by omega) (by omega)
  refine ⟨q1, ?_⟩
  omega

theorem window_inside {n i : Nat} {d : Int} (h1 : 2 ≤ i) (h2 : i + 2 < n) (h3 : -2 ≤ d) (h4 : d ≤ 2) :
    (reflC n (i + d) : Int) = i + d := by
  rw [reflC_inside (by omega) (by omega)]
  omega

theorem ConvFits.four (hf : ConvFits b 1 5 h w) : 4 ≤ h ∧ 4 ≤ w := by
  have := hf.fitsH
  have := hf.fitsW
  have := hf.evenH
  have := hf.evenW
  omega

theorem malvar_congr {v v' : Int → Int → α} (hv : ∀ di dj : Int, -2 ≤ di → di ≤ 2 → -2 ≤ dj → dj ≤ 2 → v di dj = v' di dj) (k : Kind) (t : Color) :
    malvar k t v = malvar k t v' := by
  have e : ∀ di ∈ ([-2, -1, 0, 1, 2] : List Int), ∀ dj ∈ ([-2, -1, 0, 1, 2] : List Int), v di dj = v' di dj := by
    intro di h1 dj h2
    simp only [List.mem_cons, List.not_mem_nil, or_false] at h1 h2
    exact hv di dj (by omega) (by omega) (by omega) (by omega)
  simp only [malvar]
  rw [e (-2) (by simp) 0 (by simp), e (-1) (by simp) (-1) (by simp), e (-1) (by simp) 0 (by simp), e (-1) (by simp) 1 (by simp), e 0 (by simp) (-2) (by simp),
    e 0 (by simp) (-1) (by simp), e 0 (by simp) 0 (by simp), e 0 (by simp) 1 (by simp), e 0 (by simp) 2 (by simp), e 1 (by simp) (-1) (by simp),
    e 1 (by simp) 0 (by simp), e 1 (by simp) 1 (by simp), e 2 (by simp) 0 (by simp)]

theorem malvar_const (k : Kind) (t : Color) (c : α) : malvar k t (fun _ _ => c) = c := by
  have h8 : (8 : α) ≠ 0 := by norm_num
  cases k <;> cases t <;> simp only [malvar] <;> field_simp <;> ring

set_option maxHeartbeats 4000000 in
/-- the estimate is exact on mosaics whose three channels are affine functions of the position -/
theorem malvar_affine (p : Pattern) (t : Color) (i j : Nat) (A : Color → α) (B C : Color → α) (ht : t ≠ p.color i j) :
    malvar (p.kind i j) t (fun di dj => A (p.color (i + di.natAbs) (j + dj.natAbs)) + B (p.color (i + di.natAbs) (j + dj.natAbs)) * ((i : α) + di) +
      C (p.color (i + di.natAbs) (j + dj.natAbs)) * ((j : α) + dj)) = A t + B t * i + C t * j := by
  have h8 : (8 : α) ≠ 0 := by norm_num
  have i2 : (i + 2) % 2 = i % 2 := by omega
  have j2 : (j + 2) % 2 = j % 2 := by omega
  have hi : (i % 2 = 0 ∧ (i + 1) % 2 = 1) ∨ (i % 2 = 1 ∧ (i + 1) % 2 = 0) := by omega
  have hj : (j % 2 = 0 ∧ (j + 1) % 2 = 1) ∨ (j % 2 = 1 ∧ (j + 1) % 2 = 0) := by omega
  rcases hi with ⟨i0, i1⟩ | ⟨i0, i1⟩ <;> rcases hj with ⟨j0, j1⟩ | ⟨j0, j1⟩ <;> cases p <;> cases t <;>
  first
  | (exfalso; revert ht; simp [Pattern.color, i0, j0]; done)
  | (simp [malvar, Pattern.kind, Pattern.color, i0, i1, i2, j0, j1, j2]
     field_simp
     ring)

end

end TI
