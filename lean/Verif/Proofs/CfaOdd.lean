import Verif.Proofs.CfaConv
import Verif.Proofs.IntPadRun

/-!
# Colour filter arrays: the convolution of images with odd sides
-/

set_option linter.unusedSectionVars false

namespace TI
open Tensor Spec

section
variable {α : Type} [Zero α] {b : List Nat} {h w : Nat}

theorem bcastable_append {b s t : List Nat} (hl : s.length = t.length) : bcastable (b ++ s) (b ++ t) = bcastable s t := by
  simp only [bcastable, List.length_append, hl, le_refl, decide_true, Nat.sub_self, List.drop_zero, Bool.true_and]
  rw [List.zipWith_append rfl, List.all_append]
  have : (List.zipWith (fun a b => a == b || a == 1) b b).all id = true := by
    have := bcastable_self b
    simpa [bcastable] using this
  rw [this, Bool.true_and]

theorem bidx_append {b s bi jt : List Nat} (hb : InB b bi) (hl : jt.length = s.length) : bidx (b ++ s) (bi ++ jt) = bi ++ bidx s jt := by
  have h1 := hb.length_eq
  rw [bidx, show (bi ++ jt).length - (b ++ s).length = 0 by simp; omega, List.drop_zero, List.zipWith_append (by omega), bidx, hl, Nat.sub_self, List.drop_zero]
  congr 1
  have := bidx_self hb
  rwa [bidx, h1, Nat.sub_self, List.drop_zero] at this

/-- `y[..., r::2, s::2] = v` with a value of side 1, which is repeated -/
theorem setTile_repeat {y v : Tensor α} {c h' w' r s : Nat} (hy : y.shape = b ++ [c, h, w]) (hr : r < 2) (hs : s < 2) (hv : v.shape = b ++ [c, h', w'])
    (h1 : h' = half h r ∨ h' = 1) (h2 : w' = half w s ∨ w' = 1) :
    ∃ z, y.setLast [every2 r, every2 s] v = .ok z ∧ z.shape = y.shape ∧
      ∀ bi q i j, InB b bi → q < c → i < h → j < w → z.get (bi ++ [q, i, j]) =
        if i % 2 = r ∧ j % 2 = s then v.get (bi ++ [q, if h' = 1 then 0 else i / 2, if w' = 1 then 0 else j / 2]) else y.get (bi ++ [q, i, j]) := by
  have hy' : y.shape = (b ++ [c]) ++ [h, w] := by simp [hy]
  have hv' : v.shape = (b ++ [c]) ++ [h', w'] := by simp [hv]
  have hres := resolveAll_lastIdx (b := b ++ [c]) (t := [h, w]) (sl := [every2 r, every2 s]) rfl
  have hi2 : ∀ i j, i < h → j < w → rngInv (resolveAll [every2 r, every2 s] [h, w]) [i, j] =
      if i % 2 = r ∧ j % 2 = s then some [i / 2, j / 2] else none := by
    intro i j hi hj
    simp only [resolveAll, rngInv, every2_inv hr hi, every2_inv hs hj]
    by_cases h1 : i % 2 = r <;> by_cases h2 : j % 2 = s <;> simp [h1, h2]
  refine ⟨ofFn y.shape fun ix => match rngInv (resolveAll (lastIdx y.ndim [every2 r, every2 s]) y.shape) ix with
    | some jx => v.get (bidx v.shape jx)
    | none => y.get ix, ?_, rfl, ?_⟩
  · rw [setLast, if_neg (by rw [ndim_three hy]; simp), setSlice]
    have : bcastable v.shape ((resolveAll (lastIdx y.ndim [every2 r, every2 s]) y.shape).map (·.cnt)) = true := by
      rw [ndim, hy', hres, List.map_append, map_full_cnt, hv', bcastable_append (by simp [resolveAll])]
      simp only [resolveAll, List.map_cons, List.map_nil, every2_cnt hr, every2_cnt hs, bcastable]
      rcases h1 with rfl | rfl <;> rcases h2 with rfl | rfl <;> simp
    simp only [this, if_true]
    rfl
  · intro bi q i j hb hq hi hj
    have hbq : InB (b ++ [c]) (bi ++ [q]) := inB_join hb ⟨hq, trivial⟩
    rw [get_ofFn (by rw [hy]; exact inB3 hb hq hi hj), ndim, hy', hres, show bi ++ [q, i, j] = (bi ++ [q]) ++ [i, j] by simp, rngInv_full hbq, hi2 i j hi hj]
    by_cases hc : i % 2 = r ∧ j % 2 = s
    · rw [if_pos hc, if_pos hc]
      simp only [Option.map_some]
      rw [hv', bidx_append (s := [h', w']) (jt := [i / 2, j / 2]) hbq rfl]
      simp [bidx]
    · rw [if_neg hc, if_neg hc]
      rfl

end

section
variable {α : Type} [Field α] {b : List Nat} {h w : Nat}

/-- one convolution of an image with any sides of at least two pixels -/
theorem convAt_any {m : BayerConv α} {p : Pos} {r s : Nat} {x : Tensor α} (hx : x.shape = b ++ [m.inC, h, w]) (h5 : b.length ≤ 1) (hc0 : m.inC ≠ 0)
    (h0 : m.size ≠ 0) (h1 : 2 ≤ h) (h2 : 2 ≤ w) (h3 : m.size / 2 < h) (h4 : m.size / 2 < w) (hr : r < 2) (hs : s < 2) :
    ∃ v, m.convAt p r s x = .ok v ∧ v.shape = b ++ [m.outC, (h + 1 - m.size % 2) / 2, (w + 1 - m.size % 2) / 2] ∧
      ∀ bi o i j, InB b bi → o < m.outC → i < (h + 1 - m.size % 2) / 2 → j < (w + 1 - m.size % 2) / 2 → v.get (bi ++ [o, i, j]) =
        bayerFilter x bi h w m.inC m.size (m.weight p o) (2 * i + r) (2 * j + s) + m.bias p o := by
  obtain ⟨y, e1, s1, g1⟩ := bayerPad_eq hx h5 hc0 h1 h2 h3 h4 hr hs
  obtain ⟨v, e2, s2, g2⟩ := conv2d_eq (outC := m.outC) (weight := m.weight p) (bias := m.bias p) s1 h5 h0 (by omega) (by omega)
  have q1 : (h + 2 * (m.size / 2) - 1 - m.size) / 2 + 1 = (h + 1 - m.size % 2) / 2 := by omega
  have q2 : (w + 2 * (m.size / 2) - 1 - m.size) / 2 + 1 = (w + 1 - m.size % 2) / 2 := by omega
  rw [q1, q2] at s2 g2
  refine ⟨v, by simp only [BayerConv.convAt, e1, ok_bind, e2], s2, ?_⟩
  intro bi o i j hb ho hi hj
  rw [g2 bi o i j hb ho hi hj, bayerFilter]
  congr 1
  apply Finset.sum_congr rfl
  intro k hk
  apply Finset.sum_congr rfl
  intro a ha
  apply Finset.sum_congr rfl
  intro c hc
  rw [Finset.mem_range] at hk ha hc
  have q3 : (((2 * i + a : Nat) : Int) - ((m.size / 2 : Nat) - r)) = ((2 * i + r : Nat) : Int) + a - (m.size / 2 : Nat) := by push_cast; ring
  have q4 : (((2 * j + c : Nat) : Int) - ((m.size / 2 : Nat) - s)) = ((2 * j + s : Nat) : Int) + c - (m.size / 2 : Nat) := by push_cast; ring
  rw [g1 bi k _ _ hb hk (by omega) (by omega), q3, q4]

/-- a side of one pixel is rejected by the padding -/
theorem convAt_single {m : BayerConv α} {p : Pos} {r s : Nat} {x : Tensor α} (hx : x.shape = b ++ [m.inC, h, w]) (hr : r < 2) (hs : s < 2)
    (h3 : m.size / 2 < h) (h4 : m.size / 2 < w) (h1 : h = 1 ∨ w = 1) : m.convAt p r s x = .error .runtime := by
  rw [BayerConv.convAt, bayerPad, reflectionPad2d]
  simp only [axisEnd_two hx, axisEnd_one hx]
  rw [if_neg]
  · rfl
  · rintro ⟨_, _, _, _, _, _, _, _, q1, q2⟩
    rcases h1 with rfl | rfl <;> omega

end

end TI
