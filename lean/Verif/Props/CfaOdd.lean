import Verif.Proofs.CfaOdd
import Verif.Props.Cfa

/-!
# Bayer convolutions of images with odd sides (C52 and C53 in full)
-/

set_option linter.unusedSectionVars false

namespace TI
open Tensor Spec

namespace Spec

/-- the sides that `forward` of a kernel of this size accepts -/
def AcceptedSide (size n : Nat) : Prop := n % 2 = 0 ∨ size % 2 = 1 ∧ n = 3

instance (size n : Nat) : Decidable (AcceptedSide size n) := inferInstanceAs (Decidable (_ ∨ _))

/-- the row (or column) whose neighbourhood is filtered for row `i`: with three rows, the last one is a copy of the first -/
def filteredAt (n i : Nat) : Nat := if n = 3 then i % 2 else i

/-- `pixel_unshuffle(z, 2)` raises for odd sides -/
def unshuffled {α : Type} [Field α] (z : Tensor α) (n c h w : Nat) : Except Err (Tensor α) :=
  if h % 2 = 0 ∧ w % 2 = 0 then .ok (pixelUnshuffle z [n] c h w) else .error .runtime

end Spec

section
variable {α : Type} [Field α] {b : List Nat} {h w : Nat}

/-- **C52**, exactly (for arguments not rejected by `C52_rejects`): `forward` returns if every side is even, or is 3 and the kernel size is odd; the output at a pixel is the filter of its kind, applied to
the neighbourhood centred there, except that the last of three rows or columns is computed at the first one.  Else it raises RuntimeError. -/
theorem C52_outcome (junk : List Nat → α) {m : BayerConv α} {x : Tensor α} (hx : x.shape = b ++ [m.inC, h, w]) (h5 : b.length ≤ 1) (hc0 : m.inC ≠ 0) (h0 : m.size ≠ 0)
    (h3 : m.size / 2 < h) (h4 : m.size / 2 < w) {p : Pattern} {s : List Char} (hp : p.Spelled s) :
    if AcceptedSide m.size h ∧ AcceptedSide m.size w then
      ∃ z, m.forward junk x s = .ok z ∧ z.shape = b ++ [m.outC, h, w] ∧
        ∀ bi o i j, InB b bi → o < m.outC → i < h → j < w → z.get (bi ++ [o, i, j]) =
          bayerFilter x bi h w m.inC m.size (m.weight (bankOf (p.kind i j)) o) (filteredAt h i) (filteredAt w j) + m.bias (bankOf (p.kind i j)) o
    else m.forward junk x s = .error .runtime := by
  obtain ⟨beg, hbeg, hcell⟩ := begIndex_eq p
  split_ifs with hacc
  · simp only [AcceptedSide] at hacc
    obtain ⟨z, q1, q2, q3⟩ := forPos_eq (P := p) (b := b) (c := m.outC) (h := h) (w := w)
      (f := fun p y => do
        let (r, c) := beg p
        let v ← m.convAt p r c x
        y.setLast [every2 r, every2 c] v)
      (g := fun P bi o i j => bayerFilter x bi h w m.inC m.size (m.weight P o) (filteredAt h i) (filteredAt w j) + m.bias P o) (by
        intro P ret hret
        obtain ⟨hr, hs, hkind⟩ := hcell P
        generalize beg P = rc at hr hs hkind
        obtain ⟨r, c⟩ := rc
        simp only at hr hs hkind
        obtain ⟨v, e0, s0, g0⟩ := convAt_any (p := P) hx h5 hc0 h0 (by omega) (by omega) h3 h4 hr hs
        obtain ⟨ret1, f1, t1, k1⟩ := setTile_repeat hret hr hs s0 (by simp only [half]; omega) (by simp only [half]; omega)
        refine ⟨ret1, by simp only [e0, ok_bind, f1], t1.trans hret, ?_⟩
        intro bi q i j hb hq hi hj
        rw [k1 bi q i j hb hq hi hj]
        by_cases hc : i % 2 = r ∧ j % 2 = c
        · rw [if_pos hc, if_pos ((hkind i j).1 hc), g0 bi q _ _ hb hq (by split_ifs <;> omega) (by split_ifs <;> omega)]
          have a1 : 2 * (if (h + 1 - m.size % 2) / 2 = 1 then 0 else i / 2) + r = filteredAt h i := by
            rw [filteredAt]; split_ifs <;> omega
          have a2 : 2 * (if (w + 1 - m.size % 2) / 2 = 1 then 0 else j / 2) + c = filteredAt w j := by
            rw [filteredAt]; split_ifs <;> omega
          rw [a1, a2]
        · rw [if_neg hc, if_neg (fun e => hc ((hkind i j).2 e))])
      (y := Tensor.empty junk (b ++ [m.outC, h, w])) rfl
    refine ⟨z, ?_, q2, ?_⟩
    · simp only [BayerConv.forward, checkAlignment_ok hp, ok_bind, hbeg, initShape3 hx, lastTwo3 hx]
      exact q1
    · intro bi o i j hb ho hi hj
      rw [q3 bi o i j hb ho hi hj]
      have : posOf (p.kind i j) = bankOf (p.kind i j) := by cases p.kind i j <;> rfl
      rw [this]
  · simp only [BayerConv.forward, checkAlignment_ok hp, ok_bind, hbeg, initShape3 hx, lastTwo3 hx]
    by_cases h1 : h = 1 ∨ w = 1
    · refine forPos_fail (Inv := fun _ => True) (fun P y _ => Or.inr ?_) ⟨.R, fun y _ => ?_⟩ trivial
      · rw [convAt_single hx (hcell P).1 (hcell P).2.1 h3 h4 h1]; rfl
      · rw [convAt_single hx (hcell .R).1 (hcell .R).2.1 h3 h4 h1]; rfl
    · simp only [AcceptedSide] at hacc
      -- the kind of pixel at `(t, t)` is rejected
      obtain ⟨t, ht, hbad⟩ : ∃ t < 2, ((h + 1 - m.size % 2) / 2 ≠ 1 ∧ (h + 1 - m.size % 2) / 2 ≠ half h t) ∨ ((w + 1 - m.size % 2) / 2 ≠ 1 ∧ (w + 1 - m.size % 2) / 2 ≠ half w t) := by
        rcases Nat.mod_two_eq_zero_or_one m.size with hm | hm
        · exact ⟨1, by omega, by simp only [half]; omega⟩
        · exact ⟨0, by omega, by simp only [half]; omega⟩
      refine forPos_fail (Inv := fun y => y.shape = b ++ [m.outC, h, w]) ?_ ⟨posOf (p.kind t t), ?_⟩ rfl
      · intro P y hy
        obtain ⟨hr, hs, -⟩ := hcell P
        generalize beg P = rc at hr hs
        obtain ⟨r, c⟩ := rc
        obtain ⟨v, e0, s0, -⟩ := convAt_any (p := P) hx h5 hc0 h0 (by omega) (by omega) h3 h4 hr hs
        simp only [e0, ok_bind]
        rcases setLast_cases (y := y) (v := v) (sl := [every2 r, every2 c]) (by rw [ndim_three hy]; simp) with ⟨z, q1, q2⟩ | q
        · exact Or.inl ⟨z, q1, q2.trans hy⟩
        · exact Or.inr q
      · intro y hy
        obtain ⟨hr, hs, hkind⟩ := hcell (posOf (p.kind t t))
        have h00 := (hkind t t).2 (kind_posOf _).symm
        generalize beg (posOf (p.kind t t)) = rc at hr hs h00
        obtain ⟨r, c⟩ := rc
        simp only at hr hs h00
        obtain ⟨v, e0, s0, -⟩ := convAt_any (p := posOf (p.kind t t)) hx h5 hc0 h0 (by omega) (by omega) h3 h4 hr hs
        simp only [e0, ok_bind]
        refine setTile_reject hy s0 hr hs ?_
        rw [← h00.1, ← h00.2, Nat.mod_eq_of_lt ht]
        exact hbad

theorem setStride4_cases (y v : Tensor α) (sl : List PySlice) : (∃ z, y.setSlice sl v = .ok z ∧ z.shape = y.shape) ∨ y.setSlice sl v = .error .runtime := by
  rw [setSlice]
  split_ifs
  · exact Or.inl ⟨_, rfl, rfl⟩
  · exact Or.inr rfl

theorem setStride4_reject {y v : Tensor α} {n c s h' w' : Nat} (hy : y.shape = [n, c * 4, h, w]) (hs : s < 4) (hv : v.shape = [n, c, h', w'])
    (hbad : (h' ≠ 1 ∧ h' ≠ h) ∨ (w' ≠ 1 ∧ w' ≠ w)) : y.setSlice [.full, .strided (s : Int) 4, .full, .full] v = .error .runtime := by
  rw [setSlice]
  rw [if_neg]
  simp only [hy, hv, resolveAll, List.map_cons, List.map_nil, full_cnt, strided4_resolve hs, bcastable]
  rcases hbad with ⟨h1, h2⟩ | ⟨h1, h2⟩ <;> simp [h1, h2]

/-- **C53**, exactly: `forward_unshuffle` of a batch returns if no side is 1, and all sides are even or the kernel size is odd: then channel `4 o + 2 r + c` at `(i, j)` is output channel `o` of
the filter centred at `(2 i + r, 2 j + c)`, and the last row and column of an odd side are left out.  Else it raises RuntimeError. -/
theorem C53_outcome (junk : List Nat → α) {m : BayerConv α} {x : Tensor α} {n : Nat} (hx : x.shape = [n, m.inC, h, w]) (hc0 : m.inC ≠ 0) (h0 : m.size ≠ 0)
    (h3 : m.size / 2 < h) (h4 : m.size / 2 < w) {p : Pattern} {s : List Char} (hp : p.Spelled s) :
    if h ≠ 1 ∧ w ≠ 1 ∧ (m.size % 2 = 1 ∨ h % 2 = 0 ∧ w % 2 = 0) then
      ∃ z, m.forwardUnshuffle junk x s = .ok z ∧ z.shape = [n, m.outC * 4, h / 2, w / 2] ∧
        ∀ k o r c i j, k < n → o < m.outC → r < 2 → c < 2 → i < h / 2 → j < w / 2 → z.get [k, 4 * o + 2 * r + c, i, j] =
          bayerFilter x [k] h w m.inC m.size (m.weight (bankOf (p.kind r c)) o) (2 * i + r) (2 * j + c) + m.bias (bankOf (p.kind r c)) o
    else m.forwardUnshuffle junk x s = .error .runtime := by
  obtain ⟨beg, hbeg, hcell⟩ := begIndex_eq p
  have hx' : x.shape = [n] ++ [m.inC, h, w] := hx
  have hS : x.shape.getD 0 0 = n := by rw [hx]; rfl
  have hnd : ¬ x.ndim < 2 := by rw [ndim_three hx']; simp
  simp only [BayerConv.forwardUnshuffle, hnd, if_false, checkAlignment_ok hp, ok_bind, hbeg, hS, axisEnd_two hx', axisEnd_one hx']
  split_ifs with hacc
  · have key : ∀ (P : Pos) (y : Tensor α), y.shape = [n, m.outC * 4, h / 2, w / 2] → ∃ z, (do
        let (r, c) := beg P
        let v ← m.convAt P r c x
        y.setSlice [.full, .strided (r * 2 + c : Nat) 4, .full, .full] v) = .ok z ∧ z.shape = [n, m.outC * 4, h / 2, w / 2] ∧
        ∀ k o r c i j, k < n → o < m.outC → r < 2 → c < 2 → i < h / 2 → j < w / 2 → z.get [k, 4 * o + 2 * r + c, i, j] =
          if p.kind r c = P.kind then bayerFilter x [k] h w m.inC m.size (m.weight P o) (2 * i + r) (2 * j + c) + m.bias P o else y.get [k, 4 * o + 2 * r + c, i, j] := by
      intro P y hy
      obtain ⟨hr, hs, hkind⟩ := hcell P
      generalize beg P = rc at hr hs hkind
      obtain ⟨r, c⟩ := rc
      simp only at hr hs hkind
      obtain ⟨v, e0, s0, g0⟩ := convAt_any (p := P) hx' (by simp) hc0 h0 (by omega) (by omega) h3 h4 hr hs
      rw [show (h + 1 - m.size % 2) / 2 = h / 2 by omega, show (w + 1 - m.size % 2) / 2 = w / 2 by omega] at s0 g0
      obtain ⟨z, f1, t1, k1⟩ := setStride4 hy (s := r * 2 + c) (by omega) (v := v) s0
      refine ⟨z, by simp only [e0, ok_bind, f1], t1.trans hy, ?_⟩
      intro k o r' c' i j hk ho hr' hc' hi hj
      have e := k1 [k] (4 * o + 2 * r' + c') i j ⟨hk, trivial⟩ (by omega) hi hj
      simp only [List.cons_append, List.nil_append] at e
      rw [e]
      by_cases hc : r' = r ∧ c' = c
      · obtain ⟨rfl, rfl⟩ := hc
        have e2 := g0 [k] o i j ⟨hk, trivial⟩ ho hi hj
        simp only [List.cons_append, List.nil_append] at e2
        rw [if_pos (by omega), if_pos ((hkind _ _).1 (by omega)), show (4 * o + 2 * r' + c') / 4 = o by omega, e2]
      · rw [if_neg (by omega), if_neg]
        intro e
        have := (hkind _ _).2 e
        omega
    obtain ⟨z1, e1, s1, g1⟩ := key .R (Tensor.empty junk [n, m.outC * 4, h / 2, w / 2]) rfl
    obtain ⟨z2, e2, s2, g2⟩ := key .B z1 s1
    obtain ⟨z3, e3, s3, g3⟩ := key .GR z2 s2
    obtain ⟨z4, e4, s4, g4⟩ := key .GB z3 s3
    refine ⟨z4, ?_, s4, ?_⟩
    · simp only [forPos]
      simp only at e1 e2 e3 e4
      rw [e1, ok_bind, e2, ok_bind, e3, ok_bind, e4]
    · intro k o r c i j hk ho hr hc hi hj
      rw [g4 k o r c i j hk ho hr hc hi hj, g3 k o r c i j hk ho hr hc hi hj, g2 k o r c i j hk ho hr hc hi hj, g1 k o r c i j hk ho hr hc hi hj]
      cases p.kind r c <;> simp [Pos.kind, bankOf]
  · by_cases h1 : h = 1 ∨ w = 1
    · refine forPos_fail (Inv := fun _ => True) (fun P y _ => Or.inr ?_) ⟨.R, fun y _ => ?_⟩ trivial
      · rw [convAt_single hx' (hcell P).1 (hcell P).2.1 h3 h4 h1]; rfl
      · rw [convAt_single hx' (hcell .R).1 (hcell .R).2.1 h3 h4 h1]; rfl
    · have bad : ∀ P (y : Tensor α), y.shape = [n, m.outC * 4, h / 2, w / 2] → (do
          let (r, c) := beg P
          let v ← m.convAt P r c x
          y.setSlice [.full, .strided (r * 2 + c : Nat) 4, .full, .full] v) = .error .runtime := by
        intro P y hy
        obtain ⟨hr, hs, -⟩ := hcell P
        generalize beg P = rc at hr hs
        obtain ⟨r, c⟩ := rc
        obtain ⟨v, e0, s0, -⟩ := convAt_any (p := P) hx' (by simp) hc0 h0 (by omega) (by omega) h3 h4 hr hs
        simp only [e0, ok_bind]
        simp only at hr hs
        exact setStride4_reject hy (by omega) s0 (by omega)
      exact forPos_fail (Inv := fun y => y.shape = [n, m.outC * 4, h / 2, w / 2]) (fun P y hy => Or.inr (bad P y hy)) ⟨.R, fun y hy => bad .R y hy⟩ rfl

/-- **C53**, exactly: `forward_unshuffle` has the outcome of `pixel_unshuffle` after `forward` unless the kernel size is odd and the image has an odd side, but no side of one pixel. -/
theorem C53_iff (junk junk' : List Nat → α) {m : BayerConv α} {x : Tensor α} {n : Nat} (hx : x.shape = [n, m.inC, h, w]) (hc0 : m.inC ≠ 0) (h0 : m.size ≠ 0)
    (h3 : m.size / 2 < h) (h4 : m.size / 2 < w) {p : Pattern} {s : List Char} (hp : p.Spelled s) :
    m.forwardUnshuffle junk' x s = (do let z ← m.forward junk x s; unshuffled z n m.outC h w) ↔
      ¬ (m.size % 2 = 1 ∧ (h % 2 = 1 ∨ w % 2 = 1) ∧ h ≠ 1 ∧ w ≠ 1) := by
  by_cases hev : h % 2 = 0 ∧ w % 2 = 0
  · obtain ⟨z, e1, e2⟩ := C53_unshuffle_partial junk junk' hx ⟨by simp, hc0, h0, hev.1, hev.2, h3, h4⟩ hp
    rw [e1, e2, ok_bind, unshuffled, if_pos hev]
    simp only [true_iff]
    omega
  · have hr : (do let z ← m.forward junk x s; unshuffled z n m.outC h w) = .error .runtime := by
      have := C52_outcome junk (b := [n]) hx (by simp) hc0 h0 h3 h4 hp
      split_ifs at this
      · obtain ⟨z, e, _⟩ := this
        rw [e, ok_bind, unshuffled, if_neg hev]
      · rw [this]; rfl
    rw [hr]
    have := C53_outcome junk' hx hc0 h0 h3 h4 hp
    split_ifs at this with hc
    · obtain ⟨z, e, _⟩ := this
      rw [e]
      constructor
      · intro q; cases q
      · intro q; exact absurd (by omega) q
    · simp only [this, true_iff]
      omega

end

/-! ## concrete cases -/

/-- a 1×1 copy of a 5×5 image: `forward_unshuffle` returns the first four rows and columns, `forward` raises -/
example : ∃ z, (copyFilter 1 : BayerConv ℚ).forwardUnshuffle (fun _ => 0) (Tensor.ofFn [1, 1, 5, 5] fun ix => (5 * ix.getD 2 0 + ix.getD 3 0 : Nat)) Pattern.rggb.name = .ok z ∧
    z.shape = [1, 4, 2, 2] ∧ (copyFilter 1 : BayerConv ℚ).forward (fun _ => 0) (Tensor.ofFn [1, 1, 5, 5] fun ix => (5 * ix.getD 2 0 + ix.getD 3 0 : Nat)) Pattern.rggb.name = .error .runtime := by
  have h1 := C53_outcome (m := (copyFilter 1 : BayerConv ℚ)) (x := Tensor.ofFn [1, 1, 5, 5] fun ix => (5 * ix.getD 2 0 + ix.getD 3 0 : Nat)) (n := 1) (fun _ => 0) rfl (by decide) (by decide)
    (by decide) (by decide) (spelled_name .rggb)
  rw [if_pos (by decide)] at h1
  obtain ⟨z, e, e2, _⟩ := h1
  have h2 := C52_outcome (m := (copyFilter 1 : BayerConv ℚ)) (b := [1]) (x := Tensor.ofFn [1, 1, 5, 5] fun ix => (5 * ix.getD 2 0 + ix.getD 3 0 : Nat)) (fun _ => 0) rfl (by decide) (by decide)
    (by decide) (by decide) (by decide) (spelled_name .rggb)
  rw [if_neg (by decide)] at h2
  exact ⟨z, e, e2, h2⟩

/-- three rows and columns: the last pixel is a copy of the first -/
example : ∃ z, (copyFilter 1 : BayerConv ℚ).forward (fun _ => 0) (Tensor.ofFn [1, 3, 3] fun ix => (3 * ix.getD 1 0 + ix.getD 2 0 : Nat)) Pattern.rggb.name = .ok z ∧
    z.get [0, 2, 2] = bayerFilter (Tensor.ofFn [1, 3, 3] fun ix => ((3 * ix.getD 1 0 + ix.getD 2 0 : Nat) : ℚ)) [] 3 3 1 1 ((copyFilter 1).weight .R 0) 0 0 := by
  have h2 := C52_outcome (m := (copyFilter 1 : BayerConv ℚ)) (b := []) (x := Tensor.ofFn [1, 3, 3] fun ix => (3 * ix.getD 1 0 + ix.getD 2 0 : Nat)) (fun _ => 0) rfl (by decide) (by decide)
    (by decide) (by decide) (by decide) (spelled_name .rggb)
  rw [if_pos (by decide)] at h2
  obtain ⟨z, e, _, g⟩ := h2
  refine ⟨z, e, ?_⟩
  have := g [] 0 2 2 trivial (by decide) (by decide) (by decide)
  rw [List.nil_append] at this
  rw [this]
  exact add_zero _

end TI
