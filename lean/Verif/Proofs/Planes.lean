import Verif.Model.Cfa
import Verif.Proofs.Window
import Verif.Proofs.Outer
import Verif.Proofs.Exclude

/-!
# Indexing the last axes of a tensor
-/

set_option linter.unusedSectionVars false

namespace TI
open Tensor

variable {α : Type} [Zero α]

/-! ## multi-indices -/

theorem inB_split {s t ix : List Nat} (h : InB (s ++ t) ix) : ∃ bi jt, ix = bi ++ jt ∧ InB s bi ∧ InB t jt := by
  have hl := h.length_eq
  simp only [List.length_append] at hl
  have e : ix = ix.take s.length ++ ix.drop s.length := (List.take_append_drop _ _).symm
  rw [e, inB_append (by simp; omega)] at h
  exact ⟨_, _, e, h.1, h.2⟩

theorem inB_join {s t bi jt : List Nat} (h : InB s bi) (h' : InB t jt) : InB (s ++ t) (bi ++ jt) :=
  (inB_append h.length_eq).2 ⟨h, h'⟩

theorem inB_two {h w : Nat} {jt : List Nat} (hj : InB [h, w] jt) : ∃ i j, jt = [i, j] ∧ i < h ∧ j < w := by
  match jt, hj with
  | [i, j], ⟨h1, h2, _⟩ => exact ⟨i, j, rfl, h1, h2⟩

theorem inB_three {c h w : Nat} {jt : List Nat} (hj : InB [c, h, w] jt) : ∃ k i j, jt = [k, i, j] ∧ k < c ∧ i < h ∧ j < w := by
  match jt, hj with
  | [k, i, j], ⟨h1, h2, h3, _⟩ => exact ⟨k, i, j, rfl, h1, h2, h3⟩

/-- equality of images, entry by entry -/
theorem ext3 {x y : Tensor α} {b : List Nat} {c h w : Nat} (hx : x.shape = b ++ [c, h, w]) (hy : y.shape = b ++ [c, h, w])
    (he : ∀ bi k i j, InB b bi → k < c → i < h → j < w → x.get (bi ++ [k, i, j]) = y.get (bi ++ [k, i, j])) : x = y := by
  refine ext_get (hx.trans hy.symm) ?_
  intro ix hix
  rw [hx] at hix
  obtain ⟨bi, jt, rfl, h1, h2⟩ := inB_split hix
  obtain ⟨k, i, j, rfl, h3, h4, h5⟩ := inB_three h2
  exact he bi k i j h1 h3 h4 h5

theorem inB3 {b bi : List Nat} {c h w k i j : Nat} (hb : InB b bi) (hk : k < c) (hi : i < h) (hj : j < w) :
    InB (b ++ [c, h, w]) (bi ++ [k, i, j]) := inB_join hb ⟨hk, hi, hj, trivial⟩

theorem inB2 {b bi : List Nat} {h w i j : Nat} (hb : InB b bi) (hi : i < h) (hj : j < w) :
    InB (b ++ [h, w]) (bi ++ [i, j]) := inB_join hb ⟨hi, hj, trivial⟩

theorem take_end {b t : List Nat} {n : Nat} (h : n = t.length) : (b ++ t).take ((b ++ t).length - n) = b := by
  rw [h, List.length_append, Nat.add_sub_cancel, List.take_left']
  rfl

theorem drop_end {b t : List Nat} {n : Nat} (h : n = t.length) : (b ++ t).drop ((b ++ t).length - n) = t := by
  rw [h, List.length_append, Nat.add_sub_cancel, List.drop_left']
  rfl

theorem getD_end {b t : List Nat} {n : Nat} (h : n ≤ t.length) (h0 : 0 < n) : (b ++ t).getD ((b ++ t).length - n) 0 = t.getD (t.length - n) 0 := by
  have h1 : (b ++ t).length - n = b.length + (t.length - n) := by
    simp only [List.length_append]
    omega
  rw [h1, List.getD_eq_getElem?_getD, List.getElem?_append_right (by omega), Nat.add_sub_cancel_left, List.getD_eq_getElem?_getD]

theorem take_two (b : List Nat) (i j : Nat) : (b ++ [i, j]).take ((b ++ [i, j]).length - 2) = b := take_end rfl

theorem drop_two (b : List Nat) (i j : Nat) : (b ++ [i, j]).drop ((b ++ [i, j]).length - 2) = [i, j] := drop_end rfl

theorem take_three (b : List Nat) (k i j : Nat) : (b ++ [k, i, j]).take ((b ++ [k, i, j]).length - 3) = b := take_end rfl

theorem take_three_two (b : List Nat) (k i j : Nat) : (b ++ [k, i, j]).take ((b ++ [k, i, j]).length - 2) = b ++ [k] := by
  have e : b ++ [k, i, j] = (b ++ [k]) ++ [i, j] := by simp
  rw [e, take_two]

theorem drop_three_two (b : List Nat) (k i j : Nat) : (b ++ [k, i, j]).drop ((b ++ [k, i, j]).length - 2) = [i, j] := by
  have e : b ++ [k, i, j] = (b ++ [k]) ++ [i, j] := by simp
  rw [e, drop_two]

theorem getD_three (b : List Nat) (k i j : Nat) : (b ++ [k, i, j]).getD ((b ++ [k, i, j]).length - 3) 0 = k := by
  rw [getD_end (by simp) (by simp)]; rfl

theorem getD_two (b : List Nat) (k i j : Nat) : (b ++ [k, i, j]).getD ((b ++ [k, i, j]).length - 2) 0 = i := by
  rw [getD_end (by simp) (by simp)]; rfl

theorem getD_one (b : List Nat) (k i j : Nat) : (b ++ [k, i, j]).getD ((b ++ [k, i, j]).length - 1) 0 = j := by
  rw [getD_end (by simp) (by simp)]; rfl

section
variable {x : Tensor α} {b : List Nat} {c h w : Nat}

theorem initShape3 (hx : x.shape = b ++ [c, h, w]) : x.initShape 3 = b := by
  rw [initShape, hx]; exact take_end rfl

theorem initShape2 (hx : x.shape = b ++ [c, h, w]) : x.initShape 2 = b ++ [c] := by
  rw [initShape, hx, show b ++ [c, h, w] = (b ++ [c]) ++ [h, w] by simp]; exact take_end rfl

theorem lastTwo (hx : x.shape = b ++ [h, w]) : x.shape.drop (x.shape.length - 2) = [h, w] := by
  rw [hx]; exact drop_end rfl

theorem lastTwo3 (hx : x.shape = b ++ [c, h, w]) : x.shape.drop (x.shape.length - 2) = [h, w] :=
  lastTwo (b := b ++ [c]) (by simp [hx])

theorem axisEnd_three (hx : x.shape = b ++ [c, h, w]) : x.axisEnd 3 = c := by
  rw [axisEnd, hx, getD_end (by simp) (by simp)]; rfl

theorem axisEnd_two (hx : x.shape = b ++ [c, h, w]) : x.axisEnd 2 = h := by
  rw [axisEnd, hx, getD_end (by simp) (by simp)]; rfl

theorem axisEnd_one (hx : x.shape = b ++ [c, h, w]) : x.axisEnd 1 = w := by
  rw [axisEnd, hx, getD_end (by simp) (by simp)]; rfl

theorem ndim_three (hx : x.shape = b ++ [c, h, w]) : x.ndim = b.length + 3 := by
  rw [ndim, hx]; simp

/-- every tensor of rank three or more is a batch of images -/
theorem split_shape (hn : 3 ≤ x.ndim) : x.shape = x.initShape 3 ++ [x.axisEnd 3, x.axisEnd 2, x.axisEnd 1] := by
  have hl : (x.shape.drop (x.shape.length - 3)).length = 3 := by
    rw [ndim] at hn
    simp only [List.length_drop]
    omega
  have e : x.shape = x.shape.take (x.shape.length - 3) ++ x.shape.drop (x.shape.length - 3) := (List.take_append_drop _ _).symm
  match hd : x.shape.drop (x.shape.length - 3), hl with
  | [c, h, w], _ =>
    rw [hd] at e
    rw [initShape3 e, axisEnd_three e, axisEnd_two e, axisEnd_one e]
    exact e

end

/-! ## slices of the last axes -/

theorem resolveAll_lastIdx {b t : List Nat} {sl : List PySlice} (hl : sl.length = t.length) :
    resolveAll (lastIdx (b ++ t).length sl) (b ++ t) = b.map (PySlice.full.resolve ·) ++ resolveAll sl t := by
  rw [lastIdx, hl, List.length_append, Nat.add_sub_cancel]
  induction b with
  | nil => rfl
  | cons n b ih =>
    simp only [List.length_cons, List.replicate_succ, List.cons_append, List.map_cons, resolveAll]
    rw [ih]

theorem full_cnt (n : Nat) : (PySlice.full.resolve n).cnt = n := by simp [PySlice.full, PySlice.resolve]

theorem map_full_cnt (b : List Nat) : (b.map (PySlice.full.resolve ·)).map (·.cnt) = b := by
  rw [List.map_map]
  conv_rhs => rw [← List.map_id b]
  apply List.map_congr_left
  intro n _
  exact full_cnt n

theorem rngMap_full {b bi jt : List Nat} {rs : List Rng} (h : bi.length = b.length) :
    rngMap (b.map (PySlice.full.resolve ·) ++ rs) (bi ++ jt) = bi ++ rngMap rs jt := by
  induction b generalizing bi with
  | nil =>
    have : bi = [] := by simpa using h
    simp [this]
  | cons n b ih =>
    cases bi with
    | nil => simp at h
    | cons i bi =>
      simp only [List.map_cons, List.cons_append, rngMap, List.zipWith_cons_cons]
      have := ih (bi := bi) (by simpa using h)
      rw [rngMap] at this
      rw [this]
      simp [PySlice.full, PySlice.resolve, rngMap]

theorem rngInv_full {b bi jt : List Nat} {rs : List Rng} (h : InB b bi) :
    rngInv (b.map (PySlice.full.resolve ·) ++ rs) (bi ++ jt) = (rngInv rs jt).map (bi ++ ·) := by
  induction b generalizing bi with
  | nil =>
    have : bi = [] := by simpa using h.length_eq
    simp [this]
  | cons n b ih =>
    cases bi with
    | nil => cases h
    | cons i bi =>
      obtain ⟨h1, h2⟩ := h
      have e : (PySlice.full.resolve n).inv i = some i := by
        simp [PySlice.full, PySlice.resolve, Rng.inv, h1, Nat.mod_one]
      simp only [List.map_cons, List.cons_append, rngInv, ih h2, e]
      cases rngInv rs jt <;> rfl

theorem getLast_eq {x : Tensor α} {b t : List Nat} {sl : List PySlice} (hx : x.shape = b ++ t) (hl : sl.length = t.length) :
    ∃ z, x.getLast sl = .ok z ∧ z.shape = b ++ (resolveAll sl t).map (·.cnt) ∧
      ∀ bi jt, InB b bi → InB ((resolveAll sl t).map (·.cnt)) jt → z.get (bi ++ jt) = x.get (bi ++ rngMap (resolveAll sl t) jt) := by
  have hr := resolveAll_lastIdx (b := b) hl
  have hn : ¬ x.ndim < sl.length := by
    rw [ndim, hx, List.length_append, hl]
    omega
  refine ⟨_, by rw [Tensor.getLast, if_neg hn], ?_, ?_⟩
  · rw [getSlice, ndim, hx, hr]
    simp only [shape_ofFn, List.map_append, map_full_cnt]
  · intro bi jt hb hj
    rw [getSlice, ndim, hx, hr, get_ofFn, rngMap_full hb.length_eq]
    rw [List.map_append, map_full_cnt]
    exact inB_join hb hj

theorem setLast_eq {y v : Tensor α} {b t : List Nat} {sl : List PySlice} (hy : y.shape = b ++ t) (hl : sl.length = t.length)
    (hv : v.shape = b ++ (resolveAll sl t).map (·.cnt)) (hlt : ∀ jt jt', InB t jt → rngInv (resolveAll sl t) jt = some jt' →
      InB ((resolveAll sl t).map (·.cnt)) jt') :
    ∃ z, y.setLast sl v = .ok z ∧ z.shape = y.shape ∧
      ∀ bi jt, InB b bi → InB t jt → z.get (bi ++ jt) = match rngInv (resolveAll sl t) jt with
        | some jt' => v.get (bi ++ jt')
        | none => y.get (bi ++ jt) := by
  have hr := resolveAll_lastIdx (b := b) hl
  have hn : ¬ y.ndim < sl.length := by
    rw [ndim, hy, List.length_append, hl]
    omega
  refine ⟨ofFn y.shape fun ix => match rngInv (resolveAll (lastIdx y.ndim sl) y.shape) ix with
    | some jx => v.get (bidx v.shape jx)
    | none => y.get ix, ?_, rfl, ?_⟩
  · rw [setLast, if_neg hn, setSlice]
    have : bcastable v.shape ((resolveAll (lastIdx y.ndim sl) y.shape).map (·.cnt)) = true := by
      rw [ndim, hy, hr, List.map_append, map_full_cnt, hv]
      exact bcastable_self _
    simp only [this, if_true]
    rfl
  · intro bi jt hb hj
    rw [get_ofFn (by rw [hy]; exact inB_join hb hj), ndim, hy, hr, rngInv_full hb]
    cases hi : rngInv (resolveAll sl t) jt with
    | none => rfl
    | some jt' =>
      simp only [Option.map_some]
      rw [bidx_self]
      rw [hv]
      exact inB_join hb (hlt _ _ hj hi)

/-! ## the slices of the code -/

/-- number of positions `i < n` with `i % 2 = r` -/
def half (n r : Nat) : Nat := (n - r + 1) / 2

theorem half_even {n r : Nat} (h : n % 2 = 0) (hr : r < 2) : half n r = n / 2 := by
  rw [half]
  omega

theorem every2_resolve {n r : Nat} (hr : r < 2) (hn : r ≤ n) : (every2 r).resolve n = ⟨r, half n r, 2⟩ := by
  simp only [every2, PySlice.strided, PySlice.resolve, normBound, half]
  have h1 : ¬ ((r : Int) < 0) := by omega
  simp only [h1, if_false, Int.toNat_natCast, Nat.min_eq_left hn]

theorem every2_cnt {n r : Nat} (hr : r < 2) : ((every2 r).resolve n).cnt = half n r := by
  simp only [every2, PySlice.strided, PySlice.resolve, normBound, half]
  have h1 : ¬ ((r : Int) < 0) := by omega
  simp only [h1, if_false, Int.toNat_natCast]
  omega

theorem every2_map {n r i : Nat} (hr : r < 2) (hi : i < half n r) : ((every2 r).resolve n).lo + ((every2 r).resolve n).step * i = 2 * i + r := by
  rw [half] at hi
  rw [every2_resolve hr (by omega)]
  simp only
  omega

theorem half_lt {n r i : Nat} (hi : i < half n r) : 2 * i + r < n := by
  rw [half] at hi
  omega

theorem every2_inv {n r i : Nat} (hr : r < 2) (hi : i < n) : ((every2 r).resolve n).inv i = if i % 2 = r then some (i / 2) else none := by
  by_cases hn : r ≤ n
  · rw [every2_resolve hr hn]
    change (if r ≤ i ∧ (i - r) % 2 = 0 ∧ (i - r) / 2 < (n - r + 1) / 2 then some ((i - r) / 2) else none) = _
    by_cases h : i % 2 = r
    · rw [if_pos h, if_pos (by omega)]
      congr 1
      omega
    · rw [if_neg h, if_neg (by omega)]
  · omega

theorem div2_lt_half {n r i : Nat} (hi : i < n) (h : i % 2 = r) : i / 2 < half n r := by
  rw [half]
  omega

theorem one_resolve {n k : Nat} (hk : k < n) : (Tensor.one k).resolve n = ⟨k, 1, 1⟩ := by
  simp only [Tensor.one, PySlice.between, PySlice.resolve, normBound]
  have h1 : ¬ ((k : Int) < 0) := by omega
  have h2 : ¬ ((k : Int) + 1 < 0) := by omega
  simp only [h1, h2, if_false, Int.toNat_natCast]
  congr 1
  · omega
  · have : ((k : Int) + 1).toNat = k + 1 := by omega
    rw [this]
    omega

theorem one_inv {n k q : Nat} (hk : k < n) : ((Tensor.one k).resolve n).inv q = if q = k then some 0 else none := by
  rw [one_resolve hk]
  change (if k ≤ q ∧ (q - k) % 1 = 0 ∧ (q - k) / 1 < 1 then some ((q - k) / 1) else none) = _
  by_cases h : q = k
  · rw [if_pos h, if_pos (by omega)]
    congr 1
    omega
  · rw [if_neg h, if_neg (by omega)]

theorem full_inv {n i : Nat} (hi : i < n) : (PySlice.full.resolve n).inv i = some i := by
  simp [PySlice.full, PySlice.resolve, Rng.inv, hi, Nat.mod_one]

theorem full_map {n i : Nat} : (PySlice.full.resolve n).lo + (PySlice.full.resolve n).step * i = i := by
  simp [PySlice.full, PySlice.resolve]

/-! ## reading -/

section
variable {x : Tensor α} {b : List Nat} {c h w : Nat}

/-- `x[..., r::2, c::2]` -/
theorem getTile (hx : x.shape = b ++ [h, w]) {r s : Nat} (hr : r < 2) (hs : s < 2) :
    ∃ z, x.getLast [every2 r, every2 s] = .ok z ∧ z.shape = b ++ [half h r, half w s] ∧
      ∀ bi i j, InB b bi → i < half h r → j < half w s → z.get (bi ++ [i, j]) = x.get (bi ++ [2 * i + r, 2 * j + s]) := by
  obtain ⟨z, h1, h2, h3⟩ := getLast_eq (sl := [every2 r, every2 s]) hx rfl
  simp only [resolveAll, List.map_cons, List.map_nil, every2_cnt hr, every2_cnt hs] at h2 h3
  refine ⟨z, h1, h2, ?_⟩
  intro bi i j hb hi hj
  rw [h3 bi [i, j] hb ⟨hi, hj, trivial⟩]
  simp only [rngMap, List.zipWith_cons_cons, List.zipWith_nil_left, every2_map hr hi, every2_map hs hj]

/-- `x[..., :, r::2, c::2]` -/
theorem getTileAll (hx : x.shape = b ++ [c, h, w]) {r s : Nat} (hr : r < 2) (hs : s < 2) :
    ∃ z, x.getLast [.full, every2 r, every2 s] = .ok z ∧ z.shape = b ++ [c, half h r, half w s] ∧
      ∀ bi k i j, InB b bi → k < c → i < half h r → j < half w s → z.get (bi ++ [k, i, j]) = x.get (bi ++ [k, 2 * i + r, 2 * j + s]) := by
  obtain ⟨z, h1, h2, h3⟩ := getLast_eq (sl := [.full, every2 r, every2 s]) hx rfl
  simp only [resolveAll, List.map_cons, List.map_nil, every2_cnt hr, every2_cnt hs, full_cnt] at h2 h3
  refine ⟨z, h1, h2, ?_⟩
  intro bi k i j hb hk hi hj
  rw [h3 bi [k, i, j] hb ⟨hk, hi, hj, trivial⟩]
  simp only [rngMap, List.zipWith_cons_cons, List.zipWith_nil_left, every2_map hr hi, every2_map hs hj, full_map]

theorem hasChan_iff (hx : x.shape = b ++ [c, h, w]) {k : Nat} : x.hasChan k = true ↔ k < c := by
  simp [hasChan, axisEnd_three hx, ndim_three hx]

/-- `x[..., [k], r::2, c::2]` -/
theorem getChanTile (hx : x.shape = b ++ [c, h, w]) {k r s : Nat} (hk : k < c) (hr : r < 2) (hs : s < 2) :
    ∃ z, x.getChan k (every2 r) (every2 s) = .ok z ∧ z.shape = b ++ [1, half h r, half w s] ∧
      ∀ bi i j, InB b bi → i < half h r → j < half w s → z.get (bi ++ [0, i, j]) = x.get (bi ++ [k, 2 * i + r, 2 * j + s]) := by
  obtain ⟨z, h1, h2, h3⟩ := getLast_eq (sl := [Tensor.one k, every2 r, every2 s]) hx rfl
  simp only [resolveAll, List.map_cons, List.map_nil, every2_cnt hr, every2_cnt hs, one_resolve hk] at h2 h3
  refine ⟨z, by rw [getChan, if_pos ((hasChan_iff hx).2 hk), h1], h2, ?_⟩
  intro bi i j hb hi hj
  rw [h3 bi [0, i, j] hb ⟨Nat.one_pos, hi, hj, trivial⟩]
  simp only [rngMap, List.zipWith_cons_cons, List.zipWith_nil_left, every2_map hr hi, every2_map hs hj, Nat.mul_zero, Nat.add_zero]

/-- `x[..., [k], :, :]` -/
theorem getChanFull (hx : x.shape = b ++ [c, h, w]) {k : Nat} (hk : k < c) :
    ∃ z, x.getChan k .full .full = .ok z ∧ z.shape = b ++ [1, h, w] ∧
      ∀ bi i j, InB b bi → i < h → j < w → z.get (bi ++ [0, i, j]) = x.get (bi ++ [k, i, j]) := by
  obtain ⟨z, h1, h2, h3⟩ := getLast_eq (sl := [Tensor.one k, .full, .full]) hx rfl
  simp only [resolveAll, List.map_cons, List.map_nil, full_cnt, one_resolve hk] at h2 h3
  refine ⟨z, by rw [getChan, if_pos ((hasChan_iff hx).2 hk), h1], h2, ?_⟩
  intro bi i j hb hi hj
  rw [h3 bi [0, i, j] hb ⟨Nat.one_pos, hi, hj, trivial⟩]
  simp only [rngMap, List.zipWith_cons_cons, List.zipWith_nil_left, full_map, Nat.mul_zero, Nat.add_zero]

theorem squeeze3_shape (hx : x.shape = b ++ [c, h, w]) : x.squeeze3.shape = b ++ [h, w] := by
  rw [squeeze3, shape_ofFn, initShape3 hx, lastTwo3 hx]

theorem squeeze3_get (hx : x.shape = b ++ [c, h, w]) {bi : List Nat} {i j : Nat} (hb : InB b bi) (hi : i < h) (hj : j < w) :
    x.squeeze3.get (bi ++ [i, j]) = x.get (bi ++ [0, i, j]) := by
  rw [squeeze3, initShape3 hx, lastTwo3 hx, get_ofFn (inB2 hb hi hj), take_two, drop_two]

theorem unsqueeze3_shape (hx : x.shape = b ++ [h, w]) : x.unsqueeze3.shape = b ++ [1, h, w] := by
  rw [unsqueeze3, shape_ofFn, initShape, lastTwo hx, hx, take_two]

theorem unsqueeze3_get (hx : x.shape = b ++ [h, w]) {bi : List Nat} {i j : Nat} (hb : InB b bi) (hi : i < h) (hj : j < w) :
    x.unsqueeze3.get (bi ++ [0, i, j]) = x.get (bi ++ [i, j]) := by
  rw [unsqueeze3, initShape, lastTwo hx, hx, take_two, get_ofFn (inB3 hb Nat.one_pos hi hj), take_three, drop_three_two]

/-- `x[..., k, r::2, c::2]` -/
theorem getPlaneTile (hx : x.shape = b ++ [c, h, w]) {k r s : Nat} (hk : k < c) (hr : r < 2) (hs : s < 2) :
    ∃ z, x.getPlane k (every2 r) (every2 s) = .ok z ∧ z.shape = b ++ [half h r, half w s] ∧
      ∀ bi i j, InB b bi → i < half h r → j < half w s → z.get (bi ++ [i, j]) = x.get (bi ++ [k, 2 * i + r, 2 * j + s]) := by
  obtain ⟨z, h1, h2, h3⟩ := getChanTile hx hk hr hs
  refine ⟨z.squeeze3, by rw [getPlane, h1, ok_bind], squeeze3_shape h2, ?_⟩
  intro bi i j hb hi hj
  rw [squeeze3_get h2 hb hi hj, h3 bi i j hb hi hj]

/-- `x[..., k, :, :]` -/
theorem getPlaneFull (hx : x.shape = b ++ [c, h, w]) {k : Nat} (hk : k < c) :
    ∃ z, x.getPlane k .full .full = .ok z ∧ z.shape = b ++ [h, w] ∧
      ∀ bi i j, InB b bi → i < h → j < w → z.get (bi ++ [i, j]) = x.get (bi ++ [k, i, j]) := by
  obtain ⟨z, h1, h2, h3⟩ := getChanFull hx hk
  refine ⟨z.squeeze3, by rw [getPlane, h1, ok_bind], squeeze3_shape h2, ?_⟩
  intro bi i j hb hi hj
  rw [squeeze3_get h2 hb hi hj, h3 bi i j hb hi hj]

end

/-! ## writing -/

section
variable {y v : Tensor α} {b : List Nat} {c h w : Nat}

/-- `y[..., r::2, c::2] = v` -/
theorem setTile (hy : y.shape = b ++ [c, h, w]) {r s : Nat} (hr : r < 2) (hs : s < 2) (hv : v.shape = b ++ [c, half h r, half w s]) :
    ∃ z, y.setLast [every2 r, every2 s] v = .ok z ∧ z.shape = y.shape ∧
      ∀ bi q i j, InB b bi → q < c → i < h → j < w → z.get (bi ++ [q, i, j]) =
        if i % 2 = r ∧ j % 2 = s then v.get (bi ++ [q, i / 2, j / 2]) else y.get (bi ++ [q, i, j]) := by
  have hy' : y.shape = (b ++ [c]) ++ [h, w] := by simp [hy]
  have hi2 : ∀ i j, i < h → j < w → rngInv (resolveAll [every2 r, every2 s] [h, w]) [i, j] =
      if i % 2 = r ∧ j % 2 = s then some [i / 2, j / 2] else none := by
    intro i j hi hj
    simp only [resolveAll, rngInv, every2_inv hr hi, every2_inv hs hj]
    by_cases h1 : i % 2 = r <;> by_cases h2 : j % 2 = s <;> simp [h1, h2]
  obtain ⟨z, h1, h2, h3⟩ := setLast_eq (v := v) (sl := [every2 r, every2 s]) hy' rfl
    (by simp only [resolveAll, List.map_cons, List.map_nil, every2_cnt hr, every2_cnt hs, hv]; simp) (by
      intro jt jt' hjt e
      obtain ⟨i, j, rfl, hi, hj⟩ := inB_two hjt
      rw [hi2 i j hi hj] at e
      by_cases hc : i % 2 = r ∧ j % 2 = s
      · rw [if_pos hc] at e
        simp only [Option.some.injEq] at e
        subst e
        simp only [resolveAll, List.map_cons, List.map_nil, every2_cnt hr, every2_cnt hs]
        exact ⟨div2_lt_half hi hc.1, div2_lt_half hj hc.2, trivial⟩
      · rw [if_neg hc] at e
        cases e)
  refine ⟨z, h1, h2, ?_⟩
  intro bi q i j hb hq hi hj
  have e := h3 (bi ++ [q]) [i, j] (inB_join hb ⟨hq, trivial⟩) ⟨hi, hj, trivial⟩
  rw [hi2 i j hi hj] at e
  simp only [List.append_assoc, List.cons_append, List.nil_append] at e
  rw [e]
  split_ifs <;> simp

/-- `y[..., [k], r::2, c::2] = v` -/
theorem setChanTile (hy : y.shape = b ++ [c, h, w]) {k r s : Nat} (hk : k < c) (hr : r < 2) (hs : s < 2)
    (hv : v.shape = b ++ [1, half h r, half w s]) :
    ∃ z, y.setChan k (every2 r) (every2 s) v = .ok z ∧ z.shape = y.shape ∧
      ∀ bi q i j, InB b bi → q < c → i < h → j < w → z.get (bi ++ [q, i, j]) =
        if q = k ∧ i % 2 = r ∧ j % 2 = s then v.get (bi ++ [0, i / 2, j / 2]) else y.get (bi ++ [q, i, j]) := by
  have hi2 : ∀ q i j, i < h → j < w → rngInv (resolveAll [Tensor.one k, every2 r, every2 s] [c, h, w]) [q, i, j] =
      if q = k ∧ i % 2 = r ∧ j % 2 = s then some [0, i / 2, j / 2] else none := by
    intro q i j hi hj
    simp only [resolveAll, rngInv, every2_inv hr hi, every2_inv hs hj, one_inv hk]
    by_cases h0 : q = k <;> by_cases h1 : i % 2 = r <;> by_cases h2 : j % 2 = s <;> simp [h0, h1, h2]
  obtain ⟨z, h1, h2, h3⟩ := setLast_eq (v := v) (sl := [Tensor.one k, every2 r, every2 s]) hy rfl
    (by simp only [resolveAll, List.map_cons, List.map_nil, every2_cnt hr, every2_cnt hs, one_resolve hk, hv]) (by
      intro jt jt' hjt e
      obtain ⟨q, i, j, rfl, hq, hi, hj⟩ := inB_three hjt
      rw [hi2 q i j hi hj] at e
      by_cases hc : q = k ∧ i % 2 = r ∧ j % 2 = s
      · rw [if_pos hc] at e
        simp only [Option.some.injEq] at e
        subst e
        simp only [resolveAll, List.map_cons, List.map_nil, every2_cnt hr, every2_cnt hs, one_resolve hk]
        exact ⟨Nat.one_pos, div2_lt_half hi hc.2.1, div2_lt_half hj hc.2.2, trivial⟩
      · rw [if_neg hc] at e
        cases e)
  refine ⟨z, by rw [setChan, if_pos ((hasChan_iff hy).2 hk), h1], h2, ?_⟩
  intro bi q i j hb hq hi hj
  rw [h3 bi [q, i, j] hb ⟨hq, hi, hj, trivial⟩, hi2 q i j hi hj]
  split_ifs <;> rfl

/-- `y[..., k, r::2, c::2] = v` -/
theorem setPlaneTile (hy : y.shape = b ++ [c, h, w]) {k r s : Nat} (hk : k < c) (hr : r < 2) (hs : s < 2)
    (hv : v.shape = b ++ [half h r, half w s]) :
    ∃ z, y.setPlane k (every2 r) (every2 s) v = .ok z ∧ z.shape = y.shape ∧
      ∀ bi q i j, InB b bi → q < c → i < h → j < w → z.get (bi ++ [q, i, j]) =
        if q = k ∧ i % 2 = r ∧ j % 2 = s then v.get (bi ++ [i / 2, j / 2]) else y.get (bi ++ [q, i, j]) := by
  obtain ⟨z, h1, h2, h3⟩ := setChanTile hy hk hr hs (unsqueeze3_shape hv)
  refine ⟨z, h1, h2, ?_⟩
  intro bi q i j hb hq hi hj
  rw [h3 bi q i j hb hq hi hj]
  by_cases hc : q = k ∧ i % 2 = r ∧ j % 2 = s
  · rw [if_pos hc, if_pos hc, unsqueeze3_get hv hb (div2_lt_half hi hc.2.1) (div2_lt_half hj hc.2.2)]
  · rw [if_neg hc, if_neg hc]

end

/-! ## joining -/

section
variable {b : List Nat} {h w : Nat}

theorem stack3_eq {x : Tensor α} {rest : List (Tensor α)} (hx : ∀ y ∈ x :: rest, y.shape = b ++ [h, w]) :
    ∃ z, stack3 (x :: rest) = .ok z ∧ z.shape = b ++ [rest.length + 1, h, w] ∧
      ∀ bi k i j, InB b bi → k < rest.length + 1 → i < h → j < w →
        z.get (bi ++ [k, i, j]) = ((x :: rest).map fun y => y.get (bi ++ [i, j])).getD k 0 := by
  have h0 := hx x (by simp)
  have hn : ¬ x.ndim < 2 := by rw [ndim, h0]; simp
  have hall : (rest.all fun y => y.shape == x.shape) = true := by
    rw [List.all_eq_true]
    intro y hy
    rw [hx y (by simp [hy]), h0]
    simp
  refine ⟨_, by simp only [stack3, if_neg hn, hall, if_true]; rfl, ?_, ?_⟩
  · rw [shape_ofFn, initShape, lastTwo h0, h0, take_two]
  · intro bi k i j hb hk hi hj
    rw [get_ofFn (by rw [initShape, lastTwo h0, h0, take_two]; exact inB3 hb hk hi hj), take_three, getD_three, drop_three_two]

theorem cat3_eq {x : Tensor α} {rest : List (Tensor α)} (hx : ∀ y ∈ x :: rest, y.shape = b ++ [1, h, w]) :
    ∃ z, cat3 (x :: rest) = .ok z ∧ z.shape = b ++ [rest.length + 1, h, w] ∧
      ∀ bi k i j, InB b bi → k < rest.length + 1 → i < h → j < w →
        z.get (bi ++ [k, i, j]) = ((x :: rest).map fun y => y.get (bi ++ [0, i, j])).getD k 0 := by
  have h0 := hx x (by simp)
  have hn : ¬ x.ndim < 3 := by rw [ndim, h0]; simp
  have hall : (rest.all fun y => y.ndim == x.ndim && y.initShape 3 == x.initShape 3 &&
      y.shape.drop (y.shape.length - 2) == x.shape.drop (x.shape.length - 2)) = true := by
    rw [List.all_eq_true]
    intro y hy
    have := hx y (by simp [hy])
    rw [initShape3 this, initShape3 h0, lastTwo3 this, lastTwo3 h0, ndim, ndim, this, h0]
    simp
  have hsum : ∀ l : List (Tensor α), (∀ y ∈ l, y.shape = b ++ [1, h, w]) → (l.map fun y => y.axisEnd 3).sum = l.length := by
    intro l hl
    induction l with
    | nil => rfl
    | cons y l ih =>
      rw [List.map_cons, List.sum_cons, ih (fun z hz => hl z (by simp [hz])), axisEnd_three (hl y (by simp)), List.length_cons]
      omega
  have hflat : ∀ (f : Nat → Tensor α → α) (l : List (Tensor α)), (∀ y ∈ l, y.shape = b ++ [1, h, w]) →
      (l.flatMap fun y => (List.range (y.axisEnd 3)).map fun k => f k y) = l.map (f 0) := by
    intro f l hl
    induction l with
    | nil => rfl
    | cons y l ih =>
      rw [List.flatMap_cons, List.map_cons, ih (fun z hz => hl z (by simp [hz])), axisEnd_three (hl y (by simp))]
      rfl
  refine ⟨_, by simp only [cat3, if_neg hn, hall, if_true]; rfl, ?_, ?_⟩
  · rw [shape_ofFn, initShape3 h0, lastTwo3 h0, hsum _ hx, List.length_cons]
  · intro bi k i j hb hk hi hj
    rw [get_ofFn (by rw [initShape3 h0, lastTwo3 h0, hsum _ hx, List.length_cons]; exact inB3 hb hk hi hj), take_three,
      getD_three, drop_three_two, hflat (fun k y => y.get (bi ++ k :: [i, j])) _ hx]

end

end TI
