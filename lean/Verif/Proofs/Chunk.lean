import Verif.Proofs.Window

/-! Broadcasting arithmetic and cache slicing on chunks. -/

namespace TI

open Tensor

theorem padOnes_self {n : Nat} {s : List Nat} (h : s.length = n) : padOnes n s = s := by
  simp [padOnes, h]

theorem bop_of_bshape {α β γ : Type} [Zero α] [Zero β] {f : α → β → γ} {x : Tensor α} {y : Tensor β}
    {s : List Nat} (h : bshape x.shape y.shape = some s) :
    bop f x y = .ok (ofFn s fun ix => f (x.get (bidx x.shape ix)) (y.get (bidx y.shape ix))) := by
  simp [bop, h]

theorem bshape_set_one (s : List Nat) (d m : Nat) : bshape (s.set d 1) (s.set d m) = some (s.set d m) := by
  have h1 : (List.zipWith (fun a b => a == b || a == 1 || b == 1) (s.set d 1) (s.set d m)).all id
      = true := by
    rw [all_zipWith_iff (by simp) 0]
    intro k hk
    by_cases hd : d < s.length
    · rw [getD_set _ _ _ _ _ hd, getD_set _ _ _ _ _ hd]
      split_ifs <;> simp
    · rw [List.set_eq_of_length_le (by omega), List.set_eq_of_length_le (by omega)]; simp
  have h2 : List.zipWith (fun a b => if a = 1 then b else a) (s.set d 1) (s.set d m) = s.set d m := by
    apply list_ext_getD (by simp)
    intro k hk
    have hk' : k < s.length := by simpa using hk
    rw [List.getD_eq_getElem?_getD, List.getElem?_zipWith,
      List.getElem?_eq_getElem (by simpa using hk'), List.getElem?_eq_getElem (by simpa using hk')]
    simp only [List.getD_eq_getElem?_getD, List.getElem?_eq_getElem (show k < (s.set d m).length by simpa using hk')]
    simp only [Option.getD_some, List.getElem_set]
    split_ifs <;> simp_all
  simp only [bshape, List.length_set, Nat.max_self]
  rw [padOnes_self (by simp), padOnes_self (by simp), h1, h2]
  rfl

theorem bshape_self (s : List Nat) : bshape s s = some s := by
  have := bshape_set_one s s.length 0
  rwa [List.set_eq_of_length_le (by omega), List.set_eq_of_length_le (by omega)] at this

variable {α : Type} [Zero α] {y0 : Tensor α} {W : List (Nat × Nat)} {d : Nat}

/-- changing the `d` coordinate inside the window does not change the fibre -/
theorem shift_set_fibre {jx : List Nat} (hl : jx.length = W.length) (t j : Nat) :
    (shift W (jx.set d t)).set d j = (shift W jx).set d j := by
  have hl' : (jx.set d t).length = W.length := by simpa using hl
  apply list_ext_getD
  · rw [List.length_set, List.length_set, length_shift hl', length_shift hl]
  intro k hk
  rw [List.length_set, length_shift hl'] at hk
  by_cases hkd : k = d
  · subst hkd
    rw [getD_set_self _ _ _ _ (by rw [length_shift hl']; exact hk),
      getD_set_self _ _ _ _ (by rw [length_shift hl]; exact hk)]
  · rw [getD_set_ne _ _ _ _ _ hkd, getD_set_ne _ _ _ _ _ hkd,
      getD_shift hl' hk, getD_shift hl hk, getD_set_ne _ _ _ _ _ hkd]

theorem get_chunk {g : (Nat → α) → Nat → α} {m : Nat} {jx : List Nat}
    (h : InB ((wlen W).set d m) jx) :
    (chunk y0 W d g m).get jx = g (fun j => y0.get ((shift W jx).set d j)) (jx.getD d 0) := by
  rw [chunk, get_ofFn h]

/-- `a op b` with `a` of extent one along `d` -/
theorem bop_chunk_one (hd : d < W.length) (f : α → α → α) (g g' : (Nat → α) → Nat → α) (m : Nat) :
    bop f (chunk y0 W d g 1) (chunk y0 W d g' m) =
      .ok (chunk y0 W d (fun u t => f (g u 0) (g' u t)) m) := by
  rw [bop_of_bshape (s := (wlen W).set d m) (by rw [shape_chunk, shape_chunk, bshape_set_one])]
  congr 1
  apply ofFn_congr
  intro jx hjx
  have hl := hjx.length_eq
  rw [List.length_set, length_wlen] at hl
  have hj0 : InB ((wlen W).set d 1) (jx.set d 0) := hjx.set (by omega)
  rw [shape_chunk, shape_chunk, bidx_set_one hjx, bidx_self hjx, get_chunk hjx, get_chunk hj0,
    getD_set_self _ _ _ _ (by omega)]
  simp only [shift_set_fibre hl]

theorem numel_replicate_one (k : Nat) : numel (List.replicate k 1) = 1 := by
  induction k with
  | zero => rfl
  | succ k ih => simp [List.replicate_succ, numel, ih]

theorem ravel_column (m k i : Nat) (rest : List Nat) (hr : rest.length = k)
    (h0 : ∀ j, j < k → rest.getD j 0 = 0) : ravel (m :: List.replicate k 1) (i :: rest) = i := by
  have : ∀ (k : Nat) (rest : List Nat), rest.length = k → (∀ j, j < k → rest.getD j 0 = 0) →
      ravel (List.replicate k 1) rest = 0 := by
    intro k
    induction k with
    | zero => intro rest _ _; simp [ravel]
    | succ k ih =>
      intro rest hr h0
      cases rest with
      | nil => simp at hr
      | cons a rest =>
        have ha : a = 0 := by simpa using h0 0 (by omega)
        simp only [List.replicate_succ, ravel, ha, Nat.zero_mul, Nat.zero_add]
        apply ih _ (by simpa using hr)
        intro j hj
        simpa using h0 (j + 1) (by omega)
  simp [ravel, numel_replicate_one, this k rest hr h0]

theorem bshape_column (s : List Nat) (d m : Nat) (hd : d < s.length) :
    bshape (m :: List.replicate (s.length - d - 1) 1) (s.set d 1) = some (s.set d m) := by
  have hmax : max (m :: List.replicate (s.length - d - 1) 1).length (s.set d 1).length = s.length := by
    simp; omega
  have hp : padOnes s.length (m :: List.replicate (s.length - d - 1) 1) =
      (List.replicate s.length 1).set d m := by
    have e1 : s.length - (m :: List.replicate (s.length - d - 1) 1).length = d := by simp; omega
    rw [padOnes, e1]
    apply list_ext_getD
    · simp; omega
    intro k hk
    have hk' : k < s.length := by
      simp at hk; omega
    rw [getD_set _ _ _ _ _ (by simpa using hd)]
    simp only [List.getD_eq_getElem?_getD, List.getElem?_append, List.length_replicate,
      List.getElem?_replicate, hk', if_true, List.getElem?_cons]
    by_cases h1 : k < d
    · have : k ≠ d := by omega
      simp [h1, this]
    · by_cases h2 : k = d
      · simp [h2]
      · have h3 : k - d ≠ 0 := by omega
        have h4 : k - d - 1 < s.length - d - 1 := by omega
        simp [h1, h2, h3, h4]
  have hp2 : padOnes s.length (s.set d 1) = s.set d 1 := padOnes_self (by simp)
  have g1 : ∀ k, k < s.length → ((List.replicate s.length 1).set d m).getD k 0
      = if k = d then m else 1 := by
    intro k hk
    rw [getD_set _ _ _ _ _ (by simpa using hd)]
    simp [List.getD_eq_getElem?_getD, hk]
  simp only [bshape, hmax, hp, hp2]
  rw [if_pos]
  · congr 1
    apply list_ext_getD (by simp)
    intro k hk
    have hk' : k < s.length := by simpa using hk
    have e1 := g1 k hk'
    have e2 : (s.set d 1).getD k 0 = if k = d then 1 else s.getD k 0 := getD_set _ _ _ _ _ hd
    have e3 : (s.set d m).getD k 0 = if k = d then m else s.getD k 0 := getD_set _ _ _ _ _ hd
    have hk1 : k < ((List.replicate s.length 1).set d m).length := by simpa using hk'
    have hk2 : k < (s.set d 1).length := by simpa using hk'
    rw [e3]
    simp only [List.getD_eq_getElem?_getD, List.getElem?_eq_getElem hk1,
      List.getElem?_eq_getElem hk2, Option.getD_some] at e1 e2
    rw [List.getD_eq_getElem?_getD, List.getElem?_zipWith, List.getElem?_eq_getElem hk1,
      List.getElem?_eq_getElem hk2]
    simp only [Option.getD_some, e1, e2]
    split_ifs <;> simp_all
  · rw [all_zipWith_iff (by simp) 0]
    intro k hk
    have hk' : k < s.length := by simpa using hk
    rw [g1 k hk', getD_set _ _ _ _ _ hd]
    split_ifs <;> simp

/-- `dist * a` with a column `dist` along `d` and `a` of extent one along `d` -/
theorem bop_column (hd : d < W.length) (f : α → α → α) (l : List α) (g : (Nat → α) → Nat → α)
    {n k m : Nat} (hn : n = W.length) (hk : k = n - d - 1) (hm : m = l.length) :
    bop f (column l k) (chunk y0 W d g 1) =
      .ok (chunk y0 W d (fun u t => f (l.getD t 0) (g u 0)) m) := by
  subst hn hk hm
  have hs : (column l (W.length - d - 1)).shape = l.length :: List.replicate ((wlen W).length - d - 1) 1 := by
    simp [column, length_wlen]
  rw [bop_of_bshape (s := (wlen W).set d l.length)
    (by rw [hs, shape_chunk, bshape_column _ _ _ (by simpa [length_wlen] using hd)])]
  congr 1
  apply ofFn_congr
  intro jx hjx
  have hl := hjx.length_eq
  rw [List.length_set, length_wlen] at hl
  have ht := hjx.lt (k := d) (by simpa [length_wlen] using hd)
  rw [getD_set_self _ _ _ _ (by simpa [length_wlen] using hd)] at ht
  have hj0 : InB ((wlen W).set d 1) (jx.set d 0) := hjx.set (by omega)
  rw [shape_chunk, bidx_set_one hjx, get_chunk hj0, getD_set_self _ _ _ _ (by omega)]
  simp only [shift_set_fibre hl]
  congr 1
  -- the column entry
  have hcol : bidx (column l (W.length - d - 1)).shape jx =
      jx.getD d 0 :: List.replicate (W.length - d - 1) 0 := by
    have hlen : (column l (W.length - d - 1)).shape.length = W.length - d := by
      simp [column]; omega
    apply list_ext_getD
    · rw [length_bidx (by omega), hlen]; simp; omega
    intro k hk
    rw [length_bidx (by omega), hlen] at hk
    rw [getD_bidx (by omega) (by omega), hlen, hl]
    have e1 : W.length - (W.length - d) + k = d + k := by omega
    rw [e1]
    cases k with
    | zero =>
      simp only [column, List.getD_cons_zero, Nat.add_zero]
      split_ifs with h1
      · omega
      · rfl
    | succ k =>
      have : k < W.length - d - 1 := by omega
      simp [column, List.getD_eq_getElem?_getD, this]
  rw [hcol, Tensor.get]
  simp only [column]
  rw [ravel_column _ _ _ _ (by simp)]
  intro j hj
  simp [List.getD_eq_getElem?_getD, hj]

/-- slicing a chunk along `d` with full slices elsewhere (`cache_flipped[g(...)]`) -/
theorem getSlice_chunk (hd : d < W.length) {g : (Nat → α) → Nat → α} {m a b n : Nat} {s : PySlice}
    (hs : s.resolve m = toRng (a, b)) (hbm : b ≤ m) (hn : n = W.length) :
    (chunk y0 W d g m).getSlice (makeIdx s d n) = chunk y0 W d (fun u t => g u (a + t)) (b - a) := by
  subst hn
  -- windows of the sliced chunk
  have hres : resolveAll (makeIdx s d W.length) ((wlen W).set d m) =
      ((((wlen W).map fun k => ((0, k) : Nat × Nat))).set d (a, b)).map toRng := by
    have h1 : makeIdx s d W.length = (List.replicate W.length PySlice.full).set d s := by
      apply List.ext_getElem
      · simp [makeIdx]; omega
      intro k h1 h2
      simp only [makeIdx, List.getElem_append, List.getElem_set, List.length_replicate,
        List.getElem_replicate, List.getElem_cons]
      by_cases hk : k < d
      · have : d ≠ k := by omega
        simp [hk, this]
      · by_cases hk2 : d = k
        · subst hk2; simp
        · have : k - d ≠ 0 := by omega
          simp [hk, this, hk2]
    have h2 : ∀ S : List Nat, resolveAll (List.replicate S.length PySlice.full) S =
        S.map fun n => toRng (0, n) := by
      intro S
      induction S with
      | nil => rfl
      | cons n S ih => simp [List.replicate_succ, resolveAll, ih, resolve_full]
    rw [h1, resolveAll_set (by simp [length_wlen])]
    have h3 := h2 ((wlen W).set d m)
    rw [List.length_set, length_wlen] at h3
    rw [h3, getD_set_self _ _ _ _ (by simpa [length_wlen] using hd), hs]
    rw [List.map_set, List.set_set, List.map_set, List.map_map]
    rfl
  rw [getSlice_win (x := chunk y0 W d g m) hres, wlen_set]
  have hw0 : wlen ((wlen W).map fun k => ((0, k) : Nat × Nat)) = wlen W := by
    simp [wlen, Function.comp_def]
  rw [hw0]
  apply ofFn_congr
  intro jx hjx
  have hl := hjx.length_eq
  rw [List.length_set, length_wlen] at hl
  have ht := hjx.lt (k := d) (by simpa [length_wlen] using hd)
  rw [getD_set_self _ _ _ _ (by simpa [length_wlen] using hd)] at ht
  have hV : ((wlen W).map fun k => ((0, k) : Nat × Nat)).length = W.length := by simp [length_wlen]
  have hsh0 : shift ((wlen W).map fun k => ((0, k) : Nat × Nat)) jx = jx := by
    apply list_ext_getD
    · rw [length_shift (by rw [hV, hl]), hV, hl]
    intro k hk
    rw [length_shift (by rw [hV, hl]), hV] at hk
    rw [getD_shift (by rw [hV, hl]) (by rw [hV]; exact hk)]
    have hk' : k < (wlen W).length := by rw [length_wlen]; exact hk
    simp [List.getD_eq_getElem?_getD, List.getElem?_eq_getElem hk']
  rw [shift_set (by rw [hV, hl]) (by rw [hV]; exact hd), hsh0]
  have hin : InB ((wlen W).set d m) (jx.set d (a + jx.getD d 0)) := hjx.set (by omega)
  rw [get_chunk hin, getD_set_self _ _ _ _ (by omega)]
  simp only [shift_set_fibre hl]

theorem bounds_idxOf {head tail : Nat} (hd : d < W.length) (h : W.getD d (0, 0) = (head, tail)) :
    bounds (idxOf W) d = .ok ((head : Int), (tail : Int)) := by
  have : W[d] = (head, tail) := by
    simpa [List.getD_eq_getElem?_getD, List.getElem?_eq_getElem hd] using h
  simp [bounds, idxOf, List.getElem?_eq_getElem hd, this, PySlice.between]

end TI
