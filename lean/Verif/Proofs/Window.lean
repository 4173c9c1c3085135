import Verif.Model.Pad1d
import Verif.Proofs.TensorLemmas
import Mathlib.Data.List.Forall2
import Mathlib.Tactic.SplitIfs
import Mathlib.Tactic.Push

/-!
Slicing a buffer by windows: `fill` (a buffer whose fibres along `d` are filled by `e` on
`[lo, hi)`) and `chunk` (a tensor over the window whose extent along `d` is `m`).
-/

namespace TI

open Tensor

/-- a window `lo ≤ hi ≤ n` on every axis -/
def WinOK (W : List (Nat × Nat)) (S : List Nat) : Prop :=
  List.Forall₂ (fun p n => p.1 ≤ p.2 ∧ p.2 ≤ n) W S

/-- index tuple of a window -/
def idxOf (W : List (Nat × Nat)) : List PySlice := W.map fun p => .between p.1 p.2

def wlen (W : List (Nat × Nat)) : List Nat := W.map fun p => p.2 - p.1

def toRng (p : Nat × Nat) : Rng := ⟨p.1, p.2 - p.1, 1⟩

/-- position in the buffer of a position in the window -/
def shift (W : List (Nat × Nat)) (jx : List Nat) : List Nat := List.zipWith (fun p j => p.1 + j) W jx

def unshift (W : List (Nat × Nat)) (ix : List Nat) : List Nat := List.zipWith (fun p i => i - p.1) W ix

def InWin (W : List (Nat × Nat)) (ix : List Nat) : Prop :=
  List.Forall₂ (fun p i => p.1 ≤ i ∧ i < p.2) W ix

instance decInWin : (W : List (Nat × Nat)) → (ix : List Nat) → Decidable (InWin W ix)
  | [], [] => isTrue List.Forall₂.nil
  | p :: W, i :: ix =>
    match decInWin W ix with
    | isTrue h => if h' : p.1 ≤ i ∧ i < p.2 then isTrue (List.Forall₂.cons h' h)
        else isFalse (fun c => by cases c; exact h' ‹_›)
    | isFalse h => isFalse (fun c => by cases c; exact h ‹_›)
  | [], _ :: _ => isFalse (fun c => by cases c)
  | _ :: _, [] => isFalse (fun c => by cases c)

theorem WinOK.length_eq {W S} (h : WinOK W S) : W.length = S.length := List.Forall₂.length_eq h

theorem WinOK.get {W S} (h : WinOK W S) {k : Nat} (hk : k < W.length) :
    (W.getD k (0, 0)).1 ≤ (W.getD k (0, 0)).2 ∧ (W.getD k (0, 0)).2 ≤ S.getD k 0 := by
  induction h generalizing k with
  | nil => simp at hk
  | cons h1 _ ih =>
    cases k with
    | zero => simpa using h1
    | succ k => simpa using ih (by simpa using hk)

theorem WinOK.set {W S} (h : WinOK W S) {d a b : Nat} (hab : a ≤ b) (hb : b ≤ S.getD d 0) :
    WinOK (W.set d (a, b)) S := by
  induction h generalizing d with
  | nil => exact List.Forall₂.nil
  | cons h1 h2 ih =>
    cases d with
    | zero => exact List.Forall₂.cons ⟨hab, by simpa using hb⟩ h2
    | succ d => exact List.Forall₂.cons h1 (ih (by simpa using hb))

theorem inWin_length {W ix} (h : InWin W ix) : ix.length = W.length := (List.Forall₂.length_eq h).symm

theorem inWin_iff {W ix} : InWin W ix ↔ ix.length = W.length ∧
    ∀ k, k < W.length → (W.getD k (0, 0)).1 ≤ ix.getD k 0 ∧ ix.getD k 0 < (W.getD k (0, 0)).2 := by
  induction W generalizing ix with
  | nil =>
    constructor
    · intro h; cases h; simp
    · rintro ⟨h, _⟩
      have : ix = [] := List.length_eq_zero_iff.1 (by simpa using h)
      subst this; exact List.Forall₂.nil
  | cons p W ih =>
    cases ix with
    | nil => simp [InWin]
    | cons i ix =>
      simp only [InWin, List.forall₂_cons] at ih ⊢
      rw [ih]
      constructor
      · rintro ⟨h1, h2, h3⟩
        refine ⟨by simpa using h2, ?_⟩
        intro k hk
        cases k with
        | zero => simpa using h1
        | succ k => simpa using h3 k (by simpa using hk)
      · rintro ⟨h1, h2⟩
        refine ⟨by simpa using h2 0 (by simp), by simpa using h1, ?_⟩
        intro k hk
        simpa using h2 (k + 1) (by simpa using hk)

theorem resolve_between {a b n : Nat} (hab : a ≤ b) (hb : b ≤ n) :
    (PySlice.between a b).resolve n = toRng (a, b) := by
  have h1 : ¬ ((a : Int) < 0) := by omega
  have h2 : ¬ ((b : Int) < 0) := by omega
  simp only [PySlice.resolve, PySlice.between, normBound, h1, h2, if_false, toRng]
  congr 1
  · simp; omega
  · simp; omega

theorem resolve_upto {b n : Nat} (hb : b ≤ n) :
    (PySlice.upto b).resolve n = toRng (0, b) := by
  have h2 : ¬ ((b : Int) < 0) := by omega
  simp only [PySlice.resolve, PySlice.upto, normBound, h2, if_false, toRng]
  congr 1
  simp; omega

theorem resolve_from {a n : Nat} (ha : a ≤ n) :
    (PySlice.from a).resolve n = toRng (a, n) := by
  have h1 : ¬ ((a : Int) < 0) := by omega
  simp only [PySlice.resolve, PySlice.from, normBound, h1, if_false, toRng]
  congr 1
  · simp; omega
  · simp; omega

theorem resolve_full {n : Nat} : PySlice.full.resolve n = toRng (0, n) := by
  simp [PySlice.resolve, PySlice.full, toRng]

theorem resolve_fromNeg {c n : Nat} (hc : 0 < c) (hcn : c ≤ n) :
    (PySlice.from (-(c : Int))).resolve n = toRng (n - c, n) := by
  have h1 : (-(c : Int)) < 0 := by omega
  simp only [PySlice.resolve, PySlice.from, normBound, h1, if_true, toRng]
  congr 1
  · omega
  · simp; omega

theorem resolveAll_idxOf {W S} (h : WinOK W S) : resolveAll (idxOf W) S = W.map toRng := by
  induction h with
  | nil => rfl
  | cons h1 h2 ih =>
    simp only [idxOf, List.map_cons, resolveAll] at ih ⊢
    rw [ih, resolve_between h1.1 h1.2]

theorem resolveAll_set {sl : List PySlice} {S : List Nat} (h : sl.length = S.length) (d : Nat)
    (s : PySlice) : resolveAll (sl.set d s) S = (resolveAll sl S).set d (s.resolve (S.getD d 0)) := by
  induction sl generalizing S d with
  | nil => cases S <;> simp_all [resolveAll]
  | cons a sl ih =>
    cases S with
    | nil => simp at h
    | cons n S =>
      cases d with
      | zero => simp [resolveAll]
      | succ d => simpa [resolveAll] using ih (by simpa using h) d

/-- slicing along `d` of a window index tuple -/
theorem resolveAll_modify {W S} (h : WinOK W S) {d a b : Nat} (s : PySlice)
    (hs : s.resolve (S.getD d 0) = toRng (a, b)) :
    resolveAll (modifyIdx s (idxOf W) d) S = (W.set d (a, b)).map toRng := by
  rw [modifyIdx, resolveAll_set (by simp [idxOf, h.length_eq]), resolveAll_idxOf h, hs, List.map_set]

theorem length_wlen (W) : (wlen W).length = W.length := by simp [wlen]

theorem wlen_set (W : List (Nat × Nat)) (d a b : Nat) :
    wlen (W.set d (a, b)) = (wlen W).set d (b - a) := by simp [wlen, List.map_set]

theorem getD_wlen {W : List (Nat × Nat)} {k : Nat} (hk : k < W.length) :
    (wlen W).getD k 0 = (W.getD k (0, 0)).2 - (W.getD k (0, 0)).1 := by
  simp [wlen, List.getD_eq_getElem?_getD, List.getElem?_eq_getElem hk]

theorem length_shift {W : List (Nat × Nat)} {jx : List Nat} (h : jx.length = W.length) :
    (shift W jx).length = W.length := by simp [shift, h]

theorem getD_shift {W : List (Nat × Nat)} {jx : List Nat} (h : jx.length = W.length) {k : Nat}
    (hk : k < W.length) : (shift W jx).getD k 0 = (W.getD k (0, 0)).1 + jx.getD k 0 := by
  have h2 : k < jx.length := by omega
  simp [shift, List.getD_eq_getElem?_getD, List.getElem?_zipWith, List.getElem?_eq_getElem hk,
    List.getElem?_eq_getElem h2]

theorem length_unshift {W : List (Nat × Nat)} {jx : List Nat} (h : jx.length = W.length) :
    (unshift W jx).length = W.length := by simp [unshift, h]

theorem getD_unshift {W : List (Nat × Nat)} {jx : List Nat} (h : jx.length = W.length) {k : Nat}
    (hk : k < W.length) : (unshift W jx).getD k 0 = jx.getD k 0 - (W.getD k (0, 0)).1 := by
  have h2 : k < jx.length := by omega
  simp [unshift, List.getD_eq_getElem?_getD, List.getElem?_zipWith, List.getElem?_eq_getElem hk,
    List.getElem?_eq_getElem h2]

theorem shift_set {W : List (Nat × Nat)} {d a b : Nat} {jx : List Nat} (h : jx.length = W.length)
    (hd : d < W.length) :
    shift (W.set d (a, b)) jx = (shift W jx).set d (a + jx.getD d 0) := by
  apply list_ext_getD
  · rw [length_shift (by simpa using h), List.length_set, List.length_set, length_shift h]
  intro k hk
  rw [length_shift (by simpa using h), List.length_set] at hk
  rw [getD_shift (by simpa using h) (by simpa using hk), getD_set _ _ _ _ _ hd,
    getD_set _ _ _ _ _ (by rw [length_shift h]; exact hd), getD_shift h hk]
  split <;> simp_all

theorem unshift_set {W : List (Nat × Nat)} {d a b : Nat} {ix : List Nat} (h : ix.length = W.length)
    (hd : d < W.length) :
    unshift (W.set d (a, b)) ix = (unshift W ix).set d (ix.getD d 0 - a) := by
  apply list_ext_getD
  · rw [length_unshift (by simpa using h), List.length_set, List.length_set, length_unshift h]
  intro k hk
  rw [length_unshift (by simpa using h), List.length_set] at hk
  rw [getD_unshift (by simpa using h) (by simpa using hk), getD_set _ _ _ _ _ hd,
    getD_set _ _ _ _ _ (by rw [length_unshift h]; exact hd), getD_unshift h hk]
  split <;> simp_all

/-- the axes other than `d` of `ix` lie in the window -/
def Others (W : List (Nat × Nat)) (d : Nat) (ix : List Nat) : Prop :=
  ix.length = W.length ∧ ∀ k, k < W.length → k ≠ d →
    (W.getD k (0, 0)).1 ≤ ix.getD k 0 ∧ ix.getD k 0 < (W.getD k (0, 0)).2

theorem inWin_set {W : List (Nat × Nat)} {d a b : Nat} {ix : List Nat} (hd : d < W.length) :
    InWin (W.set d (a, b)) ix ↔ Others W d ix ∧ a ≤ ix.getD d 0 ∧ ix.getD d 0 < b := by
  rw [inWin_iff]
  simp only [List.length_set, Others]
  constructor
  · rintro ⟨h1, h2⟩
    refine ⟨⟨h1, ?_⟩, ?_⟩
    · intro k hk hkd
      have := h2 k hk
      rwa [getD_set_ne _ _ _ _ _ hkd] at this
    · have := h2 d hd
      rwa [getD_set_self _ _ _ _ hd] at this
  · rintro ⟨⟨h1, h2⟩, h3⟩
    refine ⟨h1, ?_⟩
    intro k hk
    by_cases hkd : k = d
    · subst hkd; rw [getD_set_self _ _ _ _ hd]; exact h3
    · rw [getD_set_ne _ _ _ _ _ hkd]; exact h2 k hk hkd

theorem others_set {W : List (Nat × Nat)} {d : Nat} {ix : List Nat} {i : Nat}
    (h : Others W d ix) : Others W d (ix.set d i) := by
  refine ⟨by simpa using h.1, ?_⟩
  intro k hk hkd
  rw [getD_set_ne _ _ _ _ _ hkd]
  exact h.2 k hk hkd

theorem others_shift {W : List (Nat × Nat)} {d m : Nat} {jx : List Nat}
    (h : InB ((wlen W).set d m) jx) : Others W d (shift W jx) := by
  rw [inB_iff] at h
  simp only [List.length_set, length_wlen] at h
  refine ⟨by rw [length_shift h.1], ?_⟩
  intro k hk hkd
  have := h.2 k hk
  rw [getD_set_ne _ _ _ _ _ hkd, getD_wlen hk] at this
  rw [getD_shift h.1 hk]
  omega

theorem others_inB {W : List (Nat × Nat)} {S : List Nat} {d : Nat} {ix : List Nat}
    (hW : WinOK W S) (h : Others W d ix) {i : Nat} (hi : i < S.getD d 0) : InB S (ix.set d i) := by
  rw [inB_iff]
  refine ⟨by simp [h.1, hW.length_eq], ?_⟩
  intro k hk
  by_cases hkd : k = d
  · subst hkd; rw [getD_set_self _ _ _ _ (by rw [h.1, hW.length_eq]; exact hk)]; exact hi
  · rw [getD_set_ne _ _ _ _ _ hkd]
    have h1 := h.2 k (by rw [hW.length_eq]; exact hk) hkd
    have h2 := hW.get (k := k) (by rw [hW.length_eq]; exact hk)
    omega

theorem unshift_inB {W : List (Nat × Nat)} {ix : List Nat} (h : InWin W ix) :
    InB (wlen W) (unshift W ix) := by
  have h' := inWin_iff.1 h
  rw [inB_iff]
  refine ⟨by rw [length_unshift h'.1, length_wlen], ?_⟩
  intro k hk
  rw [length_wlen] at hk
  rw [getD_unshift h'.1 hk, getD_wlen hk]
  have := h'.2 k hk
  omega

theorem shift_unshift {W : List (Nat × Nat)} {ix : List Nat} (h : InWin W ix) :
    shift W (unshift W ix) = ix := by
  have h' := inWin_iff.1 h
  apply list_ext_getD
  · rw [length_shift (length_unshift h'.1), h'.1]
  intro k hk
  rw [length_shift (length_unshift h'.1)] at hk
  rw [getD_shift (length_unshift h'.1) hk, getD_unshift h'.1 hk]
  have := h'.2 k hk
  omega

theorem unshift_shift {W : List (Nat × Nat)} {jx : List Nat} (h : jx.length = W.length) :
    unshift W (shift W jx) = jx := by
  apply list_ext_getD
  · rw [length_unshift (length_shift h), h]
  intro k hk
  rw [length_unshift (length_shift h)] at hk
  rw [getD_unshift (length_shift h) hk, getD_shift h hk]
  omega

theorem shift_inWin {W : List (Nat × Nat)} {jx : List Nat} (h : InB (wlen W) jx) :
    InWin W (shift W jx) := by
  rw [inB_iff, length_wlen] at h
  rw [inWin_iff]
  refine ⟨length_shift h.1, ?_⟩
  intro k hk
  have := h.2 k hk
  rw [getD_wlen hk] at this
  rw [getD_shift h.1 hk]
  omega

theorem inWin_inB {W : List (Nat × Nat)} {S ix : List Nat} (hW : WinOK W S) (h : InWin W ix) :
    InB S ix := by
  have h' := inWin_iff.1 h
  rw [inB_iff]
  refine ⟨by rw [h'.1, hW.length_eq], ?_⟩
  intro k hk
  have h1 := h'.2 k (by rw [hW.length_eq]; exact hk)
  have h2 := hW.get (k := k) (by rw [hW.length_eq]; exact hk)
  omega

theorem rngMap_toRng (W : List (Nat × Nat)) (jx : List Nat) :
    rngMap (W.map toRng) jx = shift W jx := by
  simp [rngMap, shift, List.zipWith_map_left, toRng]

theorem map_cnt_toRng (W : List (Nat × Nat)) : (W.map toRng).map (·.cnt) = wlen W := by
  simp [wlen, toRng]

theorem rngInv_toRng (W : List (Nat × Nat)) (ix : List Nat) :
    rngInv (W.map toRng) ix = if InWin W ix then some (unshift W ix) else none := by
  induction W generalizing ix with
  | nil =>
    cases ix with
    | nil => simp [rngInv, InWin, unshift]
    | cons i ix => simp [rngInv, InWin]
  | cons p W ih =>
    cases ix with
    | nil => simp [rngInv, InWin]
    | cons i ix =>
      simp only [List.map_cons, rngInv, ih ix]
      have hc : InWin (p :: W) (i :: ix) ↔ (p.1 ≤ i ∧ i < p.2) ∧ InWin W ix := by
        simp [InWin]
      by_cases h1 : p.1 ≤ i ∧ i < p.2
      · have : (toRng p).inv i = some (i - p.1) := by
          have h3 : i - p.1 < p.2 - p.1 := by omega
          simp [Rng.inv, toRng, Nat.mod_one, h1.1, h3]
        by_cases h2 : InWin W ix
        · rw [if_pos h2, if_pos (hc.2 ⟨h1, h2⟩), this]; rfl
        · rw [if_neg h2, if_neg (fun h => h2 (hc.1 h).2), this]
      · have : (toRng p).inv i = none := by
          have h3 : p.1 ≤ i → ¬ (i - p.1 < p.2 - p.1) := by omega
          simpa [Rng.inv, toRng, Nat.mod_one] using h3
        rw [this, if_neg (fun h => h1 (hc.1 h).1)]

section
variable {α : Type} [Zero α]

/-- reading a window -/
theorem getSlice_win {x : Tensor α} {sl : List PySlice} {W : List (Nat × Nat)}
    (h : resolveAll sl x.shape = W.map toRng) :
    x.getSlice sl = ofFn (wlen W) fun jx => x.get (shift W jx) := by
  simp only [getSlice, h, map_cnt_toRng, rngMap_toRng]

/-- writing a window -/
theorem setSlice_win {y v : Tensor α} {sl : List PySlice} {W : List (Nat × Nat)}
    (h : resolveAll sl y.shape = W.map toRng) (hb : bcastable v.shape (wlen W) = true) :
    y.setSlice sl v = .ok (ofFn y.shape fun ix =>
      if InWin W ix then v.get (bidx v.shape (unshift W ix)) else y.get ix) := by
  simp only [setSlice, h, map_cnt_toRng, hb, if_true]
  congr 2
  funext ix
  rw [rngInv_toRng]
  split_ifs <;> rfl

theorem all_zipWith_iff {β : Type} {f : Nat → β → Bool} {l : List Nat} {m : List β}
    (h : l.length = m.length) (z : β) :
    (List.zipWith f l m).all id = true ↔ ∀ k, k < l.length → f (l.getD k 0) (m.getD k z) = true := by
  induction l generalizing m with
  | nil => simp
  | cons a l ih =>
    cases m with
    | nil => simp at h
    | cons b m =>
      simp only [List.zipWith_cons_cons, List.all_cons, id, Bool.and_eq_true, ih (by simpa using h)]
      constructor
      · rintro ⟨h1, h2⟩ k hk
        cases k with
        | zero => simpa using h1
        | succ k => simpa using h2 k (by simpa using hk)
      · intro h2
        refine ⟨by simpa using h2 0 (by simp), ?_⟩
        intro k hk
        simpa using h2 (k + 1) (by simpa using hk)

theorem bcastable_self (s : List Nat) : bcastable s s = true := by
  simp only [bcastable, Nat.le_refl, decide_true, Nat.sub_self, List.drop_zero, Bool.true_and]
  rw [all_zipWith_iff rfl 0]
  simp

theorem bcastable_set_one (s : List Nat) (d m : Nat) :
    bcastable (s.set d 1) (s.set d m) = true := by
  by_cases hd : d < s.length
  · simp only [bcastable, List.length_set, Nat.le_refl, decide_true, Nat.sub_self, List.drop_zero,
      Bool.true_and]
    rw [all_zipWith_iff (by simp) 0]
    intro k _
    rw [getD_set _ _ _ _ _ hd, getD_set _ _ _ _ _ hd]
    split_ifs <;> simp
  · rw [List.set_eq_of_length_le (by omega), List.set_eq_of_length_le (by omega)]
    exact bcastable_self s

theorem bcastable_nil (s : List Nat) : bcastable [] s = true := by simp [bcastable]

theorem length_bidx {v jx : List Nat} (h : v.length ≤ jx.length) : (bidx v jx).length = v.length := by
  simp [bidx]; omega

theorem getD_bidx {v jx : List Nat} (h : v.length ≤ jx.length) {k : Nat} (hk : k < v.length) :
    (bidx v jx).getD k 0 = if v.getD k 0 = 1 then 0 else jx.getD (jx.length - v.length + k) 0 := by
  have h2 : k < (jx.drop (jx.length - v.length)).length := by simp; omega
  have h3 : jx.length - v.length + k < jx.length := by omega
  simp [bidx, List.getD_eq_getElem?_getD, List.getElem?_zipWith, List.getElem?_eq_getElem hk,
    List.getElem?_eq_getElem h3]

theorem bidx_self {s jx : List Nat} (h : InB s jx) : bidx s jx = jx := by
  have hl := h.length_eq
  apply list_ext_getD
  · rw [length_bidx (by omega), hl]
  intro k hk
  rw [length_bidx (by omega)] at hk
  rw [getD_bidx (by omega) hk]
  have h1 : jx.length - s.length + k = k := by omega
  rw [h1]
  split_ifs with h2
  · have := h.lt hk
    omega
  · rfl

theorem bidx_set_one {s jx : List Nat} {d m : Nat} (h : InB (s.set d m) jx) :
    bidx (s.set d 1) jx = jx.set d 0 := by
  have hl := h.length_eq
  simp only [List.length_set] at hl
  by_cases hd : d < s.length
  · apply list_ext_getD
    · rw [length_bidx (by simp; omega), List.length_set, List.length_set, hl]
    intro k hk
    rw [length_bidx (by simp; omega), List.length_set] at hk
    rw [getD_bidx (by simp; omega) (by simpa using hk)]
    have h1 : jx.length - (s.set d 1).length + k = k := by simp; omega
    rw [h1, getD_set _ _ _ _ _ hd, getD_set _ _ _ _ _ (by omega)]
    by_cases hkd : k = d
    · simp [hkd]
    · simp only [hkd, if_false]
      split_ifs with h2
      · have := h.lt (k := k) (by simpa using hk)
        rw [getD_set_ne _ _ _ _ _ hkd] at this
        omega
      · rfl
  · rw [List.set_eq_of_length_le (by omega)] at h ⊢
    rw [List.set_eq_of_length_le (by omega), bidx_self h]

theorem bidx_nil (jx : List Nat) : bidx [] jx = [] := by simp [bidx]

end

section Fill
variable {α : Type} [Zero α]

/-- `y0` with the fibres along `d` through the window `W` overwritten by `e` on `[lo, hi)`.
`e` receives the fibre of `y0` and the position. -/
def fill (y0 : Tensor α) (W : List (Nat × Nat)) (d : Nat) (e : (Nat → α) → Nat → α) (lo hi : Nat) :
    Tensor α :=
  ofFn y0.shape fun ix => if InWin (W.set d (lo, hi)) ix then
    e (fun j => y0.get (ix.set d j)) (ix.getD d 0) else y0.get ix

/-- the tensor over the window `W` (extent `m` along `d`) with entries `g fibre position` -/
def chunk (y0 : Tensor α) (W : List (Nat × Nat)) (d : Nat) (g : (Nat → α) → Nat → α) (m : Nat) :
    Tensor α :=
  ofFn ((wlen W).set d m) fun jx => g (fun j => y0.get ((shift W jx).set d j)) (jx.getD d 0)

variable {y0 : Tensor α} {W : List (Nat × Nat)} {d : Nat} {e : (Nat → α) → Nat → α}

@[simp] theorem shape_fill (lo hi : Nat) : (fill y0 W d e lo hi).shape = y0.shape := rfl
@[simp] theorem shape_chunk (g : (Nat → α) → Nat → α) (m : Nat) :
    (chunk y0 W d g m).shape = (wlen W).set d m := rfl

theorem chunk_congr {g g' : (Nat → α) → Nat → α} {m : Nat} (hd : d < W.length)
    (h : ∀ u t, t < m → g u t = g' u t) : chunk y0 W d g m = chunk y0 W d g' m := by
  apply ofFn_congr
  intro jx hjx
  have := hjx.lt (k := d) (by simpa [length_wlen] using hd)
  rw [getD_set_self _ _ _ _ (by simpa [length_wlen] using hd)] at this
  exact h _ _ this

theorem fill_init (hd : d < W.length) {lo hi : Nat}
    (h : ∀ u i, lo ≤ i → i < hi → e u i = u i) : fill y0 W d e lo hi = y0 := by
  refine ext_get (shape_fill lo hi) ?_
  intro ix hix
  rw [shape_fill] at hix
  rw [fill, get_ofFn hix]
  split_ifs with hw
  · rw [inWin_set hd] at hw
    rw [h _ _ hw.2.1 hw.2.2, set_getD_self]
  · rfl

/-- reading a filled range -/
theorem getSlice_fill (hW : WinOK W y0.shape) (hd : d < W.length) {lo hi a b : Nat} {s : PySlice}
    (hs : s.resolve (y0.shape.getD d 0) = toRng (a, b)) (hla : lo ≤ a) (hbh : b ≤ hi)
    (hhi : hi ≤ y0.shape.getD d 0) :
    (fill y0 W d e lo hi).getSlice (modifyIdx s (idxOf W) d) =
      chunk y0 W d (fun u t => e u (a + t)) (b - a) := by
  rw [getSlice_win (x := fill y0 W d e lo hi) (W := W.set d (a, b)) (resolveAll_modify hW s hs), wlen_set, chunk]
  apply ofFn_congr
  intro jx hjx
  have hl := hjx.length_eq
  rw [List.length_set, length_wlen] at hl
  have ht := hjx.lt (k := d) (by simpa [length_wlen] using hd)
  rw [getD_set_self _ _ _ _ (by simpa [length_wlen] using hd)] at ht
  rw [shift_set hl hd]
  have ho := others_shift hjx
  have hin : InB y0.shape ((shift W jx).set d (a + jx.getD d 0)) := others_inB hW ho (by omega)
  have hdl : d < (shift W jx).length := by rw [length_shift hl]; exact hd
  rw [fill, get_ofFn hin, if_pos, getD_set_self _ _ _ _ hdl]
  · simp only [List.set_set]
  · rw [inWin_set hd, getD_set_self _ _ _ _ hdl]
    exact ⟨others_set ho, by omega, by omega⟩

/-- writing a range next to (or overlapping) the filled range -/
theorem setSlice_fill_aux (hW : WinOK W y0.shape) (hd : d < W.length) {lo hi a b : Nat} {s : PySlice}
    (hs : s.resolve (y0.shape.getD d 0) = toRng (a, b)) 
    (h1 : a ≤ hi) (h2 : lo ≤ b) {v : Tensor α}
    (hb : bcastable v.shape ((wlen W).set d (b - a)) = true)
    (hv : ∀ jx, InB ((wlen W).set d (b - a)) jx →
      v.get (bidx v.shape jx) = e (fun j => y0.get ((shift W jx).set d j)) (a + jx.getD d 0)) :
    (fill y0 W d e lo hi).setSlice (modifyIdx s (idxOf W) d) v =
      .ok (fill y0 W d e (min lo a) (max hi b)) := by
  rw [setSlice_win (y := fill y0 W d e lo hi) (W := W.set d (a, b)) (resolveAll_modify hW s hs) (by rw [wlen_set]; exact hb)]
  congr 1
  apply ofFn_congr
  intro ix hix
  simp only [shape_fill] at hix
  by_cases hw : InWin (W.set d (a, b)) ix
  · have hu := unshift_inB hw
    rw [wlen_set] at hu
    have hl : ix.length = W.length := by simpa using inWin_length hw
    rw [if_pos hw, hv _ hu]
    rw [inWin_set hd] at hw
    have hin : InWin (W.set d (min lo a, max hi b)) ix := by
      rw [inWin_set hd]; exact ⟨hw.1, by omega, by omega⟩
    rw [if_pos hin]
    have e1 : (unshift (W.set d (a, b)) ix).getD d 0 = ix.getD d 0 - a := by
      rw [unshift_set hl hd, getD_set_self _ _ _ _ (by rw [length_unshift hl]; exact hd)]
    rw [e1]
    have e2 : a + (ix.getD d 0 - a) = ix.getD d 0 := by omega
    rw [e2]
    congr 1
    funext j
    congr 1
    have hlu : (unshift (W.set d (a, b)) ix).length = W.length := by
      rw [length_unshift (by simpa using hl), List.length_set]
    have hsh : shift (W.set d (a, b)) (unshift (W.set d (a, b)) ix) = ix :=
      shift_unshift ((inWin_set hd).2 hw)
    rw [shift_set hlu hd] at hsh
    conv_rhs => rw [← hsh]
    simp only [List.set_set]
  · rw [if_neg hw, fill, get_ofFn hix]
    have : InWin (W.set d (lo, hi)) ix ↔ InWin (W.set d (min lo a, max hi b)) ix := by
      rw [inWin_set hd] at hw
      rw [inWin_set hd, inWin_set hd]
      constructor
      · rintro ⟨h3, h4, h5⟩; exact ⟨h3, by omega, by omega⟩
      · rintro ⟨h3, h4, h5⟩
        have : ¬ (a ≤ ix.getD d 0 ∧ ix.getD d 0 < b) := fun h => hw ⟨h3, h⟩
        exact ⟨h3, by omega, by omega⟩
    simp only [this]

/-- writing a full chunk -/
theorem setSlice_fill (hW : WinOK W y0.shape) (hd : d < W.length) {lo hi a b m : Nat} {s : PySlice}
    (hs : s.resolve (y0.shape.getD d 0) = toRng (a, b)) 
    (h1 : a ≤ hi) (h2 : lo ≤ b) (hm : m = b - a) {g : (Nat → α) → Nat → α}
    (hg : ∀ u t, t < b - a → g u t = e u (a + t)) :
    (fill y0 W d e lo hi).setSlice (modifyIdx s (idxOf W) d) (chunk y0 W d g m) =
      .ok (fill y0 W d e (min lo a) (max hi b)) := by
  subst hm
  apply setSlice_fill_aux hW hd hs h1 h2
  · exact bcastable_self _
  · intro jx hjx
    have ht := hjx.lt (k := d) (by simpa [length_wlen] using hd)
    rw [getD_set_self _ _ _ _ (by simpa [length_wlen] using hd)] at ht
    rw [shape_chunk, bidx_self hjx, chunk, get_ofFn hjx, hg _ _ ht]

/-- writing a chunk of extent one, broadcast along `d` -/
theorem setSlice_fill_one (hW : WinOK W y0.shape) (hd : d < W.length) {lo hi a b : Nat} {s : PySlice}
    (hs : s.resolve (y0.shape.getD d 0) = toRng (a, b)) 
    (h1 : a ≤ hi) (h2 : lo ≤ b) {g : (Nat → α) → Nat → α}
    (hg : ∀ u t, t < b - a → g u 0 = e u (a + t)) :
    (fill y0 W d e lo hi).setSlice (modifyIdx s (idxOf W) d) (chunk y0 W d g 1) =
      .ok (fill y0 W d e (min lo a) (max hi b)) := by
  apply setSlice_fill_aux hW hd hs h1 h2
  · exact bcastable_set_one _ _ _
  · intro jx hjx
    have hl := hjx.length_eq
    rw [List.length_set, length_wlen] at hl
    have ht := hjx.lt (k := d) (by simpa [length_wlen] using hd)
    rw [getD_set_self _ _ _ _ (by simpa [length_wlen] using hd)] at ht
    have hj0 : InB ((wlen W).set d 1) (jx.set d 0) := hjx.set (by omega)
    rw [shape_chunk, bidx_set_one hjx, chunk, get_ofFn hj0,
      getD_set_self _ _ _ _ (by omega), hg _ _ ht]
    congr 1
    funext j
    congr 1
    apply list_ext_getD
    · simp [length_shift (show (jx.set d 0).length = W.length by simpa using hl), length_shift hl]
    intro k hk
    rw [List.length_set, length_shift (show (jx.set d 0).length = W.length by simpa using hl)] at hk
    by_cases hkd : k = d
    · subst hkd
      rw [getD_set_self _ _ _ _ (by rw [length_shift (show (jx.set k 0).length = W.length by simpa using hl)]; exact hk),
        getD_set_self _ _ _ _ (by rw [length_shift hl]; exact hk)]
    · rw [getD_set_ne _ _ _ _ _ hkd, getD_set_ne _ _ _ _ _ hkd,
        getD_shift (by simpa using hl) hk, getD_shift hl hk, getD_set_ne _ _ _ _ _ hkd]

/-- writing a scalar -/
theorem setSlice_fill_scalar (hW : WinOK W y0.shape) (hd : d < W.length) {lo hi a b : Nat}
    {s : PySlice} (hs : s.resolve (y0.shape.getD d 0) = toRng (a, b)) 
    (h1 : a ≤ hi) (h2 : lo ≤ b) {c : α}
    (hg : ∀ u t, t < b - a → c = e u (a + t)) :
    (fill y0 W d e lo hi).setSlice (modifyIdx s (idxOf W) d) (Tensor.scalar c) =
      .ok (fill y0 W d e (min lo a) (max hi b)) := by
  apply setSlice_fill_aux hW hd hs h1 h2
  · exact bcastable_nil _
  · intro jx hjx
    have ht := hjx.lt (k := d) (by simpa [length_wlen] using hd)
    rw [getD_set_self _ _ _ _ (by simpa [length_wlen] using hd)] at ht
    rw [get_scalar]
    exact hg _ _ ht

/-- flipping a chunk -/
theorem flip_chunk (hd : d < W.length) (g : (Nat → α) → Nat → α) (m : Nat) :
    (chunk y0 W d g m).flip d = chunk y0 W d (fun u t => g u (m - 1 - t)) m := by
  rw [Tensor.flip, shape_chunk]
  apply ofFn_congr
  intro jx hjx
  have hl := hjx.length_eq
  rw [List.length_set, length_wlen] at hl
  have ht := hjx.lt (k := d) (by simpa [length_wlen] using hd)
  have hm : ((wlen W).set d m).getD d 0 = m := by
    rw [getD_set_self _ _ _ _ (by simpa [length_wlen] using hd)]
  rw [hm] at ht ⊢
  have hin : InB ((wlen W).set d m) (jx.set d (m - 1 - jx.getD d 0)) := hjx.set (by omega)
  rw [chunk, get_ofFn hin, getD_set_self _ _ _ _ (by omega)]
  congr 1
  funext j
  congr 1
  have hl' : (jx.set d (m - 1 - jx.getD d 0)).length = W.length := by simpa using hl
  apply list_ext_getD
  · rw [List.length_set, List.length_set, length_shift hl', length_shift hl]
  intro k hk
  rw [List.length_set, length_shift hl'] at hk
  by_cases hkd : k = d
  · subst hkd
    rw [getD_set_self _ _ _ _ (by rw [length_shift hl']; exact hk),
      getD_set_self _ _ _ _ (by rw [length_shift hl]; exact hk)]
  · rw [getD_set_ne _ _ _ _ _ hkd, getD_set_ne _ _ _ _ _ hkd,
      getD_shift hl' hk, getD_shift hl hk, getD_set_ne _ _ _ _ _ hkd]

theorem map_chunk (f : α → α) (g : (Nat → α) → Nat → α) (m : Nat) :
    (chunk y0 W d g m).map f = chunk y0 W d (fun u t => f (g u t)) m := by
  rw [chunk, map_ofFn]; rfl

end Fill

end TI
