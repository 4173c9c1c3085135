import Verif.Proofs.Outer
import Verif.Proofs.ConvLike
import Verif.Proofs.SameWidth
import Mathlib.Data.List.Range
import Mathlib.Tactic.Linarith

/-!
# Output sizes, same padding, window counts, outer products: C24 – C29, C66
-/

namespace TI
open Tensor Spec

/-! ## C24, C25: same padding -/

/-- **C24.** Same padding puts at most one sample more before than after, and a convolution of size `k` and stride
`s` over the padded axis has exactly `⌈n/s⌉` windows. -/
theorem C24_same_padding_size {k s : Nat} (n : Nat) (hk : 0 < k) (hs : 0 < s) :
    ∃ b a : Nat, samePaddingWidth k (some (s : Int)) (some (n : Int)) = .ok ((b : Int), (a : Int)) ∧
      a ≤ b ∧ b ≤ a + 1 ∧ windowCount (n + b + a) k s 1 = ceilDiv n s := by
  obtain ⟨t, h1, h2⟩ := samePaddingWidth_eq (k := k) (s := s) (n := n) hs
  refine ⟨t - t / 2, t / 2, h1, by omega, by omega, ?_⟩
  rw [show n + (t - t / 2) + t / 2 = n + t by omega, windowCount_eq hs, Nat.one_mul]
  rcases Nat.eq_zero_or_pos n with rfl | hn
  · rw [ceilDiv_zero] at h2 ⊢
    rw [if_neg]
    simp only [Nat.cast_zero, zero_mul, zero_sub, sub_zero] at h2
    omega
  · obtain ⟨c1, c2, c3⟩ := ceilDiv_bounds hs hn
    generalize hc : ceilDiv n s = c at *
    obtain ⟨c, rfl⟩ : ∃ c', c = c' + 1 := ⟨c - 1, by omega⟩
    simp only [Nat.add_sub_cancel] at c2 c3
    have h2' : (t : Int) = max (((c * s : Nat) : Int) + k - n) 0 := by
      rw [h2]; congr 1; push_cast; ring
    rw [if_pos (by omega)]
    congr 1
    rw [Nat.div_eq_iff hs]
    constructor
    · omega
    · omega

/-- **C24** for stride one: the total is `k - 1`, whatever the size of the axis, even if it is not given -/
theorem C24_same_padding_unit_stride {k : Nat} (hk : 0 < k) (n : Option Int) :
    samePaddingWidth k (some 1) n = .ok (((k - 1 - (k - 1) / 2 : Nat) : Int), (((k - 1) / 2 : Nat) : Int)) := by
  simp only [samePaddingWidth, if_true]
  rw [max_eq_left (by omega)]
  have h : ((k : Int) - 1).fdiv 2 = (((k - 1) / 2 : Nat) : Int) := by
    rw [Int.fdiv_eq_ediv_of_nonneg _ (by omega)]; omega
  rw [h]
  congr 2
  omega

/-- **C24**: a stride left out means the kernel size -/
theorem C24_same_padding_default_stride {k : Nat} (hk : 0 < k) (n : Int) :
    samePaddingWidth k none (some n) = samePaddingWidth k (some (k : Int)) (some n) := by
  by_cases h : k = 1
  · subst h
    simp [samePaddingWidth]
  · have h' : (some (k : Int)) ≠ some 1 := by
      simp only [ne_eq, Option.some.injEq]; omega
    simp only [samePaddingWidth, if_neg h', Option.getD_some, Option.getD_none]
    rw [if_neg (by simp)]

/-- **C24**: for any other stride the size of the axis has to be given -/
theorem C24_same_padding_needs_size (k : Int) (s : Option Int) (hs : s ≠ some 1) :
    samePaddingWidth k s none = .error .value := by
  simp [samePaddingWidth, hs]

/-- the hypotheses are met by a kernel of 5, stride 3, on 7 samples: 2 before, 2 after, 3 windows -/
example : samePaddingWidth 5 (some 3) (some 7) = .ok (2, 2) ∧ windowCount (7 + 2 + 2) 5 3 1 = 3 ∧ ceilDiv 7 3 = 3 := by
  decide

/-- **C87.** The deprecated pair is the same padding of stride one, for every kernel size (also those below one) and axis. -/
theorem C87_pair_is_same_padding (k : Int) (n : Option Int) : samePaddingWidth k (some 1) n = .ok (samePaddingPair k) := by
  simp only [samePaddingWidth, if_true, samePaddingPair]
  rw [Int.fdiv_eq_ediv_of_nonneg _ (by omega), Int.fdiv_eq_ediv_of_nonneg _ (by omega), Int.fmod_eq_emod_of_nonneg _ (by omega)]
  split
  · rw [max_eq_right (by omega)]
    rfl
  · rw [max_eq_left (by omega)]
    split <;> (congr 2 <;> omega)

/-- **C87**: `_same_padding_pair(total + 1)` splits a total into two halves, the first at most one longer -/
theorem C87_pair_splits {t : Int} (ht : 0 ≤ t) : (samePaddingPair (t + 1)).1 + (samePaddingPair (t + 1)).2 = t ∧
    0 ≤ (samePaddingPair (t + 1)).2 ∧ (samePaddingPair (t + 1)).2 ≤ (samePaddingPair (t + 1)).1 ∧
    (samePaddingPair (t + 1)).1 ≤ (samePaddingPair (t + 1)).2 + 1 := by
  simp only [samePaddingPair]
  rw [Int.fdiv_eq_ediv_of_nonneg _ (by omega), Int.fmod_eq_emod_of_nonneg _ (by omega)]
  split
  · simp only; omega
  · split <;> (simp only; omega)

example : samePaddingPair 6 = (3, 2) ∧ samePaddingPair 5 = (2, 2) ∧ samePaddingPair (-3) = (0, 0) := by decide

/-- **C25.** If the kernel is at least as long as the stride, every original sample `p` (at position `b + p` of the
padded axis) lies in one of the windows. -/
theorem C25_same_padding_covers {k s n : Nat} (hs : 0 < s) (hks : s ≤ k) {b a : Nat}
    (h : samePaddingWidth k (some (s : Int)) (some (n : Int)) = .ok ((b : Int), (a : Int))) {p : Nat} (hp : p < n) :
    ∃ t, t < windowCount (n + b + a) k s 1 ∧ t * s ≤ b + p ∧ b + p < t * s + k := by
  obtain ⟨b', a', h1, _, _, hw⟩ := C24_same_padding_size (k := k) (s := s) n (by omega) hs
  obtain ⟨t, h1', h2⟩ := samePaddingWidth_eq (k := k) (s := s) (n := n) hs
  rw [h] at h1 h1'
  simp only [Except.ok.injEq, Prod.mk.injEq, Nat.cast_inj] at h1 h1'
  obtain ⟨rfl, rfl⟩ := h1
  obtain ⟨hb, ha⟩ := h1'
  rw [hw]
  obtain ⟨c1, c2, c3⟩ := ceilDiv_bounds hs (show 0 < n by omega)
  generalize hc : ceilDiv n s = c at *
  obtain ⟨c, rfl⟩ : ∃ c', c = c' + 1 := ⟨c - 1, by omega⟩
  simp only [Nat.add_sub_cancel] at c2 c3
  have h2' : (t : Int) = max (((c * s : Nat) : Int) + k - n) 0 := by
    rw [h2]; congr 1; push_cast; ring
  have d1 := Nat.div_add_mod (b + p) s
  have d2 := Nat.mod_lt (b + p) hs
  rw [Nat.mul_comm] at d1
  by_cases hle : (b + p) / s ≤ c
  · exact ⟨(b + p) / s, by omega, by omega, by omega⟩
  · refine ⟨c, by omega, ?_, by omega⟩
    have := Nat.mul_le_mul_right s (show c ≤ (b + p) / s by omega)
    omega

/-- **C25.** No smaller total padding gives as many windows. -/
theorem C25_same_padding_minimal {k s n : Nat} (hs : 0 < s) (hk : 0 < k) (hn : 0 < n) {b a : Nat}
    (h : samePaddingWidth k (some (s : Int)) (some (n : Int)) = .ok ((b : Int), (a : Int))) {total : Nat}
    (ht : ceilDiv n s ≤ windowCount (n + total) k s 1) : b + a ≤ total := by
  obtain ⟨t, h1', h2⟩ := samePaddingWidth_eq (k := k) (s := s) (n := n) hs
  rw [h] at h1'
  simp only [Except.ok.injEq, Prod.mk.injEq, Nat.cast_inj] at h1'
  obtain ⟨hb, ha⟩ := h1'
  rw [windowCount_eq hs, Nat.one_mul] at ht
  obtain ⟨c1, c2, c3⟩ := ceilDiv_bounds hs hn
  generalize hc : ceilDiv n s = c at *
  obtain ⟨c, rfl⟩ : ∃ c', c = c' + 1 := ⟨c - 1, by omega⟩
  simp only [Nat.add_sub_cancel] at c2 c3
  have h2' : (t : Int) = max (((c * s : Nat) : Int) + k - n) 0 := by
    rw [h2]; congr 1; push_cast; ring
  split_ifs at ht with hfit
  · have : c ≤ (n + total - (k - 1) - 1) / s := by omega
    rw [Nat.le_div_iff_mul_le hs] at this
    omega
  · omega

/-- a kernel of 4, stride 2, on 5 samples: the total 3 cannot be reduced -/
example : samePaddingWidth 4 (some 2) (some 5) = .ok (2, 1) ∧ windowCount (5 + 2) 4 2 1 = 2 ∧ ceilDiv 5 2 = 3 := by
  decide

/-! ## C26: `conv_1d`, `conv_nd` -/

/-- **C26.** `conv_1d` is the number of valid window positions whenever the dilated kernel fits; if it does not fit,
there is no window and the result is not positive. -/
theorem C26_conv1d {n k s d : Nat} (hs : 0 < s) (hk : 0 < k) :
    ∃ r, conv1d n k s d = .ok r ∧ (d * (k - 1) < n → r = windowCount n k s d) ∧
      (n ≤ d * (k - 1) → r ≤ 0 ∧ windowCount n k s d = 0) := by
  obtain ⟨r, h1, h2, h3⟩ := conv1d_eq (n := n) (k := k) (s := s) (d := d) hs hk
  refine ⟨r, h1, h3, fun h => ?_⟩
  rw [windowCount_eq hs, if_neg (by omega)] at h2 ⊢
  omega

/-- **C26** for several axes: `conv_nd` applies `conv_1d` axis by axis, broadcasting values given once -/
theorem C26_conv_nd {n k s d : Given Nat} {m : Nat} (hm : 0 < m) (hn : n.Fits m) (hk : k.Fits m) (hs : s.Fits m)
    (hd : d.Fits m) (hfit : ∀ i, 0 < s.entry 1 i ∧ 0 < k.entry 1 i ∧ d.entry 0 i * (k.entry 1 i - 1) < n.entry 1 i)
    (i : Nat) (hi : i < m) :
    ∃ sn sk ss sd r, NdSpec.ofItem [] (n.toPy pyNat) = .ok sn ∧ NdSpec.ofItem [] (k.toPy pyNat) = .ok sk ∧
      NdSpec.ofItem [] (s.toPy pyNat) = .ok ss ∧ NdSpec.ofItem [] (d.toPy pyNat) = .ok sd ∧
      convNd sn sk ss sd = .ok r ∧
      r.get i = .ok (.leaf (windowCount (n.entry 1 i) (k.entry 1 i) (s.entry 1 i) (d.entry 0 i) : Nat)) := by
  obtain ⟨sn, en, hn'⟩ := ofItem_nats hm hn
  obtain ⟨sk, ek, hk'⟩ := ofItem_nats hm hk
  obtain ⟨ss, es, hs'⟩ := ofItem_nats hm hs
  obtain ⟨sd, ed, hd'⟩ := ofItem_nats hm hd
  obtain ⟨r, er, hr⟩ := apply4_spec hn' hk' hs' hd' hn hk hs hd
    (func := fun n k s d => do
      let n ← asInt n
      let k ← asInt k
      let s ← asInt s
      let d ← asInt d
      let r ← conv1d n k s d
      .ok (.leaf r))
    (f' := pyNat) 1 1 1 0 (fun i => windowCount (n.entry 1 i) (k.entry 1 i) (s.entry 1 i) (d.entry 0 i)) (by
      intro j _
      obtain ⟨r, e1, e2, _⟩ := C26_conv1d (n := n.entry 1 j) (k := k.entry 1 j) (s := s.entry 1 j) (d := d.entry 0 j)
        (hfit j).1 (hfit j).2.1
      rw [e2 (hfit j).2.2] at e1
      simp only [pyNat, asInt, bind, Except.bind]
      rw [e1])
  refine ⟨sn, sk, ss, sd, r, en, ek, es, ed, er, ?_⟩
  by_cases hmany : (n.isMany || k.isMany || s.isMany || d.isMany) = true
  · rw [if_pos hmany] at hr
    have := hr.get (m := m) (by simp [Given.Fits]) 0 (i := i) (fun _ => hi)
    rw [this]
    simp [Given.entry, List.getD_eq_getElem?_getD, hi, pyNat]
  · rw [if_neg hmany] at hr
    have := hr.get (m := m) trivial 0 (i := i) (by simp [Given.isMany])
    rw [this]
    simp only [Bool.not_eq_true, Bool.or_eq_false_iff] at hmany
    have key : ∀ (g : Given Nat) (dflt : Nat), g.isMany = false → g.entry dflt 0 = g.entry dflt i := by
      intro g dflt hg
      cases g with
      | one b => rfl
      | many l => cases hg
    rw [Given.entry, key n 1 hmany.1.1.1, key k 1 hmany.1.1.2, key s 1 hmany.1.2, key d 0 hmany.2]
    rfl

/-- a kernel of 3 with dilation 2 and stride 2 on 10 samples: positions 0, 2, 4 -/
example : conv1d 10 3 2 2 = .ok 3 ∧ windowCount 10 3 2 2 = 3 := by decide

/-! ## C27: pad width formats -/

theorem pairsOf_append {α : Type} (a b : α) (l : List α) : pairsOf ([a, b] ++ l) = [a, b] :: pairsOf l := rfl

theorem pairsOf_flatten {α : Type} : ∀ {l : List (List α)}, (∀ p ∈ l, p.length = 2) → pairsOf l.flatten = l
  | [], _ => rfl
  | p :: l, h => by
    match p, h p (by simp) with
    | [a, b], _ =>
      rw [List.flatten_cons, pairsOf_append, pairsOf_flatten (fun q hq => h q (by simp [hq]))]

theorem length_flatten_pairs {α : Type} : ∀ {l : List (List α)}, (∀ p ∈ l, p.length = 2) → l.flatten.length = 2 * l.length
  | [], _ => rfl
  | p :: l, h => by
    rw [List.flatten_cons, List.length_append, h p (by simp),
      length_flatten_pairs (fun q hq => h q (by simp [hq])), List.length_cons]
    omega

theorem flatten_pairsOf {α : Type} : ∀ l : List α, (pairsOf l).flatten = l
  | [] => rfl
  | [a] => rfl
  | a :: b :: l => by rw [pairsOf, List.flatten_cons, flatten_pairsOf l]; rfl

/-- **C27.** numpy → torch → numpy is the identity; asking for more dimensions adds zero pairs in front. -/
theorem C27_numpy_roundtrip {α : Type} [Zero α] {l : List (List α)} (h : ∀ p ∈ l, p.length = 2) (extra : Nat) :
    torchToNumpy (some (l.length + extra)) (numpyToTorch l) = .ok (List.replicate extra [0, 0] ++ l) := by
  have hr : ∀ p ∈ l.reverse, p.length = 2 := by simpa using h
  rw [torchToNumpy, numpyToTorch, length_flatten_pairs hr, pairsOf_flatten hr, List.reverse_reverse, List.length_reverse,
    show l.length + extra - 2 * l.length / 2 = extra by omega]

/-- **C27.** torch → numpy → torch is the identity up to explicit zeros for the dimensions that were left out. -/
theorem C27_torch_roundtrip {α : Type} [Zero α] (l : List α) (ndim : Nat) :
    (torchToNumpy (some ndim) l).map numpyToTorch =
      .ok (l ++ List.replicate (2 * (ndim - l.length / 2)) 0) := by
  simp only [torchToNumpy, Except.map]
  rw [numpyToTorch, List.reverse_append, List.reverse_reverse, List.flatten_append, flatten_pairsOf,
    List.reverse_replicate]
  congr 2
  generalize ndim - l.length / 2 = q
  induction q with
  | zero => rfl
  | succ q ih => rw [List.replicate_succ, List.flatten_cons, ih]; rfl

theorem getD_flatten_pairs {α : Type} (d : α) : ∀ {l : List (List α)}, (∀ p ∈ l, p.length = 2) → ∀ (j e : Nat), e < 2 →
    j < l.length → l.flatten.getD (2 * j + e) d = (l.getD j []).getD e d
  | [], _, j, e, _, hj => by simp at hj
  | p :: l, h, j, e, he, hj => by
    match p, h p (by simp) with
    | [a, b], _ =>
      cases j with
      | zero =>
        match e, he with
        | 0, _ => rfl
        | 1, _ => rfl
      | succ j =>
        have := getD_flatten_pairs d (l := l) (fun q hq => h q (by simp [hq])) j e he (by simpa using hj)
        rw [List.getD_cons_succ, ← this, List.flatten_cons, show 2 * (j + 1) + e = 2 * j + e + 1 + 1 by omega]
        rfl

/-- **C27.** The torch format lists the pairs from the last axis to the first. -/
theorem C27_axis_order {α : Type} (d : α) {l : List (List α)} (h : ∀ p ∈ l, p.length = 2) {j e : Nat} (he : e < 2)
    (hj : j < l.length) :
    (numpyToTorch l).getD (2 * j + e) d = (l.getD (l.length - 1 - j) []).getD e d := by
  rw [numpyToTorch, getD_flatten_pairs d (by simpa using h) j e he (by simpa using hj)]
  congr 1
  rw [List.getD_eq_getElem?_getD, List.getD_eq_getElem?_getD, List.getElem?_reverse hj]

/-- **C27**: without the number of dimensions the conversion is refused -/
theorem C27_needs_ndim {α : Type} [Zero α] (l : List α) : torchToNumpy none l = .error .assertion := rfl

/-- widths in numpy format, one pair per axis -/
def Spec.numpyWidths {α : Type} (l : List (α × α)) : Py α := .seq (l.map fun p => .seq [.leaf p.1, .leaf p.2])

/-- widths in torch format -/
def Spec.torchWidths {α : Type} (l : List α) : Py α := .seq (l.map .leaf)

/-- **C27**, the function as a whole: pairs for every axis become the torch format, last axis first; formats that agree
need no conversion, other combinations of formats are ValueErrors. -/
theorem C27_format {α : Type} [Zero α] (l : List (α × α)) (ndim : Option Nat) :
    padWidthFormat (Spec.numpyWidths l) "numpy" "torch" ndim = .ok (Spec.torchWidths (l.reverse.flatMap fun p => [p.1, p.2])) ∧
    (∀ p f, padWidthFormat (α := α) p f f ndim = .ok p) ∧
    ∀ (p : Py α) f g, f ≠ g → ¬ (f = "numpy" ∧ g = "torch") → ¬ (f = "torch" ∧ g = "numpy") → padWidthFormat p f g ndim = .error .value := by
  refine ⟨?_, ?_, ?_⟩
  · have h : NdSpec.sequence ((l.map fun p => (Py.seq [.leaf p.1, .leaf p.2] : Py α)).map asRow) = .ok (l.map fun p => [Py.leaf p.1, .leaf p.2]) := by
      induction l with
      | nil => rfl
      | cons p l ih => simp only [List.map_cons, asRow, NdSpec.sequence, ih]
    simp only [padWidthFormat, Spec.numpyWidths]
    rw [if_neg (by decide), if_pos (by decide), h]
    simp only [bind, Except.bind, Spec.torchWidths, Except.ok.injEq, Py.seq.injEq]
    rw [← List.map_reverse, ← List.flatMap_def, List.map_flatMap]
    rfl
  · intro p f
    simp [padWidthFormat]
  · intro p f g h1 h2 h3
    simp only [padWidthFormat]
    rw [if_neg h1, if_neg h2, if_neg h3]

theorem pairsOf_map {α β : Type} (f : α → β) : ∀ l : List α, pairsOf (l.map f) = (pairsOf l).map fun r => r.map f
  | [] => rfl
  | [_] => rfl
  | a :: b :: l => by simp only [List.map_cons, pairsOf, pairsOf_map f l, List.map_nil]

/-- the two numbers of an axis counted from the last one; zero if not given -/
def Spec.torchPair {α : Type} [Zero α] (l : List α) (k : Nat) : α × α := (l.getD (2 * k) 0, l.getD (2 * k + 1) 0)

theorem pairsOf_even {α : Type} [Zero α] : ∀ {m : Nat} {l : List α}, l.length = 2 * m →
    pairsOf l = (List.range m).map fun k => [(Spec.torchPair l k).1, (Spec.torchPair l k).2]
  | 0, l, h => by
    obtain rfl : l = [] := List.eq_nil_of_length_eq_zero (by omega)
    rfl
  | m + 1, [], h => by simp at h
  | m + 1, [a], h => by simp at h; omega
  | m + 1, a :: b :: l, h => by
    simp only [List.length_cons] at h
    rw [pairsOf, pairsOf_even (m := m) (by omega), List.range_succ_eq_map, List.map_cons, List.map_map]
    congr 1

/-- **C27**: widths that pass `_check_padding` for `ndim` axes are converted to one pair per axis, the axes that are left
out at the front get zeros. -/
theorem C27_checked {ndim : Nat} {l : List Int} (h : checkPadding ndim (Spec.torchWidths l) = .ok ()) :
    padWidthFormat (Spec.torchWidths l) "torch" "numpy" (some ndim) =
        .ok (Spec.numpyWidths ((List.range ndim).map fun k => Spec.torchPair l (ndim - 1 - k))) ∧
      ∀ k < ndim, 0 ≤ (Spec.torchPair l k).1 ∧ 0 ≤ (Spec.torchPair l k).2 := by
  simp only [checkPadding, Spec.torchWidths, List.length_map] at h
  split at h
  · cases h
  · split at h
    · cases h
    · split at h
      · rename_i h1 h2 h3
        obtain ⟨m, hm⟩ : ∃ m, l.length = 2 * m := ⟨l.length / 2, by omega⟩
        have hnn : ∀ k, 0 ≤ l.getD k 0 := by
          intro k
          rw [List.getD_eq_getElem?_getD]
          by_cases hk : k < l.length
          · rw [List.getElem?_eq_getElem hk]
            simp only [List.all_eq_true, List.mem_map, forall_exists_index, and_imp, forall_apply_eq_imp_iff₂, decide_eq_true_eq] at h3
            exact h3 _ (List.getElem_mem hk)
          · rw [List.getElem?_eq_none (by omega)]
            exact le_refl _
        refine ⟨?_, fun k _ => ⟨hnn _, hnn _⟩⟩
        simp only [padWidthFormat, Spec.torchWidths]
        rw [if_neg (by decide), if_neg (by decide), if_pos (by decide)]
        simp only [List.length_map, Spec.numpyWidths, Except.ok.injEq, Py.seq.injEq]
        rw [pairsOf_map, pairsOf_even hm, hm, show 2 * m / 2 = m by omega]
        apply List.ext_getElem
        · simp; omega
        · intro i hi1 hi2
          simp only [List.length_map, List.length_range] at hi2
          rw [List.getElem_append]
          simp only [List.length_replicate]
          split
          · rename_i hlt
            simp only [List.getElem_replicate, List.getElem_map, List.getElem_range, Spec.torchPair]
            rw [List.getD_eq_getElem?_getD, List.getD_eq_getElem?_getD, List.getElem?_eq_none (by omega), List.getElem?_eq_none (by omega)]
            rfl
          · rename_i hge
            simp only [List.getElem_reverse, List.getElem_map, List.getElem_range, List.length_map, List.length_range, List.map_cons, List.map_nil]
            rw [show m - 1 - (i - (ndim - m)) = ndim - 1 - i by omega]
      · cases h

/-- **C27**: the check passes exactly for an even number of non-negative widths for at most all axes -/
theorem C27_check {ndim : Nat} {l : List Int} : checkPadding ndim (Spec.torchWidths l) = .ok () ↔
    l.length % 2 = 0 ∧ l.length / 2 ≤ ndim ∧ ∀ p ∈ l, 0 ≤ p := by
  simp only [checkPadding, Spec.torchWidths, List.length_map]
  split
  · rename_i h; simp; omega
  · split
    · rename_i h; simp; omega
    · split
      · rename_i h1 h2 h3
        simp only [List.all_eq_true, List.mem_map, forall_exists_index, and_imp, forall_apply_eq_imp_iff₂, decide_eq_true_eq] at h3
        simp only [true_iff]
        exact ⟨by omega, by omega, h3⟩
      · rename_i h1 h2 h3
        simp only [List.all_eq_true, List.mem_map, forall_exists_index, and_imp, forall_apply_eq_imp_iff₂, decide_eq_true_eq] at h3
        simp only [reduceCtorEq, false_iff, not_and]
        exact fun _ _ h => h3 h

/-- the last two of three axes -/
example : checkPadding 3 (Spec.torchWidths [5, 6, 3, 4]) = .ok () ∧
    (List.range 3).map (fun k => Spec.torchPair [(5 : Int), 6, 3, 4] (3 - 1 - k)) = [(0, 0), (3, 4), (5, 6)] := by decide

/-- three axes -/
example : numpyToTorch [[1, 2], [3, 4], [5, 6]] = [5, 6, 3, 4, 1, 2] ∧
    torchToNumpy (some 4) [5, 6, 3, 4, 1, 2] = .ok [[(0 : Int), 0], [1, 2], [3, 4], [5, 6]] := by decide

/-! ## C28, C29: original samples per window -/

/-- **C28.** `n_original_elements_1d` returns one count per window: the number of positions of the window that hold
original samples. -/
theorem C28_n_original {n b a k s : Nat} (hk : 0 < k) (hs : 0 < s) :
    nOriginal1d n (b, a) k s =
      .ok ((List.range (windowCount (n + b + a) k s 1)).map fun t => ((originals n b k s t : Nat) : Int)) :=
  nOriginal1d_eq hk hs

/-- **C28**: the empty list if the kernel does not fit into the padded axis -/
theorem C28_no_window {n b a k s : Nat} (hk : 0 < k) (hs : 0 < s) (h : n + b + a < k) :
    nOriginal1d n (b, a) k s = .ok [] := by
  rw [C28_n_original hk hs, windowCount_eq hs, if_neg (by omega)]
  rfl

/-- five samples, 3 padded before and 4 after, windows of 4 at stride 2: 1, 3, 4, 2, 0 original samples -/
example : nOriginal1d 5 (3, 4) 4 2 = .ok [1, 3, 4, 2, 0] ∧
    (List.range (windowCount (5 + 3 + 4) 4 2 1)).map (originals 5 3 4 2) = [1, 3, 4, 2, 0] := by decide

/-- **C29.** In several dimensions every entry counts the positions of the n-d window that are original in every
axis, -/
theorem C29_n_original_nd {c : CountArgs} {m : Nat} (hm : 0 < m) (hc : c.Fits m)
    (hk : ∀ i, i < c.count m → 0 < c.k.entry 1 i) (hs : ∀ i, i < c.count m → 0 < c.s.entry 1 i) :
    ∃ w, nOriginalNd (c.n.toPy pyNat) (c.w.toPy PadArgs.pyWidth) (c.k.toPy pyNat) (c.s.toPy pyNat) = .ok w ∧
      w.shape = (List.range (c.count m)).map c.windows ∧
      ∀ t, InB w.shape t → w.get t = (originalsNd ((List.range (c.count m)).map c.axis) t : Nat) :=
  nOriginalNd_spec hm hc hk hs

/-- **C29**: which is the product of the counts per axis. -/
theorem C29_product {axes : List (Nat × Nat × Nat × Nat)} {t : List Nat} (h : t.length = axes.length) :
    originalsNd axes t =
      (List.zipWith (fun (a : Nat × Nat × Nat × Nat) t => originals a.1 a.2.1 a.2.2.1 a.2.2.2 t) axes t).prod :=
  originalsNd_eq h

/-- two axes of 3 and 4 samples, one padded sample on either side, windows of 2 by 3: the corner sees 2 originals -/
example : (CountArgs.mk (.many [3, 4]) (.one (1, 1)) (.many [2, 3]) (.one 1)).Fits 2 ∧
    originalsNd [(3, 1, 2, 1), (4, 1, 3, 1)] [0, 0] = 2 ∧ originalsNd [(3, 1, 2, 1), (4, 1, 3, 1)] [1, 1] = 6 := by
  refine ⟨?_, by decide, by decide⟩
  simp [CountArgs.Fits, Given.Fits]

/-! ## C66: outer products -/

/-- **C66.** `outer(u, v)` has the shapes appended and every entry is a product of entries. -/
theorem C66_outer {α : Type} [MulZeroClass α] (u v : Tensor α) :
    ∃ w, outer u v = .ok w ∧ w.shape = u.shape ++ v.shape ∧
      ∀ ix jx, InB u.shape ix → InB v.shape jx → w.get (ix ++ jx) = u.get ix * v.get jx :=
  ⟨_, outer_spec u v, rfl, fun _ _ h h' => outer_get h h'⟩

/-- **C66.** The outer product is associative. -/
theorem C66_outer_assoc {α : Type} [SemigroupWithZero α] (u v w : Tensor α) :
    ((outer u v).bind fun uv => outer uv w) = (outer v w).bind fun vw => outer u vw := by
  obtain ⟨uv, h1, h2, h3⟩ := C66_outer u v
  obtain ⟨vw, g1, g2, g3⟩ := C66_outer v w
  obtain ⟨l, l1, l2, l3⟩ := C66_outer uv w
  obtain ⟨r, r1, r2, r3⟩ := C66_outer u vw
  rw [h1, g1]
  simp only [Except.bind]
  rw [l1, r1]
  congr 1
  have e : l.shape = r.shape := by rw [l2, r2, h2, g2, List.append_assoc]
  apply Tensor.ext_get e
  intro ix hix
  rw [l2] at hix
  obtain ⟨a1, a2, a3⟩ := hix.split
  rw [a3, l3 _ _ a1 a2]
  generalize ix.take uv.shape.length = A at *
  generalize ix.drop uv.shape.length = B at *
  have a1' := a1
  rw [h2] at a1'
  obtain ⟨b1, b2, b3⟩ := a1'.split
  generalize A.take u.shape.length = C at *
  generalize A.drop u.shape.length = D at *
  subst b3
  rw [h3 _ _ b1 b2, List.append_assoc, r3 _ _ b1 (by rw [g2]; exact (inB_append b2.length_eq).2 ⟨b2, a2⟩),
    g3 _ _ b2 a2, mul_assoc]

/-- a vector of 2 and a vector of 3 -/
example : outer (Tensor.vec [1, 2]) (Tensor.vec [(3 : Int), 4, 5]) =
    .ok ⟨[2, 3], [3, 4, 5, 6, 8, 10], rfl⟩ := by decide

end TI
