import Verif.Proofs.PadModes
import Verif.Props.PadForward

/-!
# Mode-by-mode properties of `Padder.forward`: C04–C15

`zipRight axes ss` pairs every padded axis with its settings, in processing order; `x.shape.getD d 0` is the
original size of axis `d`, and the original samples sit at `[before, before + n)`.
-/

namespace TI
open Tensor Spec

/-! ## concrete requests -/

namespace Example

/-- settings with mode `m`, widths 4 and 7, constants 5 and 6, end values 8 and 9, statistics over the
first 2 samples / all samples -/
def sOf (m : Mode ℚ) : AxisPad ℚ := ⟨4, 7, m, (5, 6), (8, 9), (some 2, none)⟩

/-- `Padder(pad_width=(4, 7), mode=m, constant_values=(5, 6), end_values=(8, 9), stat_length=(2, None))` -/
def pOf (m : Mode ℚ) : Padder ℚ where
  padWidth := ⟨.seq [.leaf 4, .leaf 7], [2], 0⟩
  mode := ⟨.leaf m, [], 0⟩
  constantValues := ⟨.seq [.leaf 5, .leaf 6], [2], 0⟩
  endValues := ⟨.seq [.leaf 8, .leaf 9], [2], 0⟩
  statLength := ⟨.seq [.leaf (some 2), .leaf none], [2], 0⟩
  ndim := 0

/-- the constructor builds this object -/
theorem init_pOf (m : Mode ℚ) : Padder.init (.seq [.leaf 4, .leaf 7]) (.leaf m) (.seq [.leaf 5, .leaf 6])
    (.seq [.leaf 8, .leaf 9]) (.seq [.leaf (some 2), .leaf none]) = .ok (pOf m) := by rfl

/-- padding both axes of the 2 × 3 tensor `x`, the last one first -/
theorem callOf (m : Mode ℚ) (h1 : (sOf m).rule? ≠ none) (h2 : m ≠ .zeros) :
    PadCall (pOf m) x (.seq [-1, 0]) [1, 0] [sOf m, sOf m] where
  ndim_ne := by decide
  axes_eq := by decide
  nodup := by decide
  len := by simp [pOf]
  reads := by
    intro j hj
    match j, hj with
    | 0, _ => exact ⟨rfl, rfl, rfl, rfl, rfl⟩
    | 1, _ => exact ⟨rfl, rfl, rfl, rfl, rfl⟩
  valued := by
    intro o ho _
    have ho : o = (1, sOf m) ∨ o = (0, sOf m) := by simpa [zipRight] using ho
    rcases ho with rfl | rfl
    · exact ⟨h1, h2, by simp [x]⟩
    · exact ⟨h1, h2, by simp [x]⟩

theorem allOf (m : Mode ℚ) : ∀ s ∈ [sOf m, sOf m], s.mode = m := by
  intro s hs
  have : s = sOf m := by simpa using hs
  rw [this]; rfl

end Example

variable {α : Type} [Field α] [LinearOrder α] [IsStrictOrderedRing α]
variable {p : Padder α} {x : Tensor α} {ax : Axes} {axes : List Nat} {ss : List (AxisPad α)}

/-! ## C04 – C08, C15: modes that copy samples -/

/-- **C04.** `replicate`: every padded coordinate is clamped to `[0, n-1]`, on all padded axes at once. -/
theorem C04_replicate (h : PadCall p x ax axes ss) (hm : ∀ s ∈ ss, s.mode = .replicate) (junk : List Nat → α) :
    ∃ y, p.forward junk x ax = .ok y ∧ ∀ ix, InB y.shape ix →
      y.get ix = x.get (pull (fun n z => (max 0 (min z ((n : Int) - 1))).toNat) x.shape (zipRight axes ss) ix) := by
  obtain ⟨y, hy, hyx⟩ := coord_uniform h (c := clampC) rfl hm (by simp) junk
  refine ⟨y, hy, fun ix hix => ?_⟩
  rw [hyx ix hix]
  have e : ∀ n z, clampC n z = (max 0 (min z ((n : Int) - 1))).toNat := by
    intro n z; simp only [clampC]; split_ifs <;> omega
  simp only [pull, e]

example (junk : List Nat → ℚ) : ∃ y, (Example.pOf .replicate).forward junk Example.x (.seq [-1, 0]) = .ok y ∧
    y.get [12, 0] = 4 := by
  obtain ⟨y, h1, h2⟩ := C04_replicate (Example.callOf .replicate (by simp [AxisPad.rule?, Example.sOf]) (by simp))
    (Example.allOf _) junk
  refine ⟨y, h1, ?_⟩
  rw [C16_forward_sequential (Example.callOf .replicate (by simp [AxisPad.rule?, Example.sOf]) (by simp))] at h1
  cases h1
  rw [h2 _ (by decide)]
  decide +kernel

/-- **C05.** `circular`: `y[i] = x[(i - before) mod n]` on all padded axes, at any width. -/
theorem C05_circular (h : PadCall p x ax axes ss) (hm : ∀ s ∈ ss, s.mode = .circular) (junk : List Nat → α) :
    ∃ y, p.forward junk x ax = .ok y ∧ ∀ ix, InB y.shape ix →
      y.get ix = x.get (pull (fun n z => (z % n).toNat) x.shape (zipRight axes ss) ix) :=
  coord_uniform h (c := circC) rfl hm (by simp) junk

example (junk : List Nat → ℚ) : ∃ y, (Example.pOf .circular).forward junk Example.x (.seq [-1, 0]) = .ok y ∧
    y.get [12, 0] = 3 := by
  obtain ⟨y, h1, h2⟩ := C05_circular (Example.callOf .circular (by simp [AxisPad.rule?, Example.sOf]) (by simp))
    (Example.allOf _) junk
  refine ⟨y, h1, ?_⟩
  rw [C16_forward_sequential (Example.callOf .circular (by simp [AxisPad.rule?, Example.sOf]) (by simp))] at h1
  cases h1
  rw [h2 _ (by decide)]
  decide +kernel

/-- **C06.** `symmetric`: coordinates are folded with period `2n` about the half-sample edges, on all padded
axes, at any width (so both the cached and the uncached code path). -/
theorem C06_symmetric (h : PadCall p x ax axes ss) (hm : ∀ s ∈ ss, s.mode = .symmetric) (junk : List Nat → α) :
    ∃ y, p.forward junk x ax = .ok y ∧ ∀ ix, InB y.shape ix →
      y.get ix = x.get (pull (fun n z => if (z % (2 * n)).toNat < n then (z % (2 * n)).toNat
        else 2 * n - 1 - (z % (2 * n)).toNat) x.shape (zipRight axes ss) ix) :=
  coord_uniform h (c := symC) rfl hm (by simp) junk

example (junk : List Nat → ℚ) : ∃ y, (Example.pOf .symmetric).forward junk Example.x (.seq [-1, 0]) = .ok y ∧
    y.get [12, 0] = 3 := by
  obtain ⟨y, h1, h2⟩ := C06_symmetric (Example.callOf .symmetric (by simp [AxisPad.rule?, Example.sOf]) (by simp))
    (Example.allOf _) junk
  refine ⟨y, h1, ?_⟩
  rw [C16_forward_sequential (Example.callOf .symmetric (by simp [AxisPad.rule?, Example.sOf]) (by simp))] at h1
  cases h1
  rw [h2 _ (by decide)]
  decide +kernel

/-- **C07.** `reflect`: coordinates are folded with period `2(n-1)` about the edge samples; a single sample is
repeated. -/
theorem C07_reflect (h : PadCall p x ax axes ss) (hm : ∀ s ∈ ss, s.mode = .reflect) (junk : List Nat → α) :
    ∃ y, p.forward junk x ax = .ok y ∧ ∀ ix, InB y.shape ix →
      y.get ix = x.get (pull (fun n z => if n = 1 then 0
        else if (z % (2 * (n - 1) : Nat)).toNat < n then (z % (2 * (n - 1) : Nat)).toNat
        else 2 * (n - 1) - (z % (2 * (n - 1) : Nat)).toNat) x.shape (zipRight axes ss) ix) :=
  coord_uniform h (c := reflC) rfl hm (by simp) junk

example (junk : List Nat → ℚ) : ∃ y, (Example.pOf .reflect).forward junk Example.x (.seq [-1, 0]) = .ok y ∧
    y.get [12, 1] = 2 := by
  obtain ⟨y, h1, h2⟩ := C07_reflect (Example.callOf .reflect (by simp [AxisPad.rule?, Example.sOf]) (by simp))
    (Example.allOf _) junk
  refine ⟨y, h1, ?_⟩
  rw [C16_forward_sequential (Example.callOf .reflect (by simp [AxisPad.rule?, Example.sOf]) (by simp))] at h1
  cases h1
  rw [h2 _ (by decide)]
  decide +kernel

/-- **C08.** `antisymmetric`: the symmetric extension, multiplied by `-1` for every axis on which the
position lies in a mirrored block. -/
theorem C08_antisymmetric (h : PadCall p x ax axes ss) (hm : ∀ s ∈ ss, s.mode = .antisymmetric)
    (junk : List Nat → α) :
    ∃ y, p.forward junk x ax = .ok y ∧ ∀ ix, InB y.shape ix →
      y.get ix = ((zipRight axes ss).map fun o =>
          if (((ix.getD o.1 0 : Int) - o.2.before) % (2 * x.shape.getD o.1 0)).toNat < x.shape.getD o.1 0
          then (1 : α) else -1).prod *
        x.get (pull (fun n z => if (z % (2 * n)).toNat < n then (z % (2 * n)).toNat
          else 2 * n - 1 - (z % (2 * n)).toNat) x.shape (zipRight axes ss) ix) := by
  refine ⟨_, forward_call h junk, ?_⟩
  intro ix hix
  have hm' : ∀ o ∈ zipRight axes ss, o.2.mode = .antisymmetric := fun o ho => hm _ (zipRight_mem ho).2
  rw [padSeq_coord h.nd (fun o ho => by rw [hm' o ho]; simp [modeC]) x h.lt (h.pos hix) hix,
    source_uniform (c := symC) rfl hm']
  congr 1
  simp only [signs]
  congr 1
  apply List.map_congr_left
  intro o ho
  rw [hm' o ho]; rfl

example (junk : List Nat → ℚ) :
    ∃ y, (Example.pOf .antisymmetric).forward junk Example.x (.seq [-1, 0]) = .ok y ∧ y.get [5, 2] = -5 := by
  obtain ⟨y, h1, h2⟩ := C08_antisymmetric
    (Example.callOf .antisymmetric (by simp [AxisPad.rule?, Example.sOf]) (by simp)) (Example.allOf _) junk
  refine ⟨y, h1, ?_⟩
  rw [C16_forward_sequential (Example.callOf .antisymmetric (by simp [AxisPad.rule?, Example.sOf]) (by simp))] at h1
  cases h1
  rw [h2 _ (by decide)]
  decide +kernel

/-- **C15.** `periodize`: periodic with period `n` for even `n`; for odd `n` with period `n + 1`, where
position `n` of a period repeats the last sample. -/
theorem C15_periodize (h : PadCall p x ax axes ss) (hm : ∀ s ∈ ss, s.mode = .periodize) (junk : List Nat → α) :
    ∃ y, p.forward junk x ax = .ok y ∧ ∀ ix, InB y.shape ix →
      y.get ix = x.get (pull (fun n z => if n % 2 = 0 then (z % n).toNat
        else min (z % (n + 1 : Nat)).toNat (n - 1)) x.shape (zipRight axes ss) ix) :=
  coord_uniform h (c := perC) rfl hm (by simp) junk

example (junk : List Nat → ℚ) : ∃ y, (Example.pOf .periodize).forward junk Example.x (.seq [-1, 0]) = .ok y ∧
    y.get [5, 14] = 6 := by
  obtain ⟨y, h1, h2⟩ := C15_periodize (Example.callOf .periodize (by simp [AxisPad.rule?, Example.sOf]) (by simp))
    (Example.allOf _) junk
  refine ⟨y, h1, ?_⟩
  rw [C16_forward_sequential (Example.callOf .periodize (by simp [AxisPad.rule?, Example.sOf]) (by simp))] at h1
  cases h1
  rw [h2 _ (by decide)]
  decide +kernel

/-- **C04–C08, C15, mixed.** Different copying modes may be used on different axes: coordinates and signs
are then determined axis by axis. -/
theorem C04_copying_modes_mixed (h : PadCall p x ax axes ss) (hm : ∀ s ∈ ss, modeC s.mode ≠ none)
    (junk : List Nat → α) :
    ∃ y, p.forward junk x ax = .ok y ∧ ∀ ix, InB y.shape ix →
      y.get ix = signs x.shape (zipRight axes ss) ix * x.get (source x.shape (zipRight axes ss) ix) :=
  ⟨_, forward_call h junk, fun _ hix =>
    padSeq_coord h.nd (fun o ho => hm _ (zipRight_mem ho).2) x h.lt (h.pos hix) hix⟩

example (junk : List Nat → ℚ) : ∃ y, Example.p.forward junk Example.x (.seq [1, -2]) = .ok y ∧
    y.get [0, 0] = 6 := by
  obtain ⟨y, h1, h2⟩ := C04_copying_modes_mixed Example.call (by
    intro s hs
    have : s = Example.s0 ∨ s = Example.s1 := by simpa using hs
    rcases this with rfl | rfl <;> simp [modeC, Example.s0, Example.s1]) junk
  refine ⟨y, h1, ?_⟩
  rw [C16_forward_sequential Example.call] at h1
  cases h1
  rw [h2 _ (by decide)]
  decide +kernel

/-! ## C09, C10, C11: extrapolating modes -/

section
variable {o : Nat × AxisPad α}

/-- **C09.** `odd_reflect` on an axis (any linear modes on the others): along every fibre of the result, for
`n ≥ 2`, two positions that mirror each other about one of the edges `k (n-1)` have mean equal to the
sample at this edge; positions one period `2(n-1)` apart differ by `2 (last - first)`; for `n = 1` the
sample is repeated. -/
theorem C09_odd_reflect (h : PadCall p x ax axes ss) (hlin : ∀ s ∈ ss, s.Linear)
    (ho : o ∈ zipRight axes ss) (hm : o.2.mode = .oddReflect) (junk : List Nat → α) :
    ∃ y, p.forward junk x ax = .ok y ∧ ∀ ix, InB y.shape ix →
      (x.shape.getD o.1 0 = 1 → y.get ix = y.get (ix.set o.1 o.2.before)) ∧
      (2 ≤ x.shape.getD o.1 0 →
        (∀ i j c : Nat, ∀ k : Int, i < y.shape.getD o.1 0 → j < y.shape.getD o.1 0 → c < y.shape.getD o.1 0 →
          (c : Int) - o.2.before = k * (x.shape.getD o.1 0 - 1) → (i : Int) + j = 2 * c →
          y.get (ix.set o.1 i) + y.get (ix.set o.1 j) = 2 * y.get (ix.set o.1 c)) ∧
        (∀ i j : Nat, i < y.shape.getD o.1 0 → j < y.shape.getD o.1 0 →
          j = i + 2 * (x.shape.getD o.1 0 - 1) →
          y.get (ix.set o.1 j) = y.get (ix.set o.1 i) + 2 *
            (y.get (ix.set o.1 (o.2.before + (x.shape.getD o.1 0 - 1))) - y.get (ix.set o.1 o.2.before)))) := by
  obtain ⟨y, E, hE, hy, hlaw⟩ := axis_law_linear h hlin ho junk
  refine ⟨y, hy, fun ix hix => ?_⟩
  simp only [AxisPad.rule?, hm, Option.some.injEq] at hE
  subst hE
  have hd : o.1 < ix.length := by
    rw [forward_call h] at hy
    cases hy
    rw [hix.length_eq]
    have := padSeq_ndim h.ok x
    simp only [Tensor.ndim] at this
    rw [this]; exact h.lt o ho
  generalize hn : x.shape.getD o.1 0 = n at *
  have key : ∀ i, i < y.shape.getD o.1 0 → y.get (ix.set o.1 i) =
      Spec.oddReflect n (fun j => y.get (ix.set o.1 (o.2.before + j))) ((i : Int) - o.2.before) := by
    intro i hi
    have := (hlaw _ (hix.set_same (d := o.1) hi)).2
    rw [getD_set_self _ _ _ _ hd] at this
    simpa only [List.set_set] using this
  refine ⟨?_, ?_⟩
  · intro h1
    have := (hlaw ix hix).2
    rw [this, Spec.oddReflect, if_pos h1, Nat.add_zero]
  · intro h2
    refine ⟨?_, ?_⟩
    · intro i j c k hi hj hc hk hij
      rw [key i hi, key j hj, key c hc]
      have e1 : ((n - 1 : Nat) : Int) = (n : Int) - 1 := by omega
      have := oddReflect_odd h2 (fun j => y.get (ix.set o.1 (o.2.before + j))) k ((j : Int) - o.2.before)
      rw [e1, ← hk] at this
      rw [show (i : Int) - o.2.before = 2 * ((c : Int) - o.2.before) - ((j : Int) - o.2.before) by omega, this]
      ring
    · intro i j hi hj hij
      rw [key i hi, key j hj]
      have := oddReflect_per h2 (fun j => y.get (ix.set o.1 (o.2.before + j))) ((i : Int) - o.2.before) 1
      rw [show (j : Int) - o.2.before = (i : Int) - o.2.before + 1 * ((2 * (n - 1) : Nat) : Int) by omega, this]
      simp

example (junk : List Nat → ℚ) :
    ∃ y, (Example.pOf .oddReflect).forward junk Example.x (.seq [-1, 0]) = .ok y ∧
      y.get [0, 0] + y.get [0, 8] = 2 * y.get [0, 4] := by
  have hc := Example.callOf .oddReflect (by simp [AxisPad.rule?, Example.sOf]) (by simp)
  obtain ⟨y, h1, h2⟩ := C09_odd_reflect hc (by
    intro s hs; have := Example.allOf _ s hs; simp [AxisPad.Linear, this])
    (o := (1, Example.sOf .oddReflect)) (by simp [zipRight]) rfl junk
  refine ⟨y, h1, ?_⟩
  rw [C16_forward_sequential hc] at h1
  cases h1
  exact (((h2 [0, 0] (by decide)).2 (by decide)).1 0 8 4 0 (by decide) (by decide) (by decide) (by decide) (by decide))

/-- **C10.** `odd_symmetric` on an axis (any linear modes on the others): with `z = i - before`,
`q = z div 2n`, `j = z mod 2n`, the sample is `u_j` in even blocks and `2 u_{n-1} - u_{2n-1-j}` in odd
blocks, plus the drift `q · 2 (u_{n-1} - u_0)`; here `u` are the samples of the original region of the same
fibre. -/
theorem C10_odd_symmetric (h : PadCall p x ax axes ss) (hlin : ∀ s ∈ ss, s.Linear)
    (ho : o ∈ zipRight axes ss) (hm : o.2.mode = .oddSymmetric) (junk : List Nat → α) :
    ∃ y, p.forward junk x ax = .ok y ∧ ∀ ix, InB y.shape ix →
      ∀ n z q j u, n = x.shape.getD o.1 0 → z = (ix.getD o.1 0 : Int) - o.2.before →
        q = z / (2 * n : Nat) → j = (z % (2 * n : Nat)).toNat →
        u = (fun k => y.get (ix.set o.1 (o.2.before + k))) →
        y.get ix = (if j < n then u j else 2 * u (n - 1) - u (2 * n - 1 - j)) + (q : α) * (2 * (u (n - 1) - u 0)) := by
  obtain ⟨y, E, hE, hy, hlaw⟩ := axis_law_linear h hlin ho junk
  refine ⟨y, hy, fun ix hix => ?_⟩
  simp only [AxisPad.rule?, hm, Option.some.injEq] at hE
  subst hE
  rintro n z q j u rfl rfl rfl rfl rfl
  have := (hlaw ix hix).2
  rw [this, Spec.oddSymmetric]
  push_cast
  rfl

/-- **C10**, point symmetry about the two half-sample edges of the original region. -/
theorem C10_odd_symmetric_point (h : PadCall p x ax axes ss) (hlin : ∀ s ∈ ss, s.Linear)
    (ho : o ∈ zipRight axes ss) (hm : o.2.mode = .oddSymmetric) (junk : List Nat → α) :
    ∃ y, p.forward junk x ax = .ok y ∧ ∀ ix, InB y.shape ix → ∀ i j : Nat,
      i < y.shape.getD o.1 0 → j < y.shape.getD o.1 0 →
      (i + j + 1 = 2 * o.2.before →
        y.get (ix.set o.1 i) + y.get (ix.set o.1 j) = 2 * y.get (ix.set o.1 o.2.before)) ∧
      (i + j + 1 = 2 * (o.2.before + x.shape.getD o.1 0) →
        y.get (ix.set o.1 i) + y.get (ix.set o.1 j) =
          2 * y.get (ix.set o.1 (o.2.before + (x.shape.getD o.1 0 - 1)))) := by
  obtain ⟨y, E, hE, hy, hlaw⟩ := axis_law_linear h hlin ho junk
  refine ⟨y, hy, fun ix hix i j hi hj => ?_⟩
  simp only [AxisPad.rule?, hm, Option.some.injEq] at hE
  subst hE
  have hd : o.1 < ix.length := by
    rw [forward_call h] at hy
    cases hy
    rw [hix.length_eq]
    have := padSeq_ndim h.ok x
    simp only [Tensor.ndim] at this
    rw [this]; exact h.lt o ho
  have hpos := (hlaw ix hix).1
  generalize hn : x.shape.getD o.1 0 = n at *
  have key : ∀ i, i < y.shape.getD o.1 0 → y.get (ix.set o.1 i) =
      Spec.oddSymmetric n (fun j => y.get (ix.set o.1 (o.2.before + j))) ((i : Int) - o.2.before) := by
    intro i hi
    have := (hlaw _ (hix.set_same (d := o.1) hi)).2
    rw [getD_set_self _ _ _ _ hd] at this
    simpa only [List.set_set] using this
  rw [key i hi, key j hj]
  refine ⟨?_, ?_⟩
  · intro hij
    have := oddSymmetric_mirror hpos (fun j => y.get (ix.set o.1 (o.2.before + j))) ((j : Int) - o.2.before)
    rw [show (i : Int) - o.2.before = -1 - ((j : Int) - o.2.before) by omega, this]
    simp
  · intro hij
    have h1 := oddSymmetric_odd hpos (fun j => y.get (ix.set o.1 (o.2.before + j))) 1 ((j : Int) - o.2.before)
    have h2 := oddSymmetric_odd hpos (fun j => y.get (ix.set o.1 (o.2.before + j))) 1 n
    rw [one_mul, show 2 * (n : Int) - 1 - n = (n : Int) - 1 by ring] at h2
    have h3 := oddSymmetric_isExt n (fun j => y.get (ix.set o.1 (o.2.before + j))) ((n : Int) - 1) (by omega) (by omega)
    rw [h3] at h2
    rw [one_mul] at h1
    rw [show (i : Int) - o.2.before = 2 * (n : Int) - 1 - ((j : Int) - o.2.before) by omega, h1]
    rw [show ((n : Int) - 1).toNat = n - 1 by omega] at h2
    rw [h2]
    ring

example (junk : List Nat → ℚ) :
    ∃ y, (Example.pOf .oddSymmetric).forward junk Example.x (.seq [-1, 0]) = .ok y ∧
      y.get [0, 1] + y.get [0, 6] = 2 * y.get [0, 4] := by
  have hc := Example.callOf .oddSymmetric (by simp [AxisPad.rule?, Example.sOf]) (by simp)
  obtain ⟨y, h1, h2⟩ := C10_odd_symmetric_point hc (by
    intro s hs; have := Example.allOf _ s hs; simp [AxisPad.Linear, this])
    (o := (1, Example.sOf .oddSymmetric)) (by simp [zipRight]) rfl junk
  refine ⟨y, h1, ?_⟩
  rw [C16_forward_sequential hc] at h1
  cases h1
  exact (h2 [0, 0] (by decide) 1 6 (by decide) (by decide)).1 (by decide)

/-- **C11.** `smooth` on an axis (any linear modes on the others): at distance `k` before the first sample
the value is `u_0 - k (u_1 - u_0)`, at distance `k` after the last one `u_{n-1} + k (u_{n-1} - u_{n-2})`;
a single sample is repeated. -/
theorem C11_smooth (h : PadCall p x ax axes ss) (hlin : ∀ s ∈ ss, s.Linear)
    (ho : o ∈ zipRight axes ss) (hm : o.2.mode = .smooth) (junk : List Nat → α) :
    ∃ y, p.forward junk x ax = .ok y ∧ ∀ ix, InB y.shape ix →
      ∀ n u, n = x.shape.getD o.1 0 → u = (fun k => y.get (ix.set o.1 (o.2.before + k))) →
      (n = 1 → y.get ix = u 0) ∧
      (2 ≤ n → ∀ k : Nat,
        (ix.getD o.1 0 + k = o.2.before → y.get ix = u 0 - (k : α) * (u 1 - u 0)) ∧
        (ix.getD o.1 0 = o.2.before + (n - 1) + k → y.get ix = u (n - 1) + (k : α) * (u (n - 1) - u (n - 2)))) := by
  obtain ⟨y, E, hE, hy, hlaw⟩ := axis_law_linear h hlin ho junk
  refine ⟨y, hy, fun ix hix => ?_⟩
  simp only [AxisPad.rule?, hm, Option.some.injEq] at hE
  subst hE
  rintro n u rfl rfl
  have := (hlaw ix hix).2
  rw [this, Spec.smooth]
  generalize x.shape.getD o.1 0 = n at *
  refine ⟨fun h1 => by rw [if_pos h1], ?_⟩
  intro h2 k
  rw [if_neg (by omega)]
  refine ⟨?_, ?_⟩
  · intro hk
    by_cases hk0 : k = 0
    · subst hk0
      rw [if_neg (by omega), if_pos (by omega), show ((ix.getD o.1 0 : Int) - o.2.before).toNat = 0 by omega]
      simp
    · rw [if_pos (by omega), show (ix.getD o.1 0 : Int) - o.2.before = -(k : Int) by omega]
      push_cast
      ring
  · intro hk
    rw [if_neg (by omega)]
    by_cases hk0 : k = 0
    · subst hk0
      rw [if_pos (by omega), show ((ix.getD o.1 0 : Int) - o.2.before).toNat = n - 1 by omega]
      simp
    · rw [if_neg (by omega), show (ix.getD o.1 0 : Int) - o.2.before - (n - 1 : Nat) = (k : Int) by omega]
      simp

example (junk : List Nat → ℚ) :
    ∃ y, (Example.pOf .smooth).forward junk Example.x (.seq [-1, 0]) = .ok y ∧
      y.get [0, 1] = y.get [0, 4] - 3 * (y.get [0, 5] - y.get [0, 4]) := by
  have hc := Example.callOf .smooth (by simp [AxisPad.rule?, Example.sOf]) (by simp)
  obtain ⟨y, h1, h2⟩ := C11_smooth hc (by
    intro s hs; have := Example.allOf _ s hs; simp [AxisPad.Linear, this])
    (o := (1, Example.sOf .smooth)) (by simp [zipRight]) rfl junk
  refine ⟨y, h1, ?_⟩
  rw [C16_forward_sequential hc] at h1
  cases h1
  exact (((h2 [0, 1] (by decide) _ _ rfl rfl).2 (by decide) 3).1 (by decide))

end

/-! ## C12, C13, C14

These modes need not commute; the claim for an axis is about the fibres through the original region of the
axes processed *after* it (on the last processed axis: about all fibres).  The remaining positions belong
to the padding of a later axis. -/

section
variable {l r : List (Nat × AxisPad α)} {o : Nat × AxisPad α}

/-- **C12.** `linear_ramp`: at distance `k` from the border sample `u` on a side padded by `w` samples the
value is `u + k/w (end - u)`, so the outermost sample equals the end value. -/
theorem C12_linear_ramp (h : PadCall p x ax axes ss) (hsplit : zipRight axes ss = l ++ o :: r)
    (hm : o.2.mode = .linearRamp) (junk : List Nat → α) :
    ∃ y, p.forward junk x ax = .ok y ∧ ∀ ix, InB y.shape ix → Inside x.shape r ix →
      ∀ n u, n = x.shape.getD o.1 0 → u = (fun k => y.get (ix.set o.1 (o.2.before + k))) →
      (∀ k : Nat, ix.getD o.1 0 + k = o.2.before → y.get ix = u 0 + (k : α) / o.2.before * (o.2.ev.1 - u 0)) ∧
      (∀ k : Nat, ix.getD o.1 0 = o.2.before + (n - 1) + k →
        y.get ix = u (n - 1) + (k : α) / o.2.after * (o.2.ev.2 - u (n - 1))) ∧
      (ix.getD o.1 0 = 0 → 0 < o.2.before → y.get ix = o.2.ev.1) ∧
      (ix.getD o.1 0 + 1 = o.2.before + n + o.2.after → 0 < o.2.after → y.get ix = o.2.ev.2) := by
  obtain ⟨y, hy, hlaw⟩ := axis_law h hsplit (E := Spec.linearRamp o.2.before o.2.after o.2.ev.1 o.2.ev.2)
    (by simp [AxisPad.rule?, hm]) junk
  refine ⟨y, hy, fun ix hix hin => ?_⟩
  rintro n u rfl rfl
  obtain ⟨hpos, this⟩ := hlaw ix hix hin
  generalize x.shape.getD o.1 0 = n at *
  have A : ∀ k : Nat, ix.getD o.1 0 + k = o.2.before → y.get ix = y.get (ix.set o.1 (o.2.before + 0)) +
      (k : α) / o.2.before * (o.2.ev.1 - y.get (ix.set o.1 (o.2.before + 0))) := by
    intro k hk
    rw [this, Spec.linearRamp]
    by_cases hk0 : k = 0
    · subst hk0
      rw [if_neg (by omega), if_pos (by omega), show ((ix.getD o.1 0 : Int) - o.2.before).toNat = 0 by omega]
      simp
    · rw [if_pos (by omega), show -((ix.getD o.1 0 : Int) - o.2.before) = (k : Int) by omega]
      push_cast
      rfl
  have B : ∀ k : Nat, ix.getD o.1 0 = o.2.before + (n - 1) + k →
      y.get ix = y.get (ix.set o.1 (o.2.before + (n - 1))) +
      (k : α) / o.2.after * (o.2.ev.2 - y.get (ix.set o.1 (o.2.before + (n - 1)))) := by
    intro k hk
    rw [this, Spec.linearRamp, if_neg (by omega)]
    by_cases hk0 : k = 0
    · subst hk0
      rw [if_pos (by omega), show ((ix.getD o.1 0 : Int) - o.2.before).toNat = n - 1 by omega]
      simp
    · rw [if_neg (by omega), show (ix.getD o.1 0 : Int) - o.2.before - (n - 1 : Nat) = (k : Int) by omega]
      push_cast
      rfl
  refine ⟨A, B, ?_, ?_⟩
  · intro h0 hb
    have hb' : (o.2.before : α) ≠ 0 := by exact_mod_cast (by omega : o.2.before ≠ 0)
    rw [A o.2.before (by omega), div_self hb']; ring
  · intro h0 ha
    have ha' : (o.2.after : α) ≠ 0 := by exact_mod_cast (by omega : o.2.after ≠ 0)
    rw [B o.2.after (by omega), div_self ha']; ring

example (junk : List Nat → ℚ) :
    ∃ y, (Example.pOf .linearRamp).forward junk Example.x (.seq [-1, 0]) = .ok y ∧
      y.get [4, 0] = 8 ∧ y.get [0, 3] = 8 ∧ y.get [4, 2] = y.get [4, 4] + 2 / 4 * (8 - y.get [4, 4]) := by
  have hc := Example.callOf .linearRamp (by simp [AxisPad.rule?, Example.sOf]) (by simp)
  obtain ⟨y, h1, h2⟩ := C12_linear_ramp hc (l := []) (o := (1, Example.sOf .linearRamp))
    (r := [(0, Example.sOf .linearRamp)]) rfl rfl junk
  obtain ⟨y', h1', h2'⟩ := C12_linear_ramp hc (l := [(1, Example.sOf .linearRamp)])
    (o := (0, Example.sOf .linearRamp)) (r := []) rfl rfl junk
  rw [h1] at h1'
  cases h1'
  refine ⟨y, h1, ?_⟩
  rw [C16_forward_sequential hc] at h1
  cases h1
  have hin : ∀ i, Inside Example.x.shape [(0, Example.sOf .linearRamp)] [4, i] := by
    intro i q hq
    have : q = (0, Example.sOf .linearRamp) := by simpa using hq
    subst this
    exact ⟨by simp [Example.sOf], by simp [Example.sOf, Example.x]⟩
  refine ⟨(h2 [4, 0] (by decide) (hin 0) _ _ rfl rfl).2.2.1 rfl (by decide), ?_, ?_⟩
  · exact (h2' [0, 3] (by decide) (by intro q hq; cases hq) _ _ rfl rfl).2.2.1 rfl (by decide)
  · exact (h2 [4, 2] (by decide) (hin 2) _ _ rfl rfl).1 2 rfl

/-- **C13.** `constant`: at a position outside the original region of the axis (but inside that of all
axes processed later) the value is the axis' before / after constant.  So in corners the last processed
axis decides. -/
theorem C13_constant (h : PadCall p x ax axes ss) (hsplit : zipRight axes ss = l ++ o :: r)
    (hm : o.2.mode = .constant) (junk : List Nat → α) :
    ∃ y, p.forward junk x ax = .ok y ∧ ∀ ix, InB y.shape ix → Inside x.shape r ix →
      (ix.getD o.1 0 < o.2.before → y.get ix = o.2.cv.1) ∧
      (o.2.before + x.shape.getD o.1 0 ≤ ix.getD o.1 0 → y.get ix = o.2.cv.2) := by
  obtain ⟨y, hy, hlaw⟩ := axis_law h hsplit (E := Spec.constant o.2.cv.1 o.2.cv.2)
    (by simp [AxisPad.rule?, hm]) junk
  refine ⟨y, hy, fun ix hix hin => ?_⟩
  obtain ⟨hpos, this⟩ := hlaw ix hix hin
  rw [this, Spec.constant]
  refine ⟨fun h1 => by rw [if_pos (by omega)], fun h1 => ?_⟩
  rw [if_neg (by omega), if_neg (by omega)]

example (junk : List Nat → ℚ) :
    ∃ y, (Example.pOf .constant).forward junk Example.x (.seq [-1, 0]) = .ok y ∧
      y.get [12, 0] = 6 ∧ y.get [5, 0] = 5 := by
  have hc := Example.callOf .constant (by simp [AxisPad.rule?, Example.sOf]) (by simp)
  obtain ⟨y, h1, h2⟩ := C13_constant hc (l := []) (o := (1, Example.sOf .constant))
    (r := [(0, Example.sOf .constant)]) rfl rfl junk
  obtain ⟨y', h1', h2'⟩ := C13_constant hc (l := [(1, Example.sOf .constant)])
    (o := (0, Example.sOf .constant)) (r := []) rfl rfl junk
  rw [h1] at h1'
  cases h1'
  refine ⟨y, h1, ?_⟩
  rw [C16_forward_sequential hc] at h1
  cases h1
  refine ⟨(h2' [12, 0] (by decide) (by intro q hq; cases hq)).2 (by decide), ?_⟩
  refine (h2 [5, 0] (by decide) ?_).1 (by decide)
  intro q hq
  have : q = (0, Example.sOf .constant) := by simpa using hq
  subst this
  exact ⟨by simp [Example.sOf], by simp [Example.sOf, Example.x]⟩

/-- **C14.** `maximum` / `minimum` / `mean` / `median`: the padded samples before (after) are the statistic
of the first (last) `w` samples of the fibre, where `w` is `stat_length` clipped to `[1, n]`, or `n` for
`None`. -/
theorem C14_statistics (h : PadCall p x ax axes ss) (hsplit : zipRight axes ss = l ++ o :: r) {st : Stat}
    (hm : o.2.mode = .stat st) (junk : List Nat → α) :
    ∃ y, p.forward junk x ax = .ok y ∧ ∀ ix, InB y.shape ix → Inside x.shape r ix →
      ∀ n u, n = x.shape.getD o.1 0 → u = (fun k => y.get (ix.set o.1 (o.2.before + k))) →
      (ix.getD o.1 0 < o.2.before →
        IsStat st ((List.range (window n o.2.sl.1)).map u) (y.get ix)) ∧
      (o.2.before + n ≤ ix.getD o.1 0 →
        IsStat st ((List.range (window n o.2.sl.2)).map fun j => u (n - window n o.2.sl.2 + j)) (y.get ix)) := by
  obtain ⟨y, hy, hlaw⟩ := axis_law h hsplit (E := Spec.border (statVal st) o.2.sl.1 o.2.sl.2)
    (by simp [AxisPad.rule?, hm]) junk
  refine ⟨y, hy, fun ix hix hin => ?_⟩
  rintro n u rfl rfl
  obtain ⟨hpos, this⟩ := hlaw ix hix hin
  generalize x.shape.getD o.1 0 = n at *
  have hne : ∀ (w : Option Int) (f : Nat → α), (List.range (window n w)).map f ≠ [] := by
    intro w f hc
    have := (window_pos hpos w).1
    simp at hc
    omega
  refine ⟨fun h1 => ?_, fun h1 => ?_⟩
  · rw [this, Spec.border, if_pos (by omega)]
    exact statVal_isStat st (hne _ _)
  · rw [this, Spec.border, if_neg (by omega), if_neg (by omega)]
    exact statVal_isStat st (hne _ _)

/-- the specification of the statistics determines the value -/
theorem C14_stat_unique {st : Stat} {w : List α} (hw : w ≠ []) {a b : α} (ha : IsStat st w a) (hb : IsStat st w b) :
    a = b := by
  cases st with
  | mean =>
    have hpos : (0 : α) < w.length := by exact_mod_cast List.length_pos_iff.2 hw
    exact mul_right_cancel₀ (ne_of_gt hpos) (ha.trans hb.symm)
  | maximum => exact le_antisymm (hb.2 a ha.1) (ha.2 b hb.1)
  | minimum => exact le_antisymm (ha.2 b hb.1) (hb.2 a ha.1)
  | median =>
    have aux : ∀ a b : α, IsStat .median w a → IsStat .median w b → ¬ a < b := by
      intro a b ha hb hlt
      have h1 := ha.2.2
      have h2 := hb.2.1
      have : (w.filter fun c => decide (c ≤ a)).length ≤ (w.filter fun c => decide (c < b)).length := by
        apply List.Sublist.length_le
        apply List.monotone_filter_right
        intro c hc
        simp only [decide_eq_true_eq] at hc ⊢
        exact lt_of_le_of_lt hc hlt
      omega
    exact le_antisymm (not_lt.1 (aux b a hb ha)) (not_lt.1 (aux a b ha hb))

example (junk : List Nat → ℚ) :
    ∃ y, (Example.pOf (.stat .median)).forward junk Example.x (.seq [-1, 0]) = .ok y ∧
      IsStat .median [y.get [4, 0], y.get [5, 0]] (y.get [12, 0]) := by
  have hc := Example.callOf (.stat .median) (by simp [AxisPad.rule?, Example.sOf]) (by simp)
  obtain ⟨y, h1, h2⟩ := C14_statistics hc (l := [(1, Example.sOf (.stat .median))])
    (o := (0, Example.sOf (.stat .median))) (r := []) (st := .median) rfl rfl junk
  refine ⟨y, h1, ?_⟩
  rw [C16_forward_sequential hc] at h1
  cases h1
  exact (h2 [12, 0] (by decide) (by intro q hq; cases hq) _ _ rfl rfl).2 (by decide)

end

end TI
