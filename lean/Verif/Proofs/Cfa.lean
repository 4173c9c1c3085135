import Verif.Proofs.Planes
import Verif.Proofs.Edges
import Verif.Spec.Cfa

/-!
# Colour filter arrays: patterns, loops over cells, conversions
-/

set_option linter.unusedSectionVars false

namespace TI
open Tensor Spec

/-! ## patterns -/

theorem toUpper_iff {u l : Char} (h : u.toNat + 32 = l.toNat) (h1 : 65 ≤ u.toNat) (h2 : u.toNat ≤ 90) (c : Char) :
    c.toUpper = u ↔ c = u ∨ c = l := by
  have hc : ∀ a b : Char, a = b ↔ a.toNat = b.toNat := by
    intro a b
    constructor
    · rintro rfl; rfl
    · intro e
      exact Char.ext (UInt32.toNat_inj.1 e)
  have key : c.toUpper.toNat = if 97 ≤ c.toNat ∧ c.toNat ≤ 122 then c.toNat - 32 else c.toNat := by
    have e : c.toUpper = if h : 97 ≤ c.toNat ∧ c.toNat ≤ 122 then c.toUpper else c := by
      split_ifs with hh
      · rfl
      · rw [Char.toUpper, dif_neg]
        rintro ⟨q1, q2⟩
        exact hh ⟨q1, q2⟩
    split_ifs with hh
    · rw [Char.toUpper, dif_pos ⟨hh.1, hh.2⟩]
      change (c.val + ('A'.val - 'a'.val)).toNat = _
      rw [UInt32.toNat_add]
      have : ('A'.val - 'a'.val).toNat = 4294967264 := by decide
      rw [this]
      change (c.toNat + 4294967264) % 2 ^ 32 = _
      omega
    · rw [e, dif_neg hh]
  rw [hc, hc, hc, key]
  split_ifs <;> omega

theorem upperR (c : Char) : c.toUpper = 'R' ↔ c = 'R' ∨ c = 'r' := toUpper_iff (by decide) (by decide) (by decide) c
theorem upperG (c : Char) : c.toUpper = 'G' ↔ c = 'G' ∨ c = 'g' := toUpper_iff (by decide) (by decide) (by decide) c
theorem upperB (c : Char) : c.toUpper = 'B' ↔ c = 'B' ∨ c = 'b' := toUpper_iff (by decide) (by decide) (by decide) c

theorem spelled_iff (p : Pattern) (s : List Char) : p.Spelled s ↔ s.map Char.toUpper = p.name := by
  constructor
  · rintro ⟨a, b, c, d, rfl, ha, hb, hc, hd⟩
    cases p <;>
    · simp only [Pattern.color, Color.letters, Nat.zero_mod, Nat.one_mod] at ha hb hc hd
      simp only [List.map_cons, List.map_nil, Pattern.name, Pattern.color, Color.letters, List.cons.injEq, and_true, Nat.zero_mod, Nat.one_mod, upperR, upperG, upperB]
      exact ⟨ha, hb, hc, hd⟩
  · intro h
    match s, h with
    | [a, b, c, d], h =>
      refine ⟨a, b, c, d, rfl, ?_⟩
      cases p <;>
      · simp only [List.map_cons, List.map_nil, Pattern.name, Pattern.color, Color.letters, List.cons.injEq, and_true, Nat.zero_mod, Nat.one_mod, upperR, upperG, upperB] at h
        exact h
    | [], h => exact absurd (congrArg List.length h) (by simp [Pattern.name])
    | [_], h => exact absurd (congrArg List.length h) (by simp [Pattern.name])
    | [_, _], h => exact absurd (congrArg List.length h) (by simp [Pattern.name])
    | [_, _, _], h => exact absurd (congrArg List.length h) (by simp [Pattern.name])
    | _ :: _ :: _ :: _ :: _ :: _, h => exact absurd (congrArg List.length h) (by simp [Pattern.name])

theorem checkAlignment_eq (s : List Char) : (∃ p : Pattern, p.Spelled s ∧ checkAlignment s = .ok p.name) ∨
    (∀ p : Pattern, ¬ p.Spelled s) ∧ checkAlignment s = .error .assertion := by
  by_cases h : ∃ p : Pattern, p.Spelled s
  · left
    obtain ⟨p, hp⟩ := h
    refine ⟨p, hp, ?_⟩
    have h1 := (spelled_iff p s).1 hp
    have h2 : s.length = 4 := by
      have := congrArg List.length h1
      simpa [Pattern.name] using this
    rw [checkAlignment, if_neg (by simp [h2])]
    simp only [h1]
    cases p <;> rfl
  · right
    have h' : ∀ p : Pattern, ¬ p.Spelled s := fun p hp => h ⟨p, hp⟩
    refine ⟨h', ?_⟩
    rw [checkAlignment]
    split_ifs with h1
    · rfl
    · have h2 : ∀ p : Pattern, s.map Char.toUpper ≠ p.name := fun p e => h' p ((spelled_iff p s).2 e)
      simp only
      rw [if_neg]
      rintro (e | e | e | e)
      · exact h2 .gbrg e
      · exact h2 .grbg e
      · exact h2 .bggr e
      · exact h2 .rggb e

theorem spelled_unique {p q : Pattern} {s : List Char} (hp : p.Spelled s) (hq : q.Spelled s) : p = q := by
  have h := ((spelled_iff p s).1 hp).symm.trans ((spelled_iff q s).1 hq)
  cases p <;> cases q <;> first | rfl | exact absurd h (by decide)

theorem checkAlignment_ok {p : Pattern} {s : List Char} (hp : p.Spelled s) : checkAlignment s = .ok p.name := by
  rcases checkAlignment_eq s with ⟨q, hq, e⟩ | ⟨h, _⟩
  · rw [spelled_unique hp hq]; exact e
  · exact absurd hp (h p)

theorem spelled_name (p : Pattern) : p.Spelled p.name := by
  rw [spelled_iff]
  cases p <;> decide

theorem mod_two (i : Nat) : i % 2 = 0 ∨ i % 2 = 1 := by omega

theorem color_mod (p : Pattern) (i j : Nat) : p.color (i % 2) (j % 2) = p.color i j := by
  simp only [Pattern.color, Nat.mod_mod]

theorem cellColor_eq (p : Pattern) {r c : Nat} (hr : r < 2) (hc : c < 2) : cellColor p.name r c = .ok (p.color r c).channel := by
  have h1 : r = 0 ∨ r = 1 := by omega
  have h2 : c = 0 ∨ c = 1 := by omega
  rcases h1 with rfl | rfl <;> rcases h2 with rfl | rfl <;> cases p <;> decide

theorem channel_lt (c : Color) : c.channel < 3 := by cases c <;> decide

/-- the kind of pixel a relative position stands for -/
def Pos.kind : Pos → Kind
  | .R => .red
  | .B => .blue
  | .GR => .greenInRed
  | .GB => .greenInBlue

/-- and back -/
def posOf : Kind → Pos
  | .red => .R
  | .blue => .B
  | .greenInRed => .GR
  | .greenInBlue => .GB

theorem posOf_kind (p : Pos) : posOf p.kind = p := by cases p <;> rfl
theorem kind_posOf (k : Kind) : (posOf k).kind = k := by cases k <;> rfl

/-- the colour of a kind of pixel -/
def colorOf : Kind → Color
  | .red => .red
  | .blue => .blue
  | _ => .green

theorem colorOf_kind (p : Pattern) (i j : Nat) : colorOf (p.kind i j) = p.color i j := by
  rw [Pattern.kind]
  cases p.color i j with
  | red => rfl
  | blue => rfl
  | green => simp only; split_ifs <;> rfl

theorem kind_mod (p : Pattern) (i j : Nat) : p.kind (i % 2) (j % 2) = p.kind i j := by
  have e : (j % 2 + 1) % 2 = (j + 1) % 2 := by omega
  have e' : p.color (i % 2) (j % 2 + 1) = p.color i (j + 1) := by
    rw [← color_mod p (i % 2), ← color_mod p i, e, Nat.mod_mod]
  rw [Pattern.kind, Pattern.kind, color_mod, e']

theorem begIndex_eq (p : Pattern) : ∃ beg, begIndex p.name = .ok beg ∧ ∀ q : Pos, (beg q).1 < 2 ∧ (beg q).2 < 2 ∧
    ∀ i j, (i % 2 = (beg q).1 ∧ j % 2 = (beg q).2) ↔ p.kind i j = q.kind := by
  have key : ∀ (r b : Nat), indexOf p.name 'R' = .ok r → indexOf p.name 'B' = .ok b →
      begIndex p.name = .ok fun
        | .R => (r / 2, r % 2)
        | .B => (b / 2, b % 2)
        | .GR => (r / 2, 1 - r % 2)
        | .GB => (b / 2, 1 - b % 2) := by
    intro r b h1 h2
    simp only [begIndex, h1, h2, ok_bind]
    rfl
  have fin : ∀ (p : Pattern) (u v : Nat) (q : Pos), (∀ i < 2, ∀ j < 2, (i = u ∧ j = v) ↔ p.kind i j = q.kind) →
      ∀ i j, (i % 2 = u ∧ j % 2 = v) ↔ p.kind i j = q.kind := by
    intro p u v q h i j
    rw [h (i % 2) (Nat.mod_lt _ (by omega)) (j % 2) (Nat.mod_lt _ (by omega)), kind_mod]
  cases p with
  | rggb =>
    refine ⟨_, key 0 3 (by decide) (by decide), ?_⟩
    intro q
    refine ⟨by cases q <;> decide, by cases q <;> decide, fin _ _ _ _ (by cases q <;> decide)⟩
  | grbg =>
    refine ⟨_, key 1 2 (by decide) (by decide), ?_⟩
    intro q
    refine ⟨by cases q <;> decide, by cases q <;> decide, fin _ _ _ _ (by cases q <;> decide)⟩
  | gbrg =>
    refine ⟨_, key 2 1 (by decide) (by decide), ?_⟩
    intro q
    refine ⟨by cases q <;> decide, by cases q <;> decide, fin _ _ _ _ (by cases q <;> decide)⟩
  | bggr =>
    refine ⟨_, key 3 0 (by decide) (by decide), ?_⟩
    intro q
    refine ⟨by cases q <;> decide, by cases q <;> decide, fin _ _ _ _ (by cases q <;> decide)⟩

theorem posColors_eq (q : Pos) : posColors q = .ok ((colorOf q.kind).channel, (colorOf q.kind).others.1.channel, (colorOf q.kind).others.2.channel) := by
  cases q <;> decide

/-! ## loops -/

section
variable {α : Type} [Zero α] {b : List Nat} {c h w : Nat}

theorem forCells_eq {f : Nat → Nat → Tensor α → Except Err (Tensor α)} {g : List Nat → Nat → Nat → Nat → α}
    (hf : ∀ r s, r < 2 → s < 2 → ∀ y : Tensor α, y.shape = b ++ [c, h, w] → ∃ z, f r s y = .ok z ∧ z.shape = b ++ [c, h, w] ∧
      ∀ bi q i j, InB b bi → q < c → i < h → j < w → z.get (bi ++ [q, i, j]) = if i % 2 = r ∧ j % 2 = s then g bi q i j else y.get (bi ++ [q, i, j]))
    {y : Tensor α} (hy : y.shape = b ++ [c, h, w]) :
    ∃ z, forCells f y = .ok z ∧ z.shape = b ++ [c, h, w] ∧
      ∀ bi q i j, InB b bi → q < c → i < h → j < w → z.get (bi ++ [q, i, j]) = g bi q i j := by
  obtain ⟨z1, e1, s1, g1⟩ := hf 0 0 (by omega) (by omega) y hy
  obtain ⟨z2, e2, s2, g2⟩ := hf 0 1 (by omega) (by omega) z1 s1
  obtain ⟨z3, e3, s3, g3⟩ := hf 1 0 (by omega) (by omega) z2 s2
  obtain ⟨z4, e4, s4, g4⟩ := hf 1 1 (by omega) (by omega) z3 s3
  refine ⟨z4, by simp only [forCells, e1, e2, e3, e4, ok_bind], s4, ?_⟩
  intro bi q i j hb hq hi hj
  rw [g4 bi q i j hb hq hi hj, g3 bi q i j hb hq hi hj, g2 bi q i j hb hq hi hj, g1 bi q i j hb hq hi hj]
  rcases mod_two i with h1 | h1 <;> rcases mod_two j with h2 | h2 <;> simp [h1, h2]

theorem forPos_eq {P : Pattern} {f : Pos → Tensor α → Except Err (Tensor α)} {g : Pos → List Nat → Nat → Nat → Nat → α}
    (hf : ∀ p, ∀ y : Tensor α, y.shape = b ++ [c, h, w] → ∃ z, f p y = .ok z ∧ z.shape = b ++ [c, h, w] ∧
      ∀ bi q i j, InB b bi → q < c → i < h → j < w →
        z.get (bi ++ [q, i, j]) = if P.kind i j = p.kind then g p bi q i j else y.get (bi ++ [q, i, j]))
    {y : Tensor α} (hy : y.shape = b ++ [c, h, w]) :
    ∃ z, forPos f y = .ok z ∧ z.shape = b ++ [c, h, w] ∧
      ∀ bi q i j, InB b bi → q < c → i < h → j < w → z.get (bi ++ [q, i, j]) = g (posOf (P.kind i j)) bi q i j := by
  obtain ⟨z1, e1, s1, g1⟩ := hf .R y hy
  obtain ⟨z2, e2, s2, g2⟩ := hf .B z1 s1
  obtain ⟨z3, e3, s3, g3⟩ := hf .GR z2 s2
  obtain ⟨z4, e4, s4, g4⟩ := hf .GB z3 s3
  refine ⟨z4, by simp only [forPos, e1, e2, e3, e4, ok_bind], s4, ?_⟩
  intro bi q i j hb hq hi hj
  rw [g4 bi q i j hb hq hi hj, g3 bi q i j hb hq hi hj, g2 bi q i j hb hq hi hj, g1 bi q i j hb hq hi hj]
  cases P.kind i j <;> simp [Pos.kind, posOf]

theorem listCells_eq {f : Nat → Nat → Except Err (Tensor α)} {v : Nat → Nat → Tensor α}
    (hf : ∀ r s, r < 2 → s < 2 → f r s = .ok (v r s)) : listCells f = .ok [v 0 0, v 0 1, v 1 0, v 1 1] := by
  simp only [listCells, hf 0 0 (by omega) (by omega), hf 0 1 (by omega) (by omega), hf 1 0 (by omega) (by omega), hf 1 1 (by omega) (by omega),
    ok_bind]

/-! ## conversions -/

theorem check1c_ok {x : Tensor α} (hx : x.shape = b ++ [1, h, w]) (hh : h % 2 = 0) (hw : w % 2 = 0) : check1c x = .ok () := by
  rw [check1c, axisEnd_three hx, axisEnd_two hx, axisEnd_one hx, ndim_three hx, if_pos]
  refine ⟨by omega, rfl, by omega, hw⟩

theorem check4c_ok {x : Tensor α} (hx : x.shape = b ++ [4, h, w]) : check4c x = .ok () := by
  rw [check4c, axisEnd_three hx, ndim_three hx, if_pos]
  exact ⟨by omega, rfl⟩

theorem checkRgb_ok {x : Tensor α} (hx : x.shape = b ++ [3, h, w]) : checkRgb x = .ok () := by
  rw [checkRgb, axisEnd_three hx, ndim_three hx, if_pos]
  exact ⟨by omega, rfl⟩

theorem bayer1cTo4c_eq {x : Tensor α} (hx : x.shape = b ++ [1, h, w]) (hh : h % 2 = 0) (hw : w % 2 = 0) :
    ∃ z, bayer1cTo4c x = .ok z ∧ z.shape = b ++ [4, h / 2, w / 2] ∧
      ∀ bi k i j, InB b bi → k < 4 → i < h / 2 → j < w / 2 → z.get (bi ++ [k, i, j]) = x.get (bi ++ [0, 2 * i + k / 2, 2 * j + k % 2]) := by
  have hx' : x.shape = (b ++ [1]) ++ [h, w] := by simp [hx]
  have hex : ∀ r s, ∃ v : Tensor α, r < 2 → s < 2 → x.getLast [every2 r, every2 s] = .ok v ∧ v.shape = b ++ [1, h / 2, w / 2] ∧
      ∀ bi i j, InB b bi → i < h / 2 → j < w / 2 → v.get (bi ++ [0, i, j]) = x.get (bi ++ [0, 2 * i + r, 2 * j + s]) := by
    intro r s
    by_cases hrs : r < 2 ∧ s < 2
    · obtain ⟨v, h1, h2, h3⟩ := getTile hx' hrs.1 hrs.2
      rw [half_even hh hrs.1, half_even hw hrs.2] at h2 h3
      refine ⟨v, fun _ _ => ⟨h1, by simpa using h2, ?_⟩⟩
      intro bi i j hb hi hj
      have := h3 (bi ++ [0]) i j (inB_join hb ⟨Nat.one_pos, trivial⟩) hi hj
      simpa using this
    · exact ⟨x, fun h1 h2 => absurd ⟨h1, h2⟩ hrs⟩
  choose v hv using hex
  have hl := listCells_eq (f := fun r c => x.getLast [every2 r, every2 c]) (v := v) (fun r s hr hs => (hv r s hr hs).1)
  obtain ⟨z, h1, h2, h3⟩ := cat3_eq (x := v 0 0) (rest := [v 0 1, v 1 0, v 1 1]) (b := b) (h := h / 2) (w := w / 2) (by
    intro y hy
    simp only [List.mem_cons, List.not_mem_nil, or_false] at hy
    rcases hy with rfl | rfl | rfl | rfl
    · exact (hv 0 0 (by omega) (by omega)).2.1
    · exact (hv 0 1 (by omega) (by omega)).2.1
    · exact (hv 1 0 (by omega) (by omega)).2.1
    · exact (hv 1 1 (by omega) (by omega)).2.1)
  refine ⟨z, by simp only [bayer1cTo4c, check1c_ok hx hh hw, hl, ok_bind, h1], h2, ?_⟩
  intro bi k i j hb hk hi hj
  rw [h3 bi k i j hb (by simpa using hk) hi hj]
  have hk' : k = 0 ∨ k = 1 ∨ k = 2 ∨ k = 3 := by omega
  rcases hk' with rfl | rfl | rfl | rfl
  · simpa using (hv 0 0 (by omega) (by omega)).2.2 bi i j hb hi hj
  · simpa using (hv 0 1 (by omega) (by omega)).2.2 bi i j hb hi hj
  · simpa using (hv 1 0 (by omega) (by omega)).2.2 bi i j hb hi hj
  · simpa using (hv 1 1 (by omega) (by omega)).2.2 bi i j hb hi hj

theorem bayer4cTo1c_eq (junk : List Nat → α) {x : Tensor α} (hx : x.shape = b ++ [4, h, w]) :
    ∃ z, bayer4cTo1c junk x = .ok z ∧ z.shape = b ++ [1, 2 * h, 2 * w] ∧
      ∀ bi i j, InB b bi → i < 2 * h → j < 2 * w → z.get (bi ++ [0, i, j]) = x.get (bi ++ [2 * (i % 2) + j % 2, i / 2, j / 2]) := by
  obtain ⟨z, h1, h2, h3⟩ := forCells_eq (b := b) (c := 1) (h := 2 * h) (w := 2 * w)
    (f := fun r c y => do
      let v ← x.getPlane (2 * r + c) .full .full
      y.setPlane 0 (every2 r) (every2 c) v)
    (g := fun bi _ i j => x.get (bi ++ [2 * (i % 2) + j % 2, i / 2, j / 2])) (by
      intro r s hr hs y hy
      obtain ⟨v, e1, e2, e3⟩ := getPlaneFull hx (k := 2 * r + s) (by omega)
      obtain ⟨z, q1, q2, q3⟩ := setPlaneTile hy (k := 0) Nat.one_pos hr hs (v := v) (by
        rw [half_even (by omega) hr, half_even (by omega) hs, e2]
        congr 2 <;> first | omega | (congr 1; omega))
      refine ⟨z, by simp only [e1, ok_bind, q1], q2.trans hy, ?_⟩
      intro bi q i j hb hq hi hj
      rw [q3 bi q i j hb hq hi hj]
      have hq0 : q = 0 := by omega
      by_cases hc : i % 2 = r ∧ j % 2 = s
      · rw [if_pos ⟨hq0, hc⟩, if_pos hc, e3 bi _ _ hb (by omega) (by omega), hc.1, hc.2]
      · rw [if_neg (fun hcc => hc hcc.2), if_neg hc]) (y := Tensor.empty junk (b ++ [1, 2 * h, 2 * w])) rfl
  refine ⟨z, ?_, h2, fun bi i j hb hi hj => h3 bi 0 i j hb Nat.one_pos hi hj⟩
  simp only [bayer4cTo1c, check4c_ok hx, ok_bind, initShape3 hx, axisEnd_two hx, axisEnd_one hx]
  exact h1

theorem rgbTo1c_eq (junk : List Nat → α) {x : Tensor α} (hx : x.shape = b ++ [3, h, w]) (hh : h % 2 = 0) (hw : w % 2 = 0) {p : Pattern} {s : List Char}
    (hp : p.Spelled s) :
    ∃ z, rgbTo1c junk x s = .ok z ∧ z.shape = b ++ [1, h, w] ∧
      ∀ bi i j, InB b bi → i < h → j < w → z.get (bi ++ [0, i, j]) = x.get (bi ++ [(p.color i j).channel, i, j]) := by
  obtain ⟨z, h1, h2, h3⟩ := forCells_eq (b := b) (c := 1) (h := h) (w := w)
    (f := fun r c y => do
      let k ← cellColor p.name r c
      let v ← x.getPlane k (every2 r) (every2 c)
      y.setPlane 0 (every2 r) (every2 c) v)
    (g := fun bi _ i j => x.get (bi ++ [(p.color i j).channel, i, j])) (by
      intro r s hr hs y hy
      obtain ⟨v, e1, e2, e3⟩ := getPlaneTile hx (k := (p.color r s).channel) (channel_lt _) hr hs
      obtain ⟨z, q1, q2, q3⟩ := setPlaneTile hy (k := 0) Nat.one_pos hr hs (v := v) e2
      refine ⟨z, by simp only [cellColor_eq p hr hs, e1, ok_bind, q1], q2.trans hy, ?_⟩
      intro bi q i j hb hq hi hj
      rw [q3 bi q i j hb hq hi hj]
      have hq0 : q = 0 := by omega
      by_cases hc : i % 2 = r ∧ j % 2 = s
      · rw [if_pos ⟨hq0, hc⟩, if_pos hc, e3 bi _ _ hb (div2_lt_half hi hc.1) (div2_lt_half hj hc.2), ← hc.1, ← hc.2, color_mod]
        have h1 : 2 * (i / 2) + i % 2 = i := by omega
        have h2 : 2 * (j / 2) + j % 2 = j := by omega
        rw [h1, h2]
      · rw [if_neg (fun hcc => hc hcc.2), if_neg hc]) (y := Tensor.empty junk (b ++ [1, h, w])) rfl
  refine ⟨z, ?_, h2, fun bi i j hb hi hj => h3 bi 0 i j hb Nat.one_pos hi hj⟩
  have hev : h % 2 = w % 2 ∧ w % 2 = 0 := by omega
  simp only [rgbTo1c, checkRgb_ok hx, checkAlignment_ok hp, ok_bind, initShape3 hx, axisEnd_two hx, axisEnd_one hx, if_pos hev]
  exact h1

theorem rgbTo4c_eq {x : Tensor α} (hx : x.shape = b ++ [3, h, w]) (hh : h % 2 = 0) (hw : w % 2 = 0) {p : Pattern} {s : List Char} (hp : p.Spelled s) :
    ∃ z, rgbTo4c x s = .ok z ∧ z.shape = b ++ [4, h / 2, w / 2] ∧
      ∀ bi k i j, InB b bi → k < 4 → i < h / 2 → j < w / 2 →
        z.get (bi ++ [k, i, j]) = x.get (bi ++ [(p.color (k / 2) (k % 2)).channel, 2 * i + k / 2, 2 * j + k % 2]) := by
  have hex : ∀ r s, ∃ v : Tensor α, r < 2 → s < 2 → x.getPlane (p.color r s).channel (every2 r) (every2 s) = .ok v ∧ v.shape = b ++ [h / 2, w / 2] ∧
      ∀ bi i j, InB b bi → i < h / 2 → j < w / 2 → v.get (bi ++ [i, j]) = x.get (bi ++ [(p.color r s).channel, 2 * i + r, 2 * j + s]) := by
    intro r s
    by_cases hrs : r < 2 ∧ s < 2
    · obtain ⟨v, h1, h2, h3⟩ := getPlaneTile hx (k := (p.color r s).channel) (channel_lt _) hrs.1 hrs.2
      rw [half_even hh hrs.1, half_even hw hrs.2] at h2 h3
      exact ⟨v, fun _ _ => ⟨h1, h2, h3⟩⟩
    · exact ⟨x, fun h1 h2 => absurd ⟨h1, h2⟩ hrs⟩
  choose v hv using hex
  have hl := listCells_eq (f := fun r c => do
      let k ← cellColor p.name r c
      x.getPlane k (every2 r) (every2 c)) (v := v) (fun r s hr hs => by simp only [cellColor_eq p hr hs, ok_bind, (hv r s hr hs).1])
  obtain ⟨z, h1, h2, h3⟩ := stack3_eq (x := v 0 0) (rest := [v 0 1, v 1 0, v 1 1]) (b := b) (h := h / 2) (w := w / 2) (by
    intro y hy
    simp only [List.mem_cons, List.not_mem_nil, or_false] at hy
    rcases hy with rfl | rfl | rfl | rfl
    · exact (hv 0 0 (by omega) (by omega)).2.1
    · exact (hv 0 1 (by omega) (by omega)).2.1
    · exact (hv 1 0 (by omega) (by omega)).2.1
    · exact (hv 1 1 (by omega) (by omega)).2.1)
  have hev : h % 2 = w % 2 ∧ w % 2 = 0 := by omega
  refine ⟨z, by simp only [rgbTo4c, checkRgb_ok hx, checkAlignment_ok hp, ok_bind, axisEnd_two hx, axisEnd_one hx, if_pos hev]; rw [hl, ok_bind, h1], h2, ?_⟩
  intro bi k i j hb hk hi hj
  rw [h3 bi k i j hb (by simpa using hk) hi hj]
  have hk' : k = 0 ∨ k = 1 ∨ k = 2 ∨ k = 3 := by omega
  rcases hk' with rfl | rfl | rfl | rfl
  · simpa using (hv 0 0 (by omega) (by omega)).2.2 bi i j hb hi hj
  · simpa using (hv 0 1 (by omega) (by omega)).2.2 bi i j hb hi hj
  · simpa using (hv 1 0 (by omega) (by omega)).2.2 bi i j hb hi hj
  · simpa using (hv 1 1 (by omega) (by omega)).2.2 bi i j hb hi hj

/-- what `last_step_demosaic` puts in channel `q` of a pixel of colour `c` -/
def lastValue (x y : Tensor α) (c : Color) (bi : List Nat) (q i j : Nat) : α :=
  if q = c.channel then x.get (bi ++ [0, i, j]) else if q = c.others.1.channel then y.get (bi ++ [0, i, j]) else y.get (bi ++ [1, i, j])

theorem lastStep_eq (junk : List Nat → α) {x y : Tensor α} (hx : x.shape = b ++ [1, h, w]) (hy : y.shape = b ++ [2, h, w]) {p : Pattern} {s : List Char}
    (hp : p.Spelled s) :
    ∃ z, lastStep junk x y s = .ok z ∧ z.shape = b ++ [3, h, w] ∧
      ∀ bi q i j, InB b bi → q < 3 → i < h → j < w → z.get (bi ++ [q, i, j]) = lastValue x y (p.color i j) bi q i j := by
  obtain ⟨beg, hbeg, hcell⟩ := begIndex_eq p
  obtain ⟨z, h1, h2, h3⟩ := forPos_eq (P := p) (b := b) (c := 3) (h := h) (w := w)
    (f := fun p ret => do
      let (k, a, b) ← posColors p
      let (r, c) := beg p
      let v ← x.getLast [.full, every2 r, every2 c]
      let ret ← ret.setChan k (every2 r) (every2 c) v
      let v ← y.getChan 0 (every2 r) (every2 c)
      let ret ← ret.setChan a (every2 r) (every2 c) v
      let v ← y.getChan 1 (every2 r) (every2 c)
      ret.setChan b (every2 r) (every2 c) v)
    (g := fun P bi q i j => lastValue x y (colorOf P.kind) bi q i j) (by
      intro P ret hret
      obtain ⟨hr, hs, hkind⟩ := hcell P
      generalize beg P = rc at hr hs hkind
      obtain ⟨r, c⟩ := rc
      simp only at hr hs hkind
      obtain ⟨v0, e0, s0, g0⟩ := getTileAll hx hr hs
      obtain ⟨ret1, f1, t1, k1⟩ := setChanTile hret (channel_lt (colorOf P.kind)) hr hs s0
      obtain ⟨v1, e1, s1, g1⟩ := getChanTile hy (k := 0) (by omega) hr hs
      obtain ⟨ret2, f2, t2, k2⟩ := setChanTile (t1.trans hret) (channel_lt (colorOf P.kind).others.1) hr hs s1
      obtain ⟨v2, e2, s2, g2⟩ := getChanTile hy (k := 1) (by omega) hr hs
      obtain ⟨ret3, f3, t3, k3⟩ := setChanTile ((t2.trans t1).trans hret) (channel_lt (colorOf P.kind).others.2) hr hs s2
      refine ⟨ret3, by simp only [posColors_eq, ok_bind, e0, f1, e1, f2, e2, f3], ((t3.trans t2).trans t1).trans hret, ?_⟩
      intro bi q i j hb hq hi hj
      rw [k3 bi q i j hb hq hi hj, k2 bi q i j hb hq hi hj, k1 bi q i j hb hq hi hj]
      by_cases hc : i % 2 = r ∧ j % 2 = c
      · have hi' : 2 * (i / 2) + r = i := by omega
        have hj' : 2 * (j / 2) + c = j := by omega
        have a0 := g0 bi 0 (i / 2) (j / 2) hb Nat.one_pos (div2_lt_half hi hc.1) (div2_lt_half hj hc.2)
        have a1 := g1 bi (i / 2) (j / 2) hb (div2_lt_half hi hc.1) (div2_lt_half hj hc.2)
        have a2 := g2 bi (i / 2) (j / 2) hb (div2_lt_half hi hc.1) (div2_lt_half hj hc.2)
        rw [hi', hj'] at a0 a1 a2
        rw [if_pos ((hkind i j).1 hc), a0, a1, a2, lastValue]
        have hq3 : q = 0 ∨ q = 1 ∨ q = 2 := by omega
        cases P <;> rcases hq3 with rfl | rfl | rfl <;> simp [hc, Pos.kind, colorOf, Color.channel, Color.others]
      · rw [if_neg (fun e => hc ((hkind i j).2 e)), if_neg (fun e => hc e.2), if_neg (fun e => hc e.2), if_neg (fun e => hc e.2)])
    (y := Tensor.empty junk (b ++ [3, h, w])) rfl
  refine ⟨z, ?_, h2, ?_⟩
  · have hcond : x.initShape 3 = y.initShape 3 ∧ x.shape.drop (x.shape.length - 2) = y.shape.drop (y.shape.length - 2) := by
      rw [initShape3 hx, initShape3 hy, lastTwo3 hx, lastTwo3 hy]; exact ⟨rfl, rfl⟩
    simp only [lastStep, checkAlignment_ok hp, ok_bind, hbeg]
    rw [if_pos hcond, initShape3 hx, lastTwo3 hx]
    exact h1
  · intro bi q i j hb hq hi hj
    rw [h3 bi q i j hb hq hi hj, kind_posOf, colorOf_kind]

end

section
variable {α : Type} [Field α] [LinearOrder α] {b : List Nat} {h w : Nat}

/-- the cell of the tile, as a channel of the 4-channel form, where the colour stands; for green the first one -/
def firstCell (p : Pattern) (c : Color) : Nat :=
  if p.color 0 0 = c then 0 else if p.color 0 1 = c then 1 else if p.color 1 0 = c then 2 else 3

/-- the last cell of the tile where green stands -/
def lastGreen (p : Pattern) : Nat :=
  if p.color 1 1 = .green then 3 else 2

theorem firstCell_lt (p : Pattern) (c : Color) : firstCell p c < 4 := by cases p <;> cases c <;> decide
theorem lastGreen_lt (p : Pattern) : lastGreen p < 4 := by cases p <;> decide

theorem indexOf_eq (p : Pattern) (c : Color) : indexOf p.name c.letters.1 = .ok (firstCell p c) := by cases p <;> cases c <;> decide
theorem rindexOf_eq (p : Pattern) : rindexOf p.name 'G' = .ok (lastGreen p) := by cases p <;> decide

theorem downsample4c_eq {x : Tensor α} (hx : x.shape = b ++ [4, h, w]) {p : Pattern} {s : List Char} (hp : p.Spelled s) :
    ∃ z, downsample4c x s = .ok z ∧ z.shape = b ++ [3, h, w] ∧ ∀ bi i j, InB b bi → i < h → j < w →
      z.get (bi ++ [0, i, j]) = x.get (bi ++ [firstCell p .red, i, j]) ∧
      z.get (bi ++ [1, i, j]) = (x.get (bi ++ [firstCell p .green, i, j]) + x.get (bi ++ [lastGreen p, i, j])) / 2 ∧
      z.get (bi ++ [2, i, j]) = x.get (bi ++ [firstCell p .blue, i, j]) := by
  obtain ⟨r, e1, s1, g1⟩ := getPlaneFull hx (firstCell_lt p .red)
  obtain ⟨g, e2, s2, g2⟩ := getPlaneFull hx (firstCell_lt p .green)
  obtain ⟨g', e3, s3, g3⟩ := getPlaneFull hx (lastGreen_lt p)
  obtain ⟨bl, e4, s4, g4⟩ := getPlaneFull hx (firstCell_lt p .blue)
  have hb := bop_same (f := fun a b : α => a + b) (s2.trans s3.symm)
  have i1 : indexOf p.name 'R' = .ok (firstCell p .red) := indexOf_eq p .red
  have i2 : indexOf p.name 'G' = .ok (firstCell p .green) := indexOf_eq p .green
  have i3 : indexOf p.name 'B' = .ok (firstCell p .blue) := indexOf_eq p .blue
  set m : Tensor α := (Tensor.ofFn g.shape fun ix => g.get ix + g'.get ix).map fun v => v / 2 with hm
  have sm : m.shape = b ++ [h, w] := by rw [hm]; exact s2
  obtain ⟨z, h1, h2, h3⟩ := stack3_eq (x := r) (rest := [m, bl]) (b := b) (h := h) (w := w) (by
    intro y hy
    simp only [List.mem_cons, List.not_mem_nil, or_false] at hy
    rcases hy with rfl | rfl | rfl
    · exact s1
    · exact sm
    · exact s4)
  refine ⟨z, ?_, h2, ?_⟩
  · simp only [downsample4c, checkAlignment_ok hp, check4c_ok hx, ok_bind, i1, i2, i3, rindexOf_eq, e1, e2, e3, e4]
    rw [hb]
    exact h1
  · intro bi i j hb hi hj
    rw [h3 bi 0 i j hb (by simp) hi hj, h3 bi 1 i j hb (by simp) hi hj, h3 bi 2 i j hb (by simp) hi hj]
    refine ⟨?_, ?_, ?_⟩
    · simpa using g1 bi i j hb hi hj
    · have hin : InB (b ++ [h, w]) (bi ++ [i, j]) := inB2 hb hi hj
      simp only [List.map_cons, List.map_nil, List.getD_cons_succ, List.getD_cons_zero]
      rw [hm, get_map _ _ (by simpa [s2] using hin), get_ofFn (by rw [s2]; exact hin), g2 bi i j hb hi hj, g3 bi i j hb hi hj]
    · simpa using g4 bi i j hb hi hj

end

end TI
