import Verif.Proofs.CfaMalvar

/-!
# C46–C54, C77, C78: colour filter arrays
-/

set_option linter.unusedSectionVars false

namespace TI
open Tensor Spec

section
variable {α : Type} [Zero α] {b : List Nat} {h w : Nat}

/-! ## C46 -/

/-- **C46**: channel `k` of the 4-channel form holds the samples of cell `(k / 2, k % 2)` of the 2 x 2 tiles. -/
theorem C46_to_4c {x : Tensor α} (hx : x.shape = b ++ [1, h, w]) (hh : h % 2 = 0) (hw : w % 2 = 0) :
    ∃ z, bayer1cTo4c x = .ok z ∧ z.shape = b ++ [4, h / 2, w / 2] ∧
      ∀ bi k i j, InB b bi → k < 4 → i < h / 2 → j < w / 2 → z.get (bi ++ [k, i, j]) = x.get (bi ++ [0, 2 * i + k / 2, 2 * j + k % 2]) :=
  bayer1cTo4c_eq hx hh hw

/-- **C46**: and back; `junk` is the content of the uninitialised memory. -/
theorem C46_to_1c (junk : List Nat → α) {z : Tensor α} (hz : z.shape = b ++ [4, h, w]) :
    ∃ x, bayer4cTo1c junk z = .ok x ∧ x.shape = b ++ [1, 2 * h, 2 * w] ∧
      ∀ bi i j, InB b bi → i < 2 * h → j < 2 * w → x.get (bi ++ [0, i, j]) = z.get (bi ++ [2 * (i % 2) + j % 2, i / 2, j / 2]) :=
  bayer4cTo1c_eq junk hz

/-- **C46**: 1 channel to 4 channels and back. -/
theorem C46_round_trip_1c (junk : List Nat → α) {x : Tensor α} (hx : x.shape = b ++ [1, h, w]) (hh : h % 2 = 0) (hw : w % 2 = 0) :
    ∃ z, bayer1cTo4c x = .ok z ∧ bayer4cTo1c junk z = .ok x := by
  obtain ⟨z, e1, s1, g1⟩ := bayer1cTo4c_eq hx hh hw
  obtain ⟨y, e2, s2, g2⟩ := bayer4cTo1c_eq junk s1
  rw [show 2 * (h / 2) = h by omega, show 2 * (w / 2) = w by omega] at s2 g2
  refine ⟨z, e1, ?_⟩
  rw [e2]
  congr 1
  refine ext3 s2 hx ?_
  intro bi k i j hb hk hi hj
  have hk0 : k = 0 := by omega
  subst hk0
  rw [g2 bi i j hb hi hj, g1 bi _ _ _ hb (by omega) (by omega) (by omega)]
  congr 4
  · omega
  · congr 1; omega

/-- **C46**: 4 channels to 1 channel and back. -/
theorem C46_round_trip_4c (junk : List Nat → α) {z : Tensor α} (hz : z.shape = b ++ [4, h, w]) :
    ∃ x, bayer4cTo1c junk z = .ok x ∧ bayer1cTo4c x = .ok z := by
  obtain ⟨x, e1, s1, g1⟩ := bayer4cTo1c_eq junk hz
  obtain ⟨y, e2, s2, g2⟩ := bayer1cTo4c_eq s1 (by omega) (by omega)
  rw [show 2 * h / 2 = h by omega, show 2 * w / 2 = w by omega] at s2 g2
  refine ⟨x, e1, ?_⟩
  rw [e2]
  congr 1
  refine ext3 s2 hz ?_
  intro bi k i j hb hk hi hj
  rw [g2 bi k i j hb hk hi hj, g1 bi _ _ hb (by omega) (by omega)]
  congr 3
  · omega
  · congr 1
    · omega
    · congr 1; omega

/-- **C46**: only one channel with even sides, and only four channels, are accepted. -/
theorem C46_rejects (junk : List Nat → α) (x : Tensor α) :
    ((¬ ∃ b h w, x.shape = b ++ [1, h, w] ∧ h % 2 = 0 ∧ w % 2 = 0) → bayer1cTo4c x = .error .assertion) ∧
      ((¬ ∃ b h w, x.shape = b ++ [4, h, w]) → bayer4cTo1c junk x = .error .assertion) := by
  constructor
  · intro hn
    have hc : check1c x = .error .assertion := by
      rw [check1c, if_neg]
      rintro ⟨h1, h2, h3, h4⟩
      have := split_shape h1
      rw [h2] at this
      exact hn ⟨_, _, _, this, by omega, h4⟩
    rw [bayer1cTo4c, hc]
    rfl
  · intro hn
    have hc : check4c x = .error .assertion := by
      rw [check4c, if_neg]
      rintro ⟨h1, h2⟩
      have := split_shape h1
      rw [h2] at this
      exact hn ⟨_, _, _, this⟩
    rw [bayer4cTo1c, hc]
    rfl

/-! ## C47, C48 -/

/-- **C48**: mosaicing keeps, at each pixel, the channel of the colour of the pattern there. -/
theorem C48_mosaic (junk : List Nat → α) {x : Tensor α} (hx : x.shape = b ++ [3, h, w]) (hh : h % 2 = 0) (hw : w % 2 = 0) {p : Pattern} {s : List Char}
    (hp : p.Spelled s) :
    ∃ z, rgbTo1c junk x s = .ok z ∧ z.shape = b ++ [1, h, w] ∧
      ∀ bi i j, InB b bi → i < h → j < w → z.get (bi ++ [0, i, j]) = x.get (bi ++ [(p.color i j).channel, i, j]) :=
  rgbTo1c_eq junk hx hh hw hp

/-- **C48**: images without three channels, patterns that are not a Bayer pattern, and odd sides are rejected. -/
theorem C48_rejects (junk : List Nat → α) (x : Tensor α) (s : List Char)
    (hn : ¬ ((∃ b h w, x.shape = b ++ [3, h, w] ∧ h % 2 = 0 ∧ w % 2 = 0) ∧ ∃ p : Pattern, p.Spelled s)) :
    rgbTo1c junk x s = .error .assertion ∧ rgbTo4c x s = .error .assertion := by
  by_cases hc : 3 ≤ x.ndim ∧ x.axisEnd 3 = 3
  · have e1 : checkRgb x = .ok () := if_pos hc
    have hsh := split_shape hc.1
    rw [hc.2] at hsh
    rcases checkAlignment_eq s with ⟨p, hp, e2⟩ | ⟨_, e2⟩
    · have h3 : ¬ (x.axisEnd 2 % 2 = x.axisEnd 1 % 2 ∧ x.axisEnd 1 % 2 = 0) := by
        rintro ⟨h1, h2⟩
        exact hn ⟨⟨_, _, _, hsh, by omega, h2⟩, p, hp⟩
      simp only [rgbTo1c, rgbTo4c, e1, e2, ok_bind, if_neg h3, and_self]
    · simp only [rgbTo1c, rgbTo4c, e1, e2, ok_bind]
      exact ⟨rfl, rfl⟩
  · have e1 : checkRgb x = .error .assertion := if_neg hc
    simp only [rgbTo1c, rgbTo4c, e1]
    exact ⟨rfl, rfl⟩

/-- **C47**: RGB to 4 channels is RGB to 1 channel to 4 channels. -/
theorem C47_four_channels (junk : List Nat → α) {x : Tensor α} (hx : x.shape = b ++ [3, h, w]) (hh : h % 2 = 0) (hw : w % 2 = 0) {p : Pattern}
    {s : List Char} (hp : p.Spelled s) :
    ∃ z y, rgbTo1c junk x s = .ok z ∧ bayer1cTo4c z = .ok y ∧ rgbTo4c x s = .ok y := by
  obtain ⟨z, e1, s1, g1⟩ := rgbTo1c_eq junk hx hh hw hp
  obtain ⟨y, e2, s2, g2⟩ := bayer1cTo4c_eq s1 hh hw
  obtain ⟨y', e3, s3, g3⟩ := rgbTo4c_eq hx hh hw hp
  refine ⟨z, y, e1, e2, ?_⟩
  rw [e3]
  congr 1
  refine ext3 s3 s2 ?_
  intro bi k i j hb hk hi hj
  rw [g3 bi k i j hb hk hi hj, g2 bi k i j hb hk hi hj, g1 bi _ _ hb (by omega) (by omega)]
  have : p.color (k / 2) (k % 2) = p.color (2 * i + k / 2) (2 * j + k % 2) := by
    rw [← color_mod p (2 * i + k / 2), ← color_mod p (k / 2)]
    congr 1 <;> omega
  rw [this]

/-- **C47**: the entries of the 4-channel form of an RGB image. -/
theorem C47_entries {x : Tensor α} (hx : x.shape = b ++ [3, h, w]) (hh : h % 2 = 0) (hw : w % 2 = 0) {p : Pattern} {s : List Char} (hp : p.Spelled s) :
    ∃ z, rgbTo4c x s = .ok z ∧ z.shape = b ++ [4, h / 2, w / 2] ∧
      ∀ bi k i j, InB b bi → k < 4 → i < h / 2 → j < w / 2 →
        z.get (bi ++ [k, i, j]) = x.get (bi ++ [(p.color (k / 2) (k % 2)).channel, 2 * i + k / 2, 2 * j + k % 2]) :=
  rgbTo4c_eq hx hh hw hp

/-! ## C49 -/

/-- **C49**: the measured sample is put in the channel of its colour and the two planes in the other two, in the order red, green, blue.  The sides
need not be even. -/
theorem C49_assembly (junk : List Nat → α) {x y : Tensor α} (hx : x.shape = b ++ [1, h, w]) (hy : y.shape = b ++ [2, h, w]) {p : Pattern} {s : List Char}
    (hp : p.Spelled s) :
    ∃ z, lastStep junk x y s = .ok z ∧ z.shape = b ++ [3, h, w] ∧ ∀ bi i j, InB b bi → i < h → j < w →
      z.get (bi ++ [(p.color i j).channel, i, j]) = x.get (bi ++ [0, i, j]) ∧
      z.get (bi ++ [(p.color i j).others.1.channel, i, j]) = y.get (bi ++ [0, i, j]) ∧
      z.get (bi ++ [(p.color i j).others.2.channel, i, j]) = y.get (bi ++ [1, i, j]) := by
  obtain ⟨z, e, s1, g⟩ := lastStep_eq junk hx hy hp
  refine ⟨z, e, s1, ?_⟩
  intro bi i j hb hi hj
  rw [g bi _ i j hb (channel_lt _) hi hj, g bi _ i j hb (channel_lt _) hi hj, g bi _ i j hb (channel_lt _) hi hj]
  simp only [lastValue]
  cases p.color i j <;> simp [Color.channel, Color.others]

/-- **C49**: mosaicing the result gives the measured samples back. -/
theorem C49_remosaic (junk junk' : List Nat → α) {x y : Tensor α} (hx : x.shape = b ++ [1, h, w]) (hy : y.shape = b ++ [2, h, w])
    (hh : h % 2 = 0) (hw : w % 2 = 0) {p : Pattern} {s : List Char} (hp : p.Spelled s) :
    ∃ z, lastStep junk x y s = .ok z ∧ rgbTo1c junk' z s = .ok x := by
  obtain ⟨z, e, s1, g⟩ := C49_assembly junk hx hy hp
  obtain ⟨x', e2, s2, g2⟩ := rgbTo1c_eq junk' s1 hh hw hp
  refine ⟨z, e, ?_⟩
  rw [e2]
  congr 1
  refine ext3 s2 hx ?_
  intro bi k i j hb hk hi hj
  have hk0 : k = 0 := by omega
  subst hk0
  rw [g2 bi i j hb hi hj, (g bi i j hb hi hj).1]

end

section
variable {α : Type} [Field α] [LinearOrder α] [IsStrictOrderedRing α] {b : List Nat} {h w : Nat}

/-! ## C50 -/

/-- **C50**, 4-channel form: red and blue are taken from their cells, green is the mean of its two cells. -/
theorem C50_four_channels {x : Tensor α} (hx : x.shape = b ++ [4, h, w]) {p : Pattern} {s : List Char} (hp : p.Spelled s) :
    ∃ z, downsample4c x s = .ok z ∧ z.shape = b ++ [3, h, w] ∧ ∀ bi i j, InB b bi → i < h → j < w →
      (∀ r c, r < 2 → c < 2 → p.color r c = .red → z.get (bi ++ [0, i, j]) = x.get (bi ++ [2 * r + c, i, j])) ∧
      (∀ r c r' c', r < 2 → c < 2 → r' < 2 → c' < 2 → p.color r c = .green → p.color r' c' = .green → (r, c) ≠ (r', c') →
        z.get (bi ++ [1, i, j]) = (x.get (bi ++ [2 * r + c, i, j]) + x.get (bi ++ [2 * r' + c', i, j])) / 2) ∧
      (∀ r c, r < 2 → c < 2 → p.color r c = .blue → z.get (bi ++ [2, i, j]) = x.get (bi ++ [2 * r + c, i, j])) := by
  obtain ⟨z, e, s1, g⟩ := downsample4c_eq hx hp
  refine ⟨z, e, s1, ?_⟩
  intro bi i j hb hi hj
  obtain ⟨g0, g1, g2⟩ := g bi i j hb hi hj
  have f1 : ∀ r < 2, ∀ c < 2, p.color r c = .red → firstCell p .red = 2 * r + c := by cases p <;> decide
  have f2 : ∀ r < 2, ∀ c < 2, p.color r c = .blue → firstCell p .blue = 2 * r + c := by cases p <;> decide
  have f3 : ∀ r < 2, ∀ c < 2, ∀ r' < 2, ∀ c' < 2, p.color r c = .green → p.color r' c' = .green → (r, c) ≠ (r', c') →
      (firstCell p .green = 2 * r + c ∧ lastGreen p = 2 * r' + c') ∨ (firstCell p .green = 2 * r' + c' ∧ lastGreen p = 2 * r + c) := by
    have key : ∀ r c r' c' : Fin 2, p.color r c = .green → p.color r' c' = .green → (r.1, c.1) ≠ (r'.1, c'.1) →
        (firstCell p .green = 2 * r.1 + c.1 ∧ lastGreen p = 2 * r'.1 + c'.1) ∨ (firstCell p .green = 2 * r'.1 + c'.1 ∧ lastGreen p = 2 * r.1 + c.1) := by
      cases p <;> decide
    intro r hr c hc r' hr' c' hc'
    exact key ⟨r, hr⟩ ⟨c, hc⟩ ⟨r', hr'⟩ ⟨c', hc'⟩
  refine ⟨?_, ?_, ?_⟩
  · intro r c hr hc hcol
    rw [g0, f1 r hr c hc hcol]
  · intro r c r' c' hr hc hr' hc' hcol hcol' hne
    rw [g1]
    rcases f3 r hr c hc r' hr' c' hc' hcol hcol' hne with ⟨q1, q2⟩ | ⟨q1, q2⟩
    · rw [q1, q2]
    · rw [q1, q2, add_comm]
  · intro r c hr hc hcol
    rw [g2, f2 r hr c hc hcol]

/-- **C50**: images without four channels, and patterns that are not a Bayer pattern, are rejected. -/
theorem C50_rejects (x : Tensor α) (s : List Char) (hn : ¬ ((∃ b h w, x.shape = b ++ [4, h, w]) ∧ ∃ p : Pattern, p.Spelled s)) :
    downsample4c x s = .error .assertion := by
  rcases checkAlignment_eq s with ⟨p, hp, e⟩ | ⟨_, e⟩
  · have hc : check4c x = .error .assertion := by
      rw [check4c, if_neg]
      rintro ⟨h1, h2⟩
      have := split_shape h1
      rw [h2] at this
      exact hn ⟨⟨_, _, _, this⟩, p, hp⟩
    rw [downsample4c, e, ok_bind, hc]
    rfl
  · rw [downsample4c, e]
    rfl

/-- **C50**, 1-channel form: it is the 4-channel form of the converted image, so the samples come from the 2 x 2 block. -/
theorem C50_one_channel {x : Tensor α} (hx : x.shape = b ++ [1, h, w]) (hh : h % 2 = 0) (hw : w % 2 = 0) {p : Pattern} {s : List Char} (hp : p.Spelled s) :
    ∃ y z, bayer1cTo4c x = .ok y ∧ downsample4c y s = .ok z ∧ downsample1c x s = .ok z ∧ z.shape = b ++ [3, h / 2, w / 2] ∧
      ∀ bi i j, InB b bi → i < h / 2 → j < w / 2 →
      (∀ r c, r < 2 → c < 2 → p.color r c = .red → z.get (bi ++ [0, i, j]) = x.get (bi ++ [0, 2 * i + r, 2 * j + c])) ∧
      (∀ r c r' c', r < 2 → c < 2 → r' < 2 → c' < 2 → p.color r c = .green → p.color r' c' = .green → (r, c) ≠ (r', c') →
        z.get (bi ++ [1, i, j]) = (x.get (bi ++ [0, 2 * i + r, 2 * j + c]) + x.get (bi ++ [0, 2 * i + r', 2 * j + c'])) / 2) ∧
      (∀ r c, r < 2 → c < 2 → p.color r c = .blue → z.get (bi ++ [2, i, j]) = x.get (bi ++ [0, 2 * i + r, 2 * j + c])) := by
  obtain ⟨y, e1, s1, g1⟩ := bayer1cTo4c_eq hx hh hw
  obtain ⟨z, e2, s2, g2⟩ := C50_four_channels s1 hp
  refine ⟨y, z, e1, e2, by rw [downsample1c, e1, ok_bind, e2], s2, ?_⟩
  intro bi i j hb hi hj
  obtain ⟨q0, q1, q2⟩ := g2 bi i j hb hi hj
  have val : ∀ r c, r < 2 → c < 2 → y.get (bi ++ [2 * r + c, i, j]) = x.get (bi ++ [0, 2 * i + r, 2 * j + c]) := by
    intro r c hr hc
    rw [g1 bi _ i j hb (by omega) hi hj, show (2 * r + c) / 2 = r by omega, show (2 * r + c) % 2 = c by omega]
  refine ⟨?_, ?_, ?_⟩
  · intro r c hr hc hcol
    rw [q0 r c hr hc hcol, val r c hr hc]
  · intro r c r' c' hr hc hr' hc' h1 h2 h3
    rw [q1 r c r' c' hr hc hr' hc' h1 h2 h3, val r c hr hc, val r' c' hr' hc']
  · intro r c hr hc hcol
    rw [q2 r c hr hc hcol, val r c hr hc]

/-- **C50**: downsampling the mosaic of an image of one colour returns that colour. -/
theorem C50_constant_color (junk : List Nat → α) {x : Tensor α} (hx : x.shape = b ++ [3, h, w]) (hh : h % 2 = 0) (hw : w % 2 = 0) {p : Pattern}
    {s : List Char} (hp : p.Spelled s) {col : Color → α} (hcol : ∀ bi t i j, InB b bi → i < h → j < w → x.get (bi ++ [Color.channel t, i, j]) = col t) :
    ∃ y z, rgbTo1c junk x s = .ok y ∧ downsample1c y s = .ok z ∧ z.shape = b ++ [3, h / 2, w / 2] ∧
      ∀ bi t i j, InB b bi → i < h / 2 → j < w / 2 → z.get (bi ++ [Color.channel t, i, j]) = col t := by
  obtain ⟨y, e1, s1, g1⟩ := rgbTo1c_eq junk hx hh hw hp
  obtain ⟨_, z, _, _, e2, s2, g2⟩ := C50_one_channel s1 hh hw hp
  refine ⟨y, z, e1, e2, s2, ?_⟩
  intro bi t i j hb hi hj
  obtain ⟨q0, q1, q2⟩ := g2 bi i j hb hi hj
  have val : ∀ r c, r < 2 → c < 2 → y.get (bi ++ [0, 2 * i + r, 2 * j + c]) = col (p.color r c) := by
    intro r c hr hc
    rw [g1 bi _ _ hb (by omega) (by omega), hcol bi _ _ _ hb (by omega) (by omega)]
    congr 1
    rw [← color_mod p (2 * i + r), ← color_mod p r]
    congr 1 <;> omega
  have ex1 : ∃ r, r < 2 ∧ ∃ c, c < 2 ∧ p.color r c = .red := by cases p <;> decide
  have ex2 : ∃ r, r < 2 ∧ ∃ c, c < 2 ∧ p.color r c = .blue := by cases p <;> decide
  have ex3 : ∃ r, r < 2 ∧ ∃ c, c < 2 ∧ ∃ r', r' < 2 ∧ ∃ c', c' < 2 ∧ p.color r c = .green ∧ p.color r' c' = .green ∧ (r, c) ≠ (r', c') := by cases p <;> decide
  cases t with
  | red =>
    obtain ⟨r, hr, c, hc, hcc⟩ := ex1
    rw [Color.channel, q0 r c hr hc hcc, val r c hr hc, hcc]
  | blue =>
    obtain ⟨r, hr, c, hc, hcc⟩ := ex2
    rw [Color.channel, q2 r c hr hc hcc, val r c hr hc, hcc]
  | green =>
    obtain ⟨r, hr, c, hc, r', hr', c', hc', h1, h2, h3⟩ := ex3
    rw [Color.channel, q1 r c r' c' hr hc hr' hc' h1 h2 h3, val r c hr hc, val r' c' hr' hc', h1, h2]
    exact add_self_div_two _

end

/-! ## C51 -/

/-- **C51**: exactly the names of the four patterns, each letter in either case, are accepted; the result is in upper case. -/
theorem C51_accepts (s t : List Char) : checkAlignment s = .ok t ↔ ∃ p : Pattern, p.Spelled s ∧ t = p.name := by
  constructor
  · intro e
    rcases checkAlignment_eq s with ⟨p, hp, e2⟩ | ⟨_, e2⟩
    · rw [e2] at e
      exact ⟨p, hp, (Except.ok.inj e).symm⟩
    · rw [e2] at e
      cases e
  · rintro ⟨p, hp, rfl⟩
    exact checkAlignment_ok hp

/-- **C51**: everything else fails an assertion. -/
theorem C51_rejects (s : List Char) (h : ∀ p : Pattern, ¬ p.Spelled s) : checkAlignment s = .error .assertion := by
  rcases checkAlignment_eq s with ⟨p, hp, _⟩ | ⟨_, e⟩
  · exact absurd hp (h p)
  · exact e

/-- **C51**: the check is idempotent. -/
theorem C51_idempotent (s t : List Char) (h : checkAlignment s = .ok t) : checkAlignment t = .ok t := by
  obtain ⟨p, _, rfl⟩ := (C51_accepts s t).1 h
  exact checkAlignment_ok (spelled_name p)

/-- **C51**: the four kinds of pixels occupy the four cells of the tile; the red and blue cells have these colours, the cell `GR` is the green
one in the row of the red cell, `GB` the green one in the row of the blue cell. -/
theorem C51_cells (p : Pattern) : ∃ beg, begIndex p.name = .ok beg ∧ (∀ q, (beg q).1 < 2 ∧ (beg q).2 < 2) ∧
    (∀ q q', beg q = beg q' → q = q') ∧ p.color (beg .R).1 (beg .R).2 = .red ∧ p.color (beg .B).1 (beg .B).2 = .blue ∧
    p.color (beg .GR).1 (beg .GR).2 = .green ∧ p.color (beg .GB).1 (beg .GB).2 = .green ∧
    (beg .GR).1 = (beg .R).1 ∧ (beg .GB).1 = (beg .B).1 := by
  obtain ⟨beg, e, hc⟩ := begIndex_eq p
  have hk : ∀ q, p.kind (beg q).1 (beg q).2 = q.kind := by
    intro q
    obtain ⟨h1, h2, h3⟩ := hc q
    exact (h3 _ _).1 ⟨Nat.mod_eq_of_lt h1, Nat.mod_eq_of_lt h2⟩
  have hcol : ∀ q, p.color (beg q).1 (beg q).2 = colorOf q.kind := fun q => by rw [← hk q, colorOf_kind]
  have row : ∀ r < 2, ∀ c < 2, ∀ r' < 2, ∀ c' < 2, (p.kind r c = .greenInRed → p.kind r' c' = .red → r = r') ∧
      (p.kind r c = .greenInBlue → p.kind r' c' = .blue → r = r') := by
    have key : ∀ r c r' c' : Fin 2, (p.kind r c = .greenInRed → p.kind r' c' = .red → r.1 = r'.1) ∧
        (p.kind r c = .greenInBlue → p.kind r' c' = .blue → r.1 = r'.1) := by cases p <;> decide
    intro r hr c hc r' hr' c' hc'
    exact key ⟨r, hr⟩ ⟨c, hc⟩ ⟨r', hr'⟩ ⟨c', hc'⟩
  refine ⟨beg, e, fun q => ⟨(hc q).1, (hc q).2.1⟩, ?_, hcol .R, hcol .B, hcol .GR, hcol .GB, ?_, ?_⟩
  · intro q q' h
    have := hk q
    rw [h, hk q'] at this
    rw [← posOf_kind q, ← posOf_kind q', this]
  · exact (row _ (hc .GR).1 _ (hc .GR).2.1 _ (hc .R).1 _ (hc .R).2.1).1 (hk .GR) (hk .R)
  · exact (row _ (hc .GB).1 _ (hc .GB).2.1 _ (hc .B).1 _ (hc .B).2.1).2 (hk .GB) (hk .B)

/-! ## C52, C53 -/

section
variable {α : Type} [Field α] {b : List Nat} {h w : Nat}

/-- the filter bank used at a kind of pixel -/
def bankOf : Kind → Pos
  | .red => .R
  | .blue => .B
  | .greenInRed => .GR
  | .greenInBlue => .GB

/-- **C52** for even sides: the output at a pixel is the filter of its kind, applied to the neighbourhood centred there, continued by reflection. -/
theorem C52_centred_partial (junk : List Nat → α) {m : BayerConv α} {x : Tensor α} (hx : x.shape = b ++ [m.inC, h, w])
    (hf : ConvFits b m.inC m.size h w) {p : Pattern} {s : List Char} (hp : p.Spelled s) :
    ∃ z, m.forward junk x s = .ok z ∧ z.shape = b ++ [m.outC, h, w] ∧
      ∀ bi o i j, InB b bi → o < m.outC → i < h → j < w → z.get (bi ++ [o, i, j]) =
        bayerFilter x bi h w m.inC m.size (m.weight (bankOf (p.kind i j)) o) i j + m.bias (bankOf (p.kind i j)) o := by
  obtain ⟨z, e, s1, g⟩ := forward_eq junk hx hf hp
  refine ⟨z, e, s1, ?_⟩
  intro bi o i j hb ho hi hj
  rw [g bi o i j hb ho hi hj]
  have : posOf (p.kind i j) = bankOf (p.kind i j) := by cases p.kind i j <;> rfl
  rw [this]

/-- The other case of **C52**: odd sizes of the kernel and an odd side other than 3 raise RuntimeError. -/
theorem C52_odd_side (junk : List Nat → α) {m : BayerConv α} {x : Tensor α} (hx : x.shape = b ++ [m.inC, h, w]) (h5 : b.length ≤ 1) (hc0 : m.inC ≠ 0)
    (h1 : 2 ≤ h) (h2 : 2 ≤ w) (h3 : m.size / 2 < h) (h4 : m.size / 2 < w) (hodd : m.size % 2 = 1) (hbad : (h % 2 = 1 ∧ h ≠ 3) ∨ (w % 2 = 1 ∧ w ≠ 3))
    {p : Pattern} {s : List Char} (hp : p.Spelled s) : m.forward junk x s = .error .runtime :=
  forward_odd junk hx h5 hc0 h1 h2 h3 h4 hodd hbad hp

/-- every failure of padding and convolving is a RuntimeError -/
theorem convAt_cases (m : BayerConv α) (P : Pos) (r c : Nat) (x : Tensor α) : (∃ v, m.convAt P r c x = .ok v) ∨ m.convAt P r c x = .error .runtime := by
  rw [BayerConv.convAt, bayerPad, reflectionPad2d]
  split_ifs
  · rw [ok_bind, conv2dStride2]
    split_ifs
    · exact Or.inl ⟨_, rfl⟩
    · exact Or.inr rfl
  · exact Or.inr rfl

/-- padding by half the kernel needs more samples than that -/
theorem convAt_reject {m : BayerConv α} (P : Pos) {x : Tensor α} (hbad : (x.ndim ≠ 3 ∧ x.ndim ≠ 4) ∨ x.axisEnd 3 ≠ m.inC ∨ m.inC = 0 ∨ m.size = 0 ∨
    x.axisEnd 2 ≤ m.size / 2 ∨ x.axisEnd 1 ≤ m.size / 2) : m.convAt P 0 0 x = .error .runtime := by
  rw [BayerConv.convAt, bayerPad, reflectionPad2d]
  split_ifs with h
  · obtain ⟨h1, h2, h3, h4, h5, h6, h7, h8, -, -⟩ := h
    have hc : x.axisEnd 3 ≠ m.inC ∨ m.size = 0 := by
      rcases hbad with h | h | h | h | h | h
      · omega
      · exact Or.inl h
      · exact Or.inl (by rw [h]; exact h2)
      · exact Or.inr h
      · omega
      · omega
    rw [ok_bind, conv2dStride2, if_neg]
    rintro ⟨-, q2, q3, -⟩
    rcases hc with hc | hc
    · apply hc
      rw [← q2]
      have hl : 3 ≤ x.shape.length := by change 3 ≤ x.ndim; omega
      simp only [axisEnd, shape_ofFn, initShape, List.length_append, List.length_take, List.length_cons, List.length_nil]
      simp only [List.getD]
      rw [List.getElem?_append_left (by simp; omega), List.getElem?_take, if_pos (by omega)]
      congr 2
      omega
    · exact q3 hc
  · rfl

/-- **C52**, what is rejected: tensors without three or four axes, another number of channels, no channels, the kernel size zero, and a side that
is not longer than half the kernel.  `forward` and (from two axes on) `forward_unshuffle` raise RuntimeError. -/
theorem C52_rejects (junk : List Nat → α) {m : BayerConv α} {x : Tensor α} {p : Pattern} {s : List Char} (hp : p.Spelled s)
    (hbad : (x.ndim ≠ 3 ∧ x.ndim ≠ 4) ∨ x.axisEnd 3 ≠ m.inC ∨ m.inC = 0 ∨ m.size = 0 ∨ x.axisEnd 2 ≤ m.size / 2 ∨ x.axisEnd 1 ≤ m.size / 2) :
    m.forward junk x s = .error .runtime ∧ (2 ≤ x.ndim → m.forwardUnshuffle junk x s = .error .runtime) := by
  obtain ⟨beg, hbeg, hcell⟩ := begIndex_eq p
  have h00 : beg (posOf (p.kind 0 0)) = (0, 0) := by
    have := ((hcell (posOf (p.kind 0 0))).2.2 0 0).2 (kind_posOf _).symm
    exact Prod.ext this.1.symm this.2.symm
  by_cases hr : x.ndim = 3 ∨ x.ndim = 4
  · constructor
    · simp only [BayerConv.forward, checkAlignment_ok hp, ok_bind, hbeg]
      refine forPos_fail (Inv := fun y => 2 ≤ y.ndim) ?_ ⟨posOf (p.kind 0 0), ?_⟩ ?_
      · intro P y hy
        rcases convAt_cases m P (beg P).1 (beg P).2 x with ⟨v, e⟩ | e
        · rw [e, ok_bind]
          rcases setLast_cases (y := y) (v := v) (sl := [every2 (beg P).1, every2 (beg P).2]) hy with ⟨z, q1, q2⟩ | q
          · exact Or.inl ⟨z, q1, by rw [ndim, q2]; exact hy⟩
          · exact Or.inr q
        · rw [e]; exact Or.inr rfl
      · intro y _
        rw [h00, convAt_reject _ hbad]
        rfl
      · have : 3 ≤ x.shape.length := by change 3 ≤ x.ndim; omega
        simp only [ndim, Tensor.empty, shape_ofFn, List.length_append, List.length_cons, List.length_drop]
        omega
    · intro h2
      have hnd : ¬ x.ndim < 2 := by omega
      simp only [BayerConv.forwardUnshuffle, hnd, if_false, checkAlignment_ok hp, ok_bind, hbeg]
      refine forPos_fail (Inv := fun _ => True) ?_ ⟨posOf (p.kind 0 0), ?_⟩ trivial
      · intro P y _
        rcases convAt_cases m P (beg P).1 (beg P).2 x with ⟨v, e⟩ | e
        · rw [e, ok_bind, setSlice]
          split_ifs
          · exact Or.inl ⟨_, rfl, trivial⟩
          · exact Or.inr rfl
        · rw [e]; exact Or.inr rfl
      · intro y _
        rw [h00, convAt_reject _ hbad]
        rfl
  · have hany : ∀ (P : Pos) (r c : Nat), m.convAt P r c x = .error .runtime := by
      intro P r c
      rw [BayerConv.convAt, bayerPad, reflectionPad2d, if_neg (fun h => hr h.1)]
      rfl
    constructor
    · simp only [BayerConv.forward, checkAlignment_ok hp, ok_bind, hbeg, hany, forPos]
      rfl
    · intro h2
      have hnd : ¬ x.ndim < 2 := by omega
      simp only [BayerConv.forwardUnshuffle, hnd, if_false, checkAlignment_ok hp, ok_bind, hbeg, hany, forPos]
      rfl

/-- kernels of size 5 on an image with two rows -/
example (junk : List Nat → ℚ) (m : BayerConv ℚ) (h : m.size = 5) :
    m.forward junk (Tensor.ofFn [1, 2, 6] fun _ => 1) Pattern.rggb.name = .error .runtime :=
  (C52_rejects junk (spelled_name _) (by rw [h]; exact Or.inr (Or.inr (Or.inr (Or.inr (Or.inl (by decide))))))).1

/-- The filter that copies the centre sample. -/
def copyFilter (size : Nat) : BayerConv α := ⟨1, 1, size, fun _ _ _ a b => if a = size / 2 ∧ b = size / 2 then 1 else 0, fun _ _ => 0⟩

/-- **C52** is false for side 3: the filter that copies the centre sample does not return the 3 x 3 image, and no error is raised. -/
theorem C52_side_three_witness : ∃ (x z : Tensor ℚ), x.shape = [1, 3, 3] ∧ (copyFilter 1).forward (fun _ => 0) x Pattern.rggb.name = .ok z ∧
    bayerFilter x [] 3 3 1 1 ((copyFilter 1).weight .R 0) 2 2 + (copyFilter 1 : BayerConv ℚ).bias .R 0 = 8 ∧ z.get [0, 2, 2] = 0 := by
  refine ⟨Tensor.ofFn [1, 3, 3] fun ix => (3 * ix.getD 1 0 + ix.getD 2 0 : Nat), Tensor.ofFn [1, 3, 3] fun ix => (3 * (ix.getD 1 0 % 2) + ix.getD 2 0 % 2 : Nat),
    rfl, by decide +kernel, by decide +kernel, by decide +kernel⟩

/-- **C53** is false for odd sides: `forward_unshuffle` returns a result where `forward` raises. -/
theorem C53_odd_witness : ∃ (x z : Tensor ℚ), x.shape = [1, 1, 5, 5] ∧ (copyFilter 1).forward (fun _ => 0) x Pattern.rggb.name = .error .runtime ∧
    (copyFilter 1).forwardUnshuffle (fun _ => 0) x Pattern.rggb.name = .ok z ∧ z.shape = [1, 4, 2, 2] := by
  refine ⟨Tensor.ofFn [1, 1, 5, 5] fun _ => 1, Tensor.ofFn [1, 4, 2, 2] fun _ => 1, rfl, ?_, by decide +kernel, rfl⟩
  exact C52_odd_side _ (b := [1]) rfl (by simp) (by decide) (by omega) (by omega) (by decide) (by decide) (by decide) (by omega) (spelled_name _)

/-- **C53** for even sides and a batch axis: `forward_unshuffle` is the pixel-unshuffled `forward`. -/
theorem C53_unshuffle_partial (junk junk' : List Nat → α) {m : BayerConv α} {x : Tensor α} {n : Nat} (hx : x.shape = [n, m.inC, h, w])
    (hf : ConvFits [n] m.inC m.size h w) {p : Pattern} {s : List Char} (hp : p.Spelled s) :
    ∃ z, m.forward junk x s = .ok z ∧ m.forwardUnshuffle junk' x s = .ok (pixelUnshuffle z [n] m.outC h w) := by
  obtain ⟨z, e, s1, g⟩ := forward_eq junk (b := [n]) hx hf hp
  obtain ⟨y, e2, s2, g2⟩ := forwardUnshuffle_eq junk' hx hf hp
  refine ⟨z, e, ?_⟩
  rw [e2]
  congr 1
  refine ext3 (b := [n]) s2 rfl ?_
  intro bi q i j hb hq hi hj
  have e1 := hf.evenH
  have e3 := hf.evenW
  match bi, hb with
  | [k], hb =>
    rw [g2 [k] q i j hb hq hi hj, pixelUnshuffle, get_ofFn (inB3 hb hq hi hj)]
    simp only [List.cons_append, List.nil_append, List.length_cons, List.length_nil, List.take_succ_cons, List.take_zero, List.getD_cons_succ,
      List.getD_cons_zero]
    have gz := g [k] (q / 4) (2 * i + q % 4 / 2) (2 * j + q % 2) hb (by omega) (by omega) (by omega)
    simp only [List.cons_append, List.nil_append] at gz
    rw [gz]
    have : p.kind (2 * i + q % 4 / 2) (2 * j + q % 2) = p.kind (q % 4 / 2) (q % 2) := by
      rw [← kind_mod p (2 * i + q % 4 / 2), ← kind_mod p (q % 4 / 2)]
      congr 1 <;> omega
    rw [this]

end

/-! ## C54, C77, C78 -/

section
variable {α : Type} [Field α] [LinearOrder α] [IsStrictOrderedRing α] {b : List Nat} {h w : Nat}

/-- **C54**: what demosaicing computes: the measured sample in its own channel, the estimate of Malvar, He and Cutler in the other two, all clamped. -/
theorem C54_formula (junk junk' : List Nat → α) {x : Tensor α} (hx : x.shape = b ++ [1, h, w]) (hf : ConvFits b 1 5 h w) {p : Pattern} {s : List Char}
    (hp : p.Spelled s) (clamp : α) :
    ∃ z, demosaic junk junk' x s clamp = .ok z ∧ z.shape = b ++ [3, h, w] ∧ ∀ bi t i j, InB b bi → i < h → j < w →
      z.get (bi ++ [Color.channel t, i, j]) = min (max (if t = p.color i j then x.get (bi ++ [0, i, j]) else malvar (p.kind i j) t (around x bi h w i j)) 0) clamp :=
  demosaic_eq junk junk' hx hf hp clamp

/-- **C54**, what is rejected: names that are not a Bayer pattern (AssertionError); tensors without three or four axes, without exactly one channel, or
with a side of at most two samples, and odd sides other than three (RuntimeError). -/
theorem C54_rejects (junk junk' : List Nat → α) (x : Tensor α) (s : List Char) (clamp : α) :
    ((∀ p : Pattern, ¬ p.Spelled s) → demosaic junk junk' x s clamp = .error .assertion) ∧
    ((∃ p : Pattern, p.Spelled s) →
      ((x.ndim ≠ 3 ∧ x.ndim ≠ 4) ∨ x.axisEnd 3 ≠ 1 ∨ x.axisEnd 2 ≤ 2 ∨ x.axisEnd 1 ≤ 2 ∨ (x.axisEnd 2 % 2 = 1 ∧ x.axisEnd 2 ≠ 3) ∨
        (x.axisEnd 1 % 2 = 1 ∧ x.axisEnd 1 ≠ 3)) →
      demosaic junk junk' x s clamp = .error .runtime) := by
  obtain ⟨m, e0, h1, h2, h3, -, -⟩ := pretrained_wf (α := α)
  constructor
  · intro hn
    rcases checkAlignment_eq s with ⟨p, hp, _⟩ | ⟨_, e⟩
    · exact absurd hp (hn p)
    · simp only [demosaic, e0, ok_bind, BayerConv.interpolate, BayerConv.forward, e]
      rfl
  · rintro ⟨p, hp⟩ hbad
    have key : m.forward junk x s = .error .runtime := by
      by_cases hc : (x.ndim ≠ 3 ∧ x.ndim ≠ 4) ∨ x.axisEnd 3 ≠ m.inC ∨ m.inC = 0 ∨ m.size = 0 ∨ x.axisEnd 2 ≤ m.size / 2 ∨ x.axisEnd 1 ≤ m.size / 2
      · exact (C52_rejects junk hp hc).1
      · rw [h1, h3] at hc
        push Not at hc
        obtain ⟨q1, q2, -, -, q3, q4⟩ := hc
        have hn3 : 3 ≤ x.ndim := by
          by_contra hlt
          exact absurd (q1 (by omega)) (by omega)
        have hsh := split_shape hn3
        rw [show x.axisEnd 3 = m.inC from q2.trans h1.symm] at hsh
        have hl : x.ndim ≤ 4 := by
          by_contra hlt
          exact absurd (q1 (by omega)) (by omega)
        refine C52_odd_side junk hsh ?_ (by omega) (by omega) (by omega) (by omega) (by omega) (by omega) (by omega) hp
        have e : x.ndim = _ := congrArg List.length hsh
        simp only [List.length_append, List.length_cons, List.length_nil] at e
        omega
    simp only [demosaic, e0, ok_bind, BayerConv.interpolate, key]
    rfl

/-- **C54**: the output lies in `[0, clamp]`, and measured samples in this range are kept. -/
theorem C54_range (junk junk' : List Nat → α) {x : Tensor α} (hx : x.shape = b ++ [1, h, w]) (hf : ConvFits b 1 5 h w) {p : Pattern} {s : List Char}
    (hp : p.Spelled s) {clamp : α} (hc : 0 ≤ clamp) :
    ∃ z, demosaic junk junk' x s clamp = .ok z ∧ z.shape = b ++ [3, h, w] ∧ ∀ bi i j, InB b bi → i < h → j < w →
      (∀ q, q < 3 → 0 ≤ z.get (bi ++ [q, i, j]) ∧ z.get (bi ++ [q, i, j]) ≤ clamp) ∧
      (0 ≤ x.get (bi ++ [0, i, j]) → x.get (bi ++ [0, i, j]) ≤ clamp → z.get (bi ++ [(p.color i j).channel, i, j]) = x.get (bi ++ [0, i, j])) := by
  obtain ⟨z, e, s1, g⟩ := demosaic_eq junk junk' hx hf hp clamp
  refine ⟨z, e, s1, ?_⟩
  intro bi i j hb hi hj
  refine ⟨?_, ?_⟩
  · intro q hq
    have ⟨t, ht⟩ : ∃ t : Color, t.channel = q := by
      have : q = 0 ∨ q = 1 ∨ q = 2 := by omega
      rcases this with rfl | rfl | rfl
      · exact ⟨.red, rfl⟩
      · exact ⟨.green, rfl⟩
      · exact ⟨.blue, rfl⟩
    rw [← ht, g bi t i j hb hi hj]
    exact clampTo_mem hc _
  · intro h0 h1
    rw [g bi _ i j hb hi hj, demosaicValue, if_pos rfl, clampTo_id h0 h1]

/-- **C54**: a constant Bayer image in range becomes the constant grey image. -/
theorem C54_flat (junk junk' : List Nat → α) {x : Tensor α} (hx : x.shape = b ++ [1, h, w]) (hf : ConvFits b 1 5 h w) {p : Pattern} {s : List Char}
    (hp : p.Spelled s) {clamp k : α} (hk : ∀ bi i j, InB b bi → i < h → j < w → x.get (bi ++ [0, i, j]) = k) (h0 : 0 ≤ k) (h1 : k ≤ clamp) :
    ∃ z, demosaic junk junk' x s clamp = .ok z ∧ z.shape = b ++ [3, h, w] ∧ ∀ bi t i j, InB b bi → i < h → j < w →
      z.get (bi ++ [Color.channel t, i, j]) = k := by
  obtain ⟨z, e, s1, g⟩ := demosaic_eq junk junk' hx hf hp clamp
  obtain ⟨h4, w4⟩ := ConvFits.four hf
  refine ⟨z, e, s1, ?_⟩
  intro bi t i j hb hi hj
  have hv : malvar (p.kind i j) t (around x bi h w i j) = k := by
    rw [malvar_congr (v' := fun _ _ => k), malvar_const]
    intro di dj q1 q2 q3 q4
    exact hk bi _ _ hb (window_ok h4 hi q1 q2).1 (window_ok w4 hj q3 q4).1
  rw [g bi t i j hb hi hj, demosaicValue, hv, hk bi i j hb hi hj, ite_self, clampTo_id h0 h1]

/-- **C77**: demosaicing the mosaic of an image of one colour, in range, returns that image, at every pixel including the borders. -/
theorem C77_constant_color (junk junk' junk'' : List Nat → α) {x : Tensor α} (hx : x.shape = b ++ [3, h, w]) (hf : ConvFits b 1 5 h w) {p : Pattern}
    {s : List Char} (hp : p.Spelled s) {clamp : α} {col : Color → α} (hr : ∀ t, 0 ≤ col t ∧ col t ≤ clamp)
    (hcol : ∀ bi t i j, InB b bi → i < h → j < w → x.get (bi ++ [Color.channel t, i, j]) = col t) :
    ∃ y, rgbTo1c junk x s = .ok y ∧ demosaic junk' junk'' y s clamp = .ok x := by
  obtain ⟨y, e1, s1, g1⟩ := rgbTo1c_eq junk hx hf.evenH hf.evenW hp
  obtain ⟨z, e2, s2, g2⟩ := demosaic_eq junk' junk'' s1 hf hp clamp
  obtain ⟨h4, w4⟩ := ConvFits.four hf
  have hy : ∀ bi i j, InB b bi → i < h → j < w → y.get (bi ++ [0, i, j]) = col (p.color i j) := fun bi i j hb hi hj => by
    rw [g1 bi i j hb hi hj, hcol bi _ i j hb hi hj]
  refine ⟨y, e1, ?_⟩
  rw [e2]
  congr 1
  refine ext3 s2 hx ?_
  intro bi q i j hb hq hi hj
  have ⟨t, ht⟩ : ∃ t : Color, t.channel = q := by
    have : q = 0 ∨ q = 1 ∨ q = 2 := by omega
    rcases this with rfl | rfl | rfl
    · exact ⟨.red, rfl⟩
    · exact ⟨.green, rfl⟩
    · exact ⟨.blue, rfl⟩
  rw [← ht, g2 bi t i j hb hi hj, hcol bi t i j hb hi hj, demosaicValue]
  have hv : (if t = p.color i j then y.get (bi ++ [0, i, j]) else malvar (p.kind i j) t (around y bi h w i j)) = col t := by
    split_ifs with hc
    · rw [hy bi i j hb hi hj, hc]
    · have := malvar_affine p t i j col (fun _ => (0 : α)) (fun _ => 0) hc
      simp only [zero_mul, add_zero] at this
      rw [← this]
      apply malvar_congr
      intro di dj q1 q2 q3 q4
      have w1 := window_ok h4 hi q1 q2
      have w2 := window_ok w4 hj q3 q4
      rw [around, hy bi _ _ hb w1.1 w2.1, ← color_mod, w1.2, w2.2, color_mod]
  rw [hv, clampTo_id (hr t).1 (hr t).2]

/-- **C78**: demosaicing the mosaic of an image whose channels are affine functions of the position, with values in range, is exact at every
pixel that is at least two samples away from the borders. -/
theorem C78_affine (junk junk' junk'' : List Nat → α) {x : Tensor α} (hx : x.shape = b ++ [3, h, w]) (hf : ConvFits b 1 5 h w) {p : Pattern}
    {s : List Char} (hp : p.Spelled s) {clamp : α} {A B C : Color → α}
    (hcol : ∀ bi t i j, InB b bi → i < h → j < w → x.get (bi ++ [Color.channel t, i, j]) = A t + B t * i + C t * j) :
    ∃ y z, rgbTo1c junk x s = .ok y ∧ demosaic junk' junk'' y s clamp = .ok z ∧ z.shape = b ++ [3, h, w] ∧
      ∀ bi q i j, InB b bi → q < 3 → 2 ≤ i → i + 2 < h → 2 ≤ j → j + 2 < w → 0 ≤ x.get (bi ++ [q, i, j]) → x.get (bi ++ [q, i, j]) ≤ clamp →
        z.get (bi ++ [q, i, j]) = x.get (bi ++ [q, i, j]) := by
  obtain ⟨y, e1, s1, g1⟩ := rgbTo1c_eq junk hx hf.evenH hf.evenW hp
  obtain ⟨z, e2, s2, g2⟩ := demosaic_eq junk' junk'' s1 hf hp clamp
  obtain ⟨h4, w4⟩ := ConvFits.four hf
  refine ⟨y, z, e1, e2, s2, ?_⟩
  intro bi q i j hb hq hi2 hih hj2 hjw
  have ⟨t, ht⟩ : ∃ t : Color, t.channel = q := by
    have : q = 0 ∨ q = 1 ∨ q = 2 := by omega
    rcases this with rfl | rfl | rfl
    · exact ⟨.red, rfl⟩
    · exact ⟨.green, rfl⟩
    · exact ⟨.blue, rfl⟩
  subst ht
  have hi : i < h := by omega
  have hj : j < w := by omega
  intro h0 h1
  rw [g2 bi t i j hb hi hj, demosaicValue]
  have hv : (if t = p.color i j then y.get (bi ++ [0, i, j]) else malvar (p.kind i j) t (around y bi h w i j)) = x.get (bi ++ [t.channel, i, j]) := by
    split_ifs with hc
    · rw [g1 bi i j hb hi hj, hc]
    · rw [hcol bi t i j hb hi hj, ← malvar_affine p t i j A B C hc]
      apply malvar_congr
      intro di dj q1 q2 q3 q4
      have w1 := window_ok h4 hi q1 q2
      have w2 := window_ok w4 hj q3 q4
      have v1 : ((reflC h (i + di) : Nat) : α) = (i : α) + di := by
        have := window_inside hi2 hih q1 q2
        exact_mod_cast congrArg (Int.cast : Int → α) this
      have v2 : ((reflC w (j + dj) : Nat) : α) = (j : α) + dj := by
        have := window_inside hj2 hjw q3 q4
        exact_mod_cast congrArg (Int.cast : Int → α) this
      rw [around, g1 bi _ _ hb w1.1 w2.1, hcol bi _ _ _ hb w1.1 w2.1, v1, v2]
      rw [← color_mod p (reflC h (i + di)), w1.2, w2.2, color_mod]
  rw [hv, clampTo_id h0 h1]

end

/-! ## concrete cases meeting the hypotheses -/

namespace CfaExample

/-- a 2 x 4 one-channel image in a batch of one -/
def x1 : Tensor ℚ := Tensor.ofFn [1, 1, 2, 4] fun ix => (10 * ix.getD 2 0 + ix.getD 3 0 : Nat)

/-- C46, C50: its 4-channel form, and red, mean green and blue of its two blocks in the pattern GRBG -/
example : x1.shape = [1] ++ [1, 2, 4] ∧ (bayer1cTo4c x1).toOption.map (·.data) = some [0, 2, 1, 3, 10, 12, 11, 13] ∧
    (downsample1c x1 ['g', 'R', 'b', 'G']).toOption.map (·.data) = some [1, 3, 11 / 2, 15 / 2, 10, 12] := by decide +kernel

/-- a 2 x 2 RGB image -/
def rgb : Tensor ℚ := Tensor.ofFn [3, 2, 2] fun ix => (100 * ix.getD 0 0 + 10 * ix.getD 1 0 + ix.getD 2 0 : Nat)

/-- C47, C48: its mosaic and the 4-channel form -/
example : rgb.shape = [] ++ [3, 2, 2] ∧ (rgbTo1c (fun _ => 7) rgb ['B', 'G', 'G', 'R']).toOption.map (·.data) = some [200, 101, 110, 11] ∧
    (rgbTo4c rgb ['B', 'G', 'G', 'R']).toOption.map (·.shape) = some [4, 1, 1] := by decide +kernel

/-- C49, on odd sides -/
example : (lastStep (fun _ => 7) (Tensor.ofFn [1, 1, 3] fun ix => ((ix.getD 2 0 : Nat) : ℚ)) (Tensor.ofFn [2, 1, 3] fun ix => (10 + 10 * ix.getD 0 0 : Nat))
    ['r', 'g', 'g', 'b']).toOption.map (·.data) = some [0, 10, 2, 10, 1, 10, 20, 20, 20] := by decide +kernel

/-- C51: mixed case is accepted, a permutation that is not a Bayer pattern is not -/
example : checkAlignment ['g', 'B', 'r', 'G'] = .ok ['G', 'B', 'R', 'G'] ∧ checkAlignment ['R', 'B', 'G', 'G'] = .error .assertion := by decide

/-- C52–C54, C77, C78: sizes that are accepted -/
example : ConvFits [] 1 5 4 6 ∧ ConvFits [3] 2 4 4 4 ∧ ConvFits [0] 1 1 2 2 := by
  refine ⟨⟨?_, ?_, ?_, ?_, ?_, ?_, ?_⟩, ⟨?_, ?_, ?_, ?_, ?_, ?_, ?_⟩, ⟨?_, ?_, ?_, ?_, ?_, ?_, ?_⟩⟩ <;> simp

/-- C52: the average of the row neighbours at red pixels, at a border -/
example : ((⟨1, 1, 3, fun p _ _ a b => if p = .R ∧ a = 1 ∧ b ≠ 1 then 1 / 2 else 0, fun _ _ => 1⟩ : BayerConv ℚ).forward (fun _ => 7) (Tensor.ofFn [1, 2, 4] fun ix => (10 * ix.getD 1 0 + ix.getD 2 0 : Nat))
    ['R', 'G', 'G', 'B']).toOption.map (·.data) = some [2, 1, 3, 1, 1, 1, 1, 1] := by decide +kernel

/-- C54: an isolated sample: estimates outside the range are clamped -/
example : ((demosaic (fun _ => 7) (fun _ => 7) (Tensor.ofFn [1, 4, 4] fun ix => if ix = [0, 2, 2] then (1 : ℚ) else 0) ['R', 'G', 'G', 'B'] 1).toOption.map
    fun z => (z.get [0, 2, 2], z.get [1, 2, 2], z.get [2, 2, 2], z.get [1, 0, 2], z.get [0, 2, 1])) = some (1, 1 / 4, 3 / 8, 0, 1 / 2) := by decide +kernel

/-- C77: a constant colour -/
example : ∃ y, rgbTo1c (fun _ => 7) (Tensor.ofFn [3, 4, 4] fun ix => ((ix.getD 0 0 : Nat) : ℚ) / 4) ['g', 'r', 'b', 'g'] = .ok y ∧
    demosaic (fun _ => 7) (fun _ => 7) y ['g', 'r', 'b', 'g'] 1 = .ok (Tensor.ofFn [3, 4, 4] fun ix => ((ix.getD 0 0 : Nat) : ℚ) / 4) := by
  refine C77_constant_color (b := []) (h := 4) (w := 4) (p := .grbg) (col := fun t => ((t.channel : Nat) : ℚ) / 4) _ _ _ rfl ⟨?_, ?_, ?_, ?_, ?_, ?_, ?_⟩ ?_ ?_ ?_
  iterate 7 simp
  · exact (spelled_iff .grbg _).2 (by decide)
  · intro t
    cases t <;> simp [Color.channel] <;> norm_num
  · intro bi t i j hb hi hj
    match bi, hb with
    | [], _ =>
      exact get_ofFn (inB3 (b := []) (bi := []) trivial (channel_lt t) hi hj)

/-- C78: three different slopes; pixel (2, 3) of a 6 x 6 image -/
example : (do
    let y ← rgbTo1c (fun _ => 7) (Tensor.ofFn [3, 6, 6] fun ix => ((ix.getD 0 0 * ix.getD 1 0 + 2 * ix.getD 2 0 : Nat) : ℚ)) ['R', 'G', 'G', 'B']
    let z ← demosaic (fun _ => 7) (fun _ => 7) y ['R', 'G', 'G', 'B'] 100
    .ok (z.get [0, 2, 3], z.get [1, 2, 3], z.get [2, 2, 3])) = (.ok (6, 8, 10) : Except Err (ℚ × ℚ × ℚ)) := by decide +kernel

end CfaExample

end TI
