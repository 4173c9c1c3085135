import Verif.Proofs.Crop
import Mathlib.Algebra.Order.Field.Rat
import Mathlib.Tactic.NormNum

/-!
# random_crop and noise: C67, C68, C82
-/

namespace TI
open Tensor Spec

section
variable {α : Type} [Zero α] {x : Tensor α} {ax : Axes} {axes : List Nat} {g : Given (Option Nat)}

theorem randomCrop_eq {d : Nat → Nat → Nat} (hax : axesOf x.ndim ax = some axes) (hne : axes ≠ []) (hg : g.Fits axes.length) :
    ∃ S, SizeIs S (g.entry none) axes.length ∧ randomCrop d x ax (g.toPy pySize) =
      (cropLoop d S x.shape 0 0 (castV axes) (List.replicate x.shape.length PySlice.full)).bind fun idx => .ok (x.getSlice idx) := by
  obtain ⟨S, h1, h2⟩ := sizeIs_given (List.length_pos_of_ne_nil hne) hg
  refine ⟨S, h2, ?_⟩
  simp only [randomCrop, (checkAxes_spec hax).1, h1, bind, Except.bind]
  rfl

theorem full_step {n : Nat} : ∀ s ∈ List.replicate n PySlice.full, s.step = 1 := by
  intro s hs
  rw [List.eq_of_mem_replicate hs]
  rfl

/-- **C67.** For every outcome of the random draws, `random_crop` with distinct axes and sizes smaller than the axes returns the part of `x`
of the requested sizes that begins at some position and lies inside of `x`; axes with size `None` and the other axes are kept whole.
Moreover the part never reaches the end of a cropped axis. -/
theorem C67_random_crop {d : Nat → Nat → Nat} (hd : GoodDraw d) (hax : axesOf x.ndim ax = some axes) (hne : axes ≠ []) (hnd : axes.Nodup)
    (hg : g.Fits axes.length) (hl : ∀ i < axes.length, ∀ l, g.entry none i = some l → l < x.shape.getD (axes.getD i 0) 0) :
    ∃ start cut, randomCrop d x ax (g.toPy pySize) = .ok (cropped x start cut) ∧ IsWindow x.shape axes (g.entry none) start cut ∧
      ∀ i < axes.length, ∀ l, g.entry none i = some l → start.getD (axes.getD i 0) 0 + l < x.shape.getD (axes.getD i 0) 0 := by
  obtain ⟨S, hS, e⟩ := randomCrop_eq (d := d) hax hne hg
  obtain ⟨b, hb, h⟩ := cropLoop_ok (S := S) (size := g.entry none) (shape := x.shape) hd axes 0 0 (List.replicate x.shape.length PySlice.full)
    (by omega) hS (checkAxes_spec hax).2 (by simp) (by simpa using hl)
  obtain ⟨hw, hstart⟩ := crop_ranges hnd (checkAxes_spec hax).2 hb
  refine ⟨_, _, ?_, hw, ?_⟩
  · rw [e, h]
    simp only [Except.bind]
    rw [getSlice_cropped (by rw [idxAt_length]; simp [Tensor.ndim]) (idxAt_step axes 0 b _ full_step)]
  · intro i hi l h
    rw [hstart i hi l h]
    exact hb i hi l (by simpa using h)

/-- **C68**, what holds: every position except the last one is reached by some outcome of the draws, simultaneously for all axes.
Missing: the positions with `start + size = n` (`C68_last_window_false`), and `size = n` (`C68_full_size_false`). -/
theorem C68_reaches_partial (hax : axesOf x.ndim ax = some axes) (hne : axes ≠ []) (hnd : axes.Nodup)
    (hg : g.Fits axes.length) {start cut : List Nat} (hw : IsWindow x.shape axes (g.entry none) start cut)
    (hin : ∀ i < axes.length, ∀ l, g.entry none i = some l → start.getD (axes.getD i 0) 0 + l < x.shape.getD (axes.getD i 0) 0) :
    ∃ d, GoodDraw d ∧ randomCrop d x ax (g.toPy pySize) = .ok (cropped x start cut) := by
  have hlt := (checkAxes_spec hax).2
  have hb : Inside x.shape (g.entry none) 0 (fun j => start.getD (axes.getD j 0) 0) axes := by
    intro j hj l h
    exact hin j hj l (by simpa using h)
  obtain ⟨S, h1, h2⟩ := sizeIs_given (List.length_pos_of_ne_nil hne) hg
  obtain ⟨d, hd, h⟩ := cropLoop_reach (S := S) (size := g.entry none) (shape := x.shape) axes 0 0 (List.replicate x.shape.length PySlice.full)
    (fun j => start.getD (axes.getD j 0) 0) (by omega) h2 hlt (by simp) hb
  refine ⟨d, hd, ?_⟩
  obtain ⟨hw', hstart⟩ := crop_ranges hnd hlt hb
  have hrc : randomCrop d x ax (g.toPy pySize) = (cropLoop d S x.shape 0 0 (castV axes)
      (List.replicate x.shape.length PySlice.full)).bind fun idx => .ok (x.getSlice idx) := by
    simp only [randomCrop, (checkAxes_spec hax).1, h1, bind, Except.bind]
    rfl
  rw [hrc, h]
  simp only [Except.bind]
  rw [getSlice_cropped (by rw [idxAt_length]; simp [Tensor.ndim]) (idxAt_step axes 0 _ _ full_step)]
  have hcase : ∀ k < x.shape.length, k ∉ axes ∨ ∃ i < axes.length, k = axes.getD i 0 := by
    intro k _
    by_cases h : k ∈ axes
    · right
      obtain ⟨i, hi, rfl⟩ := List.getElem_of_mem h
      exact ⟨i, hi, by simp [hi]⟩
    · exact Or.inl h
  congr 2
  · apply list_ext_getD (by rw [hw'.start_length, hw.start_length])
    intro k hk
    rw [hw'.start_length] at hk
    rcases hcase k hk with h | ⟨i, hi, rfl⟩
    · rw [(hw'.rest k hk h).1, (hw.rest k hk h).1]
    · cases hsz : g.entry none i with
      | none => rw [(hw'.whole i hi hsz).1, (hw.whole i hi hsz).1]
      | some l => rw [hstart i hi l hsz]
  · apply list_ext_getD (by rw [hw'.cut_length, hw.cut_length])
    intro k hk
    rw [hw'.cut_length] at hk
    rcases hcase k hk with h | ⟨i, hi, rfl⟩
    · rw [(hw'.rest k hk h).2, (hw.rest k hk h).2]
    · cases hsz : g.entry none i with
      | none => rw [(hw'.whole i hi hsz).2, (hw.whole i hi hsz).2]
      | some l => rw [(hw'.part i hi l hsz).2, (hw.part i hi l hsz).2]

/-- **C68** is false: a size equal to (or larger than) that of the axis raises RuntimeError, whatever the draws. -/
theorem C68_full_size_false (d : Nat → Nat → Nat) (hax : axesOf x.ndim ax = some axes) (hg : g.Fits axes.length)
    {i l : Nat} (hi : i < axes.length) (hsz : g.entry none i = some l) (hle : x.shape.getD (axes.getD i 0) 0 ≤ l) :
    randomCrop d x ax (g.toPy pySize) = .error .runtime := by
  have hne : axes ≠ [] := by rintro rfl; simp at hi
  obtain ⟨S, hS, e⟩ := randomCrop_eq (d := d) hax hne hg
  rw [e, cropLoop_large (S := S) (size := g.entry none) (shape := x.shape) axes 0 0 (List.replicate x.shape.length PySlice.full)
    (by omega) hS (checkAxes_spec hax).2 (by simp) ⟨i, hi, l, by simpa using hsz, hle⟩]
  rfl

end

/-- **C74** in `random_crop`: an integer axis below `-ndim` is not rejected; it is counted from the end a second time. -/
theorem C74_crop_wraps {α : Type} [Zero α] (d : Nat → Nat → Nat) (x : Tensor α) (size : Py (Option Int)) {a : Int}
    (h1 : a < -(x.ndim : Int)) (h2 : -(2 * (x.ndim : Int)) ≤ a) :
    randomCrop d x (.int a) size = randomCrop d x (.int (a + x.ndim)) size := by
  have hn : (x.shape.length : Int) = x.ndim := rfl
  have e1 : checkAxes x.ndim (.int a) = .ok [x.ndim + a] := by
    simp only [checkAxes]; rw [if_neg (by omega)]
  have e2 : checkAxes x.ndim (.int (a + x.ndim)) = .ok [x.ndim + (a + x.ndim)] := by
    simp only [checkAxes]; rw [if_neg (by omega)]
  have e3 : pyIndex x.shape (x.ndim + a) = pyIndex x.shape (x.ndim + (a + x.ndim)) := by
    simp only [pyIndex]
    rw [if_pos (by omega : (x.ndim : Int) + a < 0), if_neg (by omega : ¬ (x.ndim : Int) + (a + x.ndim) < 0), hn,
      show (x.ndim : Int) + a + x.ndim = x.ndim + (a + x.ndim) by ring]
  have e4 : ∀ v, pyAssign (List.replicate x.ndim PySlice.full) (x.ndim + a) v =
      pyAssign (List.replicate x.ndim PySlice.full) (x.ndim + (a + x.ndim)) v := by
    intro v
    simp only [pyAssign, List.length_replicate]
    rw [if_pos (by omega : (x.ndim : Int) + a < 0), if_neg (by omega : ¬ (x.ndim : Int) + (a + x.ndim) < 0),
      show (x.ndim : Int) + a + x.ndim = x.ndim + (a + x.ndim) by ring]
  simp only [randomCrop, e1, e2, bind, Except.bind, cropLoop, e3, e4]

/-- C74: on an image of shape (2, 3) the axis -3 crops the last axis -/
example : randomCrop (fun _ _ => 0) (⟨[2, 3], [1, 2, 3, 4, 5, 6], rfl⟩ : Tensor ℚ) (.int (-3)) (.leaf (some 2)) =
    .ok ⟨[2, 2], [1, 2, 4, 5], rfl⟩ := by decide +kernel

/-- **C68** is false: of the numbers 0, 1, .., n - 1 the last window of any size is never returned. -/
theorem C68_last_window_false {d : Nat → Nat → Nat} (hd : GoodDraw d) {n l : Nat} (hl : 0 < l) (hln : l < n) :
    randomCrop d (ofFn [n] fun ix => ((ix.headD 0 : Nat) : ℚ)) (.int 0) (pySize (some l)) ≠
      .ok (cropped (ofFn [n] fun ix => ((ix.headD 0 : Nat) : ℚ)) [n - l] [l]) := by
  obtain ⟨start, cut, h1, h2, h3⟩ := C67_random_crop (x := ofFn [n] fun ix => ((ix.headD 0 : Nat) : ℚ)) (ax := .int 0) (axes := [0])
    (g := .one (some l)) hd rfl (by simp) (by simp) trivial (by
      intro i hi l' h
      have hi0 : i = 0 := by simp at hi; omega
      subst hi0
      cases h
      simpa using hln)
  have h1 : randomCrop d (ofFn [n] fun ix => ((ix.headD 0 : Nat) : ℚ)) (.int 0) (pySize (some l)) = _ := h1
  rw [h1]
  have hs : start.length = 1 := by simpa using h2.start_length
  have hc : cut.length = 1 := by simpa using h2.cut_length
  have hp := h2.part 0 (by simp) l rfl
  have h3 := h3 0 (by simp) l rfl
  simp only [List.getD_cons_zero, shape_ofFn] at hp h3
  obtain ⟨a, rfl⟩ : ∃ a, start = [a] := List.length_eq_one_iff.1 hs
  obtain ⟨c, rfl⟩ : ∃ c, cut = [c] := List.length_eq_one_iff.1 hc
  simp only [List.getD_cons_zero] at hp h3
  obtain ⟨hp1, rfl⟩ := hp
  intro h
  have hin : InB [c] [0] := ⟨hl, trivial⟩
  have hget := congrArg (fun r : Except Err (Tensor ℚ) => match r with | .ok t => t.get [0] | .error _ => 0) h
  simp only [cropped] at hget
  rw [get_ofFn hin, get_ofFn hin] at hget
  simp only [List.zipWith_cons_cons, List.zipWith_nil_right, Nat.zero_add] at hget
  rw [get_ofFn (show InB [n] [a] from ⟨by omega, trivial⟩), get_ofFn (show InB [n] [n - c] from ⟨by omega, trivial⟩)] at hget
  simp only [List.headD_cons] at hget
  have : a = n - c := by exact_mod_cast hget
  omega

/-! ## C82: noise -/

/-- the outcomes of Poisson variables: rate zero has the only outcome zero -/
def PoissonDraws (pois : List Nat → ℝ → Nat) : Prop := ∀ ix, pois ix 0 = 0

theorem sqrt_sq_abs (sigma : ℝ) : (sigma ^ 2) ^ (1 / 2 : ℝ) = |sigma| := by
  rw [← Real.sqrt_eq_rpow, Real.sqrt_sq_eq_abs]

theorem iadd_ofFn_ofFn (S : List Nat) (u v : List Nat → ℝ) : (ofFn S u).iadd (ofFn S v) = .ok (ofFn S fun ix => u ix + v ix) := by
  simp only [Tensor.iadd, shape_ofFn, bcastable_self, if_true]
  congr 1
  apply ofFn_congr
  intro ix hix
  rw [bidx_self hix, get_ofFn hix, get_ofFn hix]

/-- **C82.** Gaussian noise: for every outcome of the draws each entry is the entry of `x` plus `|sigma|` times the draw. -/
theorem C82_gauss (gauss : List Nat → ℝ) (x : Tensor ℝ) (sigma : ℝ) :
    addGauss gauss x sigma = .ok (ofFn x.shape fun ix => x.get ix + |sigma| * gauss ix) := by
  have h := iadd_ofFn_ofFn x.shape (fun ix => gauss ix * (sigma ^ 2) ^ (1 / 2 : ℝ)) x.get
  rw [← x.eq_ofFn_get] at h
  simp only [addGauss, map_ofFn, h]
  congr 1
  apply ofFn_congr
  intro ix _
  rw [sqrt_sq_abs, add_comm, mul_comm]

/-- **C82**: no noise for `sigma = 0`. -/
theorem C82_gauss_zero (gauss : List Nat → ℝ) (x : Tensor ℝ) : addGauss gauss x 0 = .ok x := by
  rw [C82_gauss]
  congr 1
  conv_rhs => rw [x.eq_ofFn_get]
  simp

theorem poisson_ok {pois : List Nat → ℝ → Nat} {rate : Tensor ℝ} (h : ∀ ix, InB rate.shape ix → 0 ≤ rate.get ix) :
    torchPoisson pois rate = .ok (ofFn rate.shape fun ix => (pois ix (rate.get ix) : ℝ)) := by
  rw [torchPoisson, if_neg]
  rw [rate.data_eq_map_get]
  simp only [List.any_map, List.any_eq_true, Function.comp, decide_eq_true_eq, not_exists, not_and, not_lt]
  intro ix hix
  exact h ix (mem_indices.1 hix)

/-- **C82.** Poisson-Gaussian noise of values with the sign of `k`: each entry is `k` times the Poisson draw with rate `x / k` plus
`|sigma|` times the Gaussian draw. -/
theorem C82_poisson_gauss (pois : List Nat → ℝ → Nat) (gauss : List Nat → ℝ) (x : Tensor ℝ) {k : ℝ} (_hk : k ≠ 0) (sigma : ℝ)
    (hx : ∀ ix, InB x.shape ix → 0 ≤ x.get ix / k) :
    addPoissonGauss pois gauss x k sigma = .ok (ofFn x.shape fun ix => k * pois ix (x.get ix / k) + |sigma| * gauss ix) := by
  have hmap : x.map (fun v => v / k) = ofFn x.shape fun ix => x.get ix / k := by
    conv_lhs => rw [x.eq_ofFn_get, map_ofFn]
  have hp := poisson_ok (pois := pois) (rate := ofFn x.shape fun ix => x.get ix / k) (by
    intro ix hix
    rw [get_ofFn (by simpa using hix)]
    exact hx ix (by simpa using hix))
  have hp2 : torchPoisson pois (ofFn x.shape fun ix => x.get ix / k) = .ok (ofFn x.shape fun ix => (pois ix (x.get ix / k) : ℝ)) := by
    rw [hp]
    congr 1
    apply ofFn_congr
    intro ix hix
    rw [get_ofFn (by simpa using hix)]
  simp only [addPoissonGauss, hmap, hp2, bind, Except.bind, map_ofFn, iadd_ofFn_ofFn]
  congr 1
  apply ofFn_congr
  intro ix _
  rw [sqrt_sq_abs, mul_comm k, mul_comm |sigma|]

/-- **C82**: zeros get no Poisson noise. -/
theorem C82_poisson_zero {pois : List Nat → ℝ → Nat} (hpo : PoissonDraws pois) (gauss : List Nat → ℝ) (x : Tensor ℝ) {k : ℝ} (hk : k ≠ 0) (sigma : ℝ)
    (hx : ∀ ix, InB x.shape ix → 0 ≤ x.get ix / k) {ix : List Nat} (hix : InB x.shape ix) (h0 : x.get ix = 0) :
    ∃ t, addPoissonGauss pois gauss x k sigma = .ok t ∧ t.get ix = |sigma| * gauss ix := by
  refine ⟨_, C82_poisson_gauss pois gauss x hk sigma hx, ?_⟩
  rw [get_ofFn hix, h0, zero_div, hpo ix]
  simp

/-- **C82**: values of the opposite sign of `k` are rejected. -/
theorem C82_poisson_rejects (pois : List Nat → ℝ → Nat) (gauss : List Nat → ℝ) (x : Tensor ℝ) {k : ℝ} (_hk : k ≠ 0) (sigma : ℝ) {ix : List Nat}
    (hix : InB x.shape ix) (h : x.get ix / k < 0) : addPoissonGauss pois gauss x k sigma = .error .runtime := by
  have hmap : x.map (fun v => v / k) = ofFn x.shape fun ix => x.get ix / k := by
    conv_lhs => rw [x.eq_ofFn_get, map_ofFn]
  have : torchPoisson pois (x.map fun v => v / k) = .error .runtime := by
    rw [torchPoisson, if_pos]
    rw [hmap]
    simp only [ofFn, List.any_map, List.any_eq_true, Function.comp, decide_eq_true_eq]
    exact ⟨ix, mem_indices.2 hix, h⟩
  simp only [addPoissonGauss, this, bind, Except.bind]

/-! ## concrete cases -/

/-- C67: cropping two of three axes of a 2 x 5 x 4 tensor, the last one to size 3, with draws 1 and 0 -/
example : randomCrop (fun k h => if k = 0 then 1 % h else 0) (ofFn [2, 5, 4] fun ix => ((20 * ix.getD 0 0 + 4 * ix.getD 1 0 + ix.getD 2 0 : Nat) : ℚ))
    (.slice (.from 1)) (Given.toPy pySize (.many [some 2, some 3])) =
    .ok (cropped (ofFn [2, 5, 4] fun ix => ((20 * ix.getD 0 0 + 4 * ix.getD 1 0 + ix.getD 2 0 : Nat) : ℚ)) [0, 1, 0] [2, 2, 3]) := by
  decide +kernel

/-- C67: the hypotheses hold for this call, for all draws -/
example (d : Nat → Nat → Nat) (hd : GoodDraw d) (x : Tensor ℚ) (hx : x.shape = [2, 5, 4]) : ∃ start cut,
    randomCrop d x (.slice (.from 1)) (Given.toPy pySize (.many [some 2, none])) = .ok (cropped x start cut) ∧
      IsWindow x.shape [1, 2] (Given.entry none (.many [some 2, none])) start cut := by
  obtain ⟨start, cut, h1, h2, _⟩ := C67_random_crop (x := x) (ax := .slice (.from 1)) (axes := [1, 2]) (g := .many [some 2, none]) hd
    (by simp only [Tensor.ndim, hx]; decide) (by simp) (by simp) rfl (by
      intro i hi l h
      rw [hx]
      have hi : i = 0 ∨ i = 1 := by simp at hi; omega
      rcases hi with rfl | rfl
      · cases h; decide
      · cases h)
  exact ⟨start, cut, h1, h2⟩

/-- C82: noise on a row of two pixels -/
example (pois : List Nat → ℝ → Nat) (gauss : List Nat → ℝ) : addPoissonGauss pois gauss (Tensor.vec [0, 3]) 2 (-1) =
    .ok (ofFn [2] fun ix => 2 * pois ix ((Tensor.vec [0, 3]).get ix / 2) + |(-1 : ℝ)| * gauss ix) :=
  C82_poisson_gauss pois gauss (Tensor.vec [0, 3]) two_ne_zero (-1) (by
    intro ix hix
    have : ix = [0] ∨ ix = [1] := by
      cases ix with
      | nil => exact hix.elim
      | cons i ix =>
        have h1 : i < 2 := hix.1
        have h2 : ix = [] := by cases ix with | nil => rfl | cons a l => exact hix.2.elim
        subst h2
        have : i = 0 ∨ i = 1 := by omega
        rcases this with rfl | rfl <;> simp
    rcases this with rfl | rfl <;> norm_num [Tensor.vec, Tensor.get, ravel, numel])

end TI
