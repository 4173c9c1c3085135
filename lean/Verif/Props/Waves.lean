import Verif.Proofs.Waves
import Verif.Props.SharpenSym
import Verif.Props.Roll

/-!
# Filtering waves (C124)
-/

set_option linter.unusedSectionVars false

namespace TI
open Tensor Spec

section
variable {α : Type} [Field α] [LinearOrder α] [IsStrictOrderedRing α] {x : Tensor α} {pool : SepPool α} {g : Given (List α)} {m : Nat} {gp : PadArgs α}
  {ax : Axes} {axes : List Nat} {p : Padder α}

/-- **C124**: if, along every filtered axis, the image follows a sequence that the padding mode continues and that the kernel multiplies by a number,
then the filter multiplies the image by the product of these numbers, at the border as well as inside. -/
theorem C124_eigen (hb : Built pool (PoolArgs.filter g) m) (hm : g.isMany = true → axes.length = m) (hc : SameCall (PoolArgs.filter g) gp x ax axes)
    (hp : Holds p gp) (hw : ∀ i < axes.length, g.entry [] i ≠ []) {γ : Nat → α} {F : Nat → Int → α}
    (hF : ∀ i < axes.length, ContinuedBy (x.shape.getD (axes.getD i 0) 0) (F (axes.getD i 0)) (gp.mode.entry .unknown i))
    (hx : ∀ a ∈ axes, Follows x a (F a))
    (hg : ∀ i < axes.length, ∀ z : Nat, z < x.shape.getD (axes.getD i 0) 0 →
      response (g.entry [] i) (F (axes.getD i 0)) z = γ (axes.getD i 0) * F (axes.getD i 0) z) (junk : List Nat → α) :
    ∃ q, SepPool.forward pool (some p) junk x ax = (q, .ok (x.map fun v => (axes.map γ).prod * v)) := by
  have hm' : (PoolArgs.filter g).isMany = true → axes.length = m := by rw [filter_isMany]; exact hm
  refine ⟨_, Prod.ext rfl ?_⟩
  rw [hb.poolIs.1.forward_same hc hm' hp junk]
  obtain ⟨h1, h2⟩ := filtered_follows hc hF hx hw hg
  change Except.ok (filtered g gp x axes) = _
  congr 1
  refine ext_get h1 ?_
  intro ix hix
  rw [h1] at hix
  rw [h2 ix hix, get_map _ _ hix]

/-- **C124**: along one axis, with any kernel: the image follows the sequence, the filtered image follows the answer of the kernel to it. -/
theorem C124_response {a : Nat} {w : List α} (hb : Built pool (PoolArgs.filter (.one w)) m) (hc : SameCall (PoolArgs.filter (.one w)) gp x ax [a])
    (hp : Holds p gp) (hw : w ≠ []) {F : Int → α} (hF : ContinuedBy (x.shape.getD a 0) F (gp.mode.entry .unknown 0)) {A : List Nat → α}
    (hx : ∀ ix, InB x.shape ix → x.get ix = A (ix.set a 0) * F (ix.getD a 0)) (junk : List Nat → α) :
    ∃ q z, SepPool.forward pool (some p) junk x ax = (q, .ok z) ∧ z.shape = x.shape ∧
      ∀ ix, InB x.shape ix → z.get ix = A (ix.set a 0) * response w F (ix.getD a 0) :=
  ⟨_, filtered (.one w) gp x [a], hb.poolIs.1.forward_same hc (by intro h; cases h) hp junk,
    filtered_response hc hF hw hx⟩

end

section
variable {x : Tensor ℝ} {pool : SepPool ℝ} {g : Given (List ℝ)} {m : Nat} {gp : PadArgs ℝ} {ax : Axes} {axes : List Nat} {p : Padder ℝ} {w : List ℝ} {θ φ : ℝ}

/-- **C124**: the waves that the padding modes continue: whole periods on the ring for `circular`; whole half periods, with a crest (`symmetric`) or a
zero (`antisymmetric`) half a sample outside the first and the last sample; with a crest (`reflect`) or a zero (`odd_reflect`) at the first and last sample. -/
theorem C124_modes (n : Nat) (hn : 0 < n) (k : Int) :
    (∀ φ, ContinuedBy n (wave (2 * Real.pi * k / n) φ) .circular) ∧
    ContinuedBy n (wave (Real.pi * k / n) (Real.pi * k / n / 2)) .symmetric ∧
    ContinuedBy n (wave (Real.pi * k / n) (Real.pi * k / n / 2 - Real.pi / 2)) .antisymmetric ∧
    (2 ≤ n → ContinuedBy n (wave (Real.pi * k / ((n : ℝ) - 1)) 0) .reflect ∧
      ContinuedBy n (wave (Real.pi * k / ((n : ℝ) - 1)) (-(Real.pi / 2))) .oddReflect) := by
  have hn' : (n : ℝ) ≠ 0 := by exact_mod_cast hn.ne'
  have turn : ∀ a b : ℝ, b = a + (k : ℝ) * (2 * Real.pi) → Real.cos b = Real.cos a := by
    rintro a b rfl
    exact Real.cos_add_int_mul_two_pi a k
  have flip : ∀ a b : ℝ, b = -a → Real.cos b = Real.cos a := by
    rintro a b rfl
    exact Real.cos_neg a
  have half : ∀ a b : ℝ, b = -a - Real.pi → Real.cos b = -Real.cos a := by
    rintro a b rfl
    rw [Real.cos_sub_pi, Real.cos_neg]
  refine ⟨fun φ z => turn _ _ ?_, ⟨fun z => flip _ _ ?_, fun z => turn _ _ ?_⟩, ⟨fun z => half _ _ ?_, fun z => turn _ _ ?_⟩, fun h2 => ?_⟩
  · push_cast; field_simp; ring
  · push_cast; ring
  · push_cast; field_simp; ring
  · push_cast; ring
  · push_cast; field_simp; ring
  · have hn1 : (n : ℝ) - 1 ≠ 0 := by
      have : (2 : ℝ) ≤ n := by exact_mod_cast h2
      linarith
    refine ⟨⟨h2, fun z => flip _ _ ?_, fun z => turn _ _ ?_⟩, h2, fun z => half _ _ ?_, fun z => turn _ _ ?_⟩
    · push_cast; ring
    · push_cast; field_simp; ring
    · push_cast; ring
    · push_cast; field_simp; ring

/-- **C124**: kernels of odd length that read the same backwards multiply such waves by their gain, whatever the number of axes. -/
theorem C124_wave (hb : Built pool (PoolArgs.filter g) m) (hm : g.isMany = true → axes.length = m) (hc : SameCall (PoolArgs.filter g) gp x ax axes)
    (hp : Holds p gp) {θ φ : Nat → ℝ} (hw : ∀ i < axes.length, (g.entry [] i).reverse = g.entry [] i ∧ (g.entry [] i).length % 2 = 1)
    (hF : ∀ i < axes.length, ContinuedBy (x.shape.getD (axes.getD i 0) 0) (wave (θ i) (φ i)) (gp.mode.entry .unknown i))
    (hx : ∀ i < axes.length, Follows x (axes.getD i 0) (wave (θ i) (φ i))) (junk : List Nat → ℝ) :
    ∃ q, SepPool.forward pool (some p) junk x ax =
      (q, .ok (x.map fun v => ((List.range axes.length).map fun i => waveGain (g.entry [] i) (θ i)).prod * v)) := by
  have hidx : ∀ i < axes.length, axes.idxOf (axes.getD i 0) = i := by
    intro i hi
    have : axes.getD i 0 = axes[i] := by simp [hi]
    rw [this, hc.nodup.idxOf_getElem]
  have h := C124_eigen hb hm hc hp (fun i hi h => by have := (hw i hi).2; rw [h] at this; exact absurd this (by decide))
    (γ := fun a => waveGain (g.entry [] (axes.idxOf a)) (θ (axes.idxOf a))) (F := fun a => wave (θ (axes.idxOf a)) (φ (axes.idxOf a)))
    (by intro i hi; simp only [hidx i hi]; exact hF i hi)
    (by
      intro a ha
      have := hx (axes.idxOf a) (List.idxOf_lt_length_iff.2 ha)
      have e : axes.getD (axes.idxOf a) 0 = a := by simp [List.getD, List.getElem?_eq_getElem (List.idxOf_lt_length_iff.2 ha)]
      rwa [e] at this)
    (by
      intro i hi z _
      simp only [hidx i hi]
      rw [response_wave, quadrature_symmetric (hw i hi).1 (hw i hi).2, zero_mul, sub_zero]
      rfl) junk
  have e : axes.map (fun a => waveGain (g.entry [] (axes.idxOf a)) (θ (axes.idxOf a))) =
      (List.range axes.length).map fun i => waveGain (g.entry [] i) (θ i) := by
    apply List.ext_getElem (by simp)
    intro i h1 h2
    have hi : i < axes.length := by simpa using h2
    have := hidx i hi
    rw [show axes.getD i 0 = axes[i] by simp [hi]] at this
    simp [this]
  rw [e] at h
  exact h

/-- **C124**: any kernel turns such a wave into a wave of the same period: its two parts are the wave times the gain and the wave a quarter period
later times another number. -/
theorem C124_phase {a : Nat} (hb : Built pool (PoolArgs.filter (.one w)) m) (hc : SameCall (PoolArgs.filter (.one w)) gp x ax [a]) (hp : Holds p gp)
    (hw : w ≠ []) (hF : ContinuedBy (x.shape.getD a 0) (wave θ φ) (gp.mode.entry .unknown 0)) {A : List Nat → ℝ}
    (hx : ∀ ix, InB x.shape ix → x.get ix = A (ix.set a 0) * Real.cos (θ * (ix.getD a 0 : Nat) + φ)) (junk : List Nat → ℝ) :
    ∃ q z, SepPool.forward pool (some p) junk x ax = (q, .ok z) ∧ z.shape = x.shape ∧
      ∀ ix, InB x.shape ix → z.get ix = A (ix.set a 0) *
        (waveGain w θ * Real.cos (θ * (ix.getD a 0 : Nat) + φ) - quadrature w θ * Real.sin (θ * (ix.getD a 0 : Nat) + φ)) := by
  obtain ⟨q, z, e1, e2, e3⟩ := C124_response hb hc hp hw hF (A := A) (by
    intro ix hix
    rw [hx ix hix]
    simp [wave]) junk
  refine ⟨q, z, e1, e2, fun ix hix => ?_⟩
  rw [e3 ix hix, response_wave]
  simp

/-- **C124**: for kernels of odd length that read the same backwards nothing is a quarter period late; if the entries change their signs when read
backwards, everything is. -/
theorem C124_parity (ho : w.length % 2 = 1) (θ : ℝ) :
    (w.reverse = w → quadrature w θ = 0) ∧ (w.reverse = w.map (fun v => -v) → waveGain w θ = 0) :=
  ⟨fun h => quadrature_symmetric h ho θ, fun h => gain_antisymmetric h ho θ⟩

/-- **C124**: the size of the answer is at most the sum of the sizes of the weights, so averages do not amplify waves. -/
theorem C124_bound (w : List ℝ) (θ : ℝ) : waveGain w θ ^ 2 + quadrature w θ ^ 2 ≤ (w.map fun v => |v|).sum ^ 2 ∧
    (IsAverage w → |waveGain w θ| ≤ 1) := by
  refine ⟨gain_bound w θ, fun h => ?_⟩
  have h1 := gain_bound w θ
  have e : (w.map fun v => |v|) = w := by
    conv_rhs => rw [← List.map_id w]
    exact List.map_congr_left fun v hv => abs_of_nonneg (h.1 v hv)
  rw [e, h.2, one_pow] at h1
  rw [← abs_one, ← sq_le_sq]
  nlinarith [sq_nonneg (quadrature w θ)]

/-- the angle is a whole number of turns per sample -/
theorem gain_zero (w : List ℝ) : waveGain w 0 = w.sum := by
  have := sum_getD_range w id
  simp only [id_eq, List.map_id] at this
  rw [waveGain, ← this]
  simp

/-- **C124**: averages with positive weights strictly damp every wave that is not constant on the samples, and keep the constant ones. -/
theorem C124_damped (h : IsAverage w) (hpos : ∀ v ∈ w, 0 < v) (h2 : 2 ≤ w.length) :
    (Real.cos θ ≠ 1 → |waveGain w θ| < 1) ∧ (Real.cos θ = 1 → waveGain w θ = 1) := by
  have hget : ∀ j < w.length, 0 < w.getD j 0 := by
    intro j hj
    have : w.getD j 0 = w[j] := by simp [hj]
    rw [this]
    exact hpos _ (List.getElem_mem hj)
  have hsum : ∑ j ∈ Finset.range w.length, w.getD j 0 = 1 := by
    have := sum_getD_range w id
    simp only [id_eq, List.map_id] at this
    rw [← list_sum_range, this, h.2]
  constructor
  · intro hθ
    rw [abs_lt]
    constructor
    · rw [waveGain, list_sum_range, ← hsum, ← Finset.sum_neg_distrib]
      apply Finset.sum_lt_sum
      · intro j hj
        nlinarith [hget j (Finset.mem_range.1 hj), Real.neg_one_le_cos (θ * ((j : ℝ) - (w.length / 2 : Nat)))]
      · refine ⟨w.length / 2, Finset.mem_range.2 (by omega), ?_⟩
        rw [sub_self, mul_zero, Real.cos_zero]
        linarith [hget (w.length / 2) (by omega)]
    · rw [waveGain, list_sum_range, ← hsum]
      apply Finset.sum_lt_sum
      · intro j hj
        nlinarith [hget j (Finset.mem_range.1 hj), Real.cos_le_one (θ * ((j : ℝ) - (w.length / 2 : Nat)))]
      · refine ⟨w.length / 2 - 1, Finset.mem_range.2 (by omega), ?_⟩
        have e : θ * (((w.length / 2 - 1 : Nat) : ℝ) - ((w.length / 2 : Nat) : ℝ)) = -θ := by
          rw [Nat.cast_sub (by omega)]; push_cast; ring
        rw [e, Real.cos_neg]
        have := lt_of_le_of_ne (Real.cos_le_one θ) hθ
        nlinarith [hget (w.length / 2 - 1) (by omega)]
  · intro hθ
    rw [Real.cos_eq_one_iff] at hθ
    obtain ⟨k, rfl⟩ := hθ
    rw [waveGain, list_sum_range, ← hsum]
    apply Finset.sum_congr rfl
    intro j _
    have e : (k : ℝ) * (2 * Real.pi) * ((j : ℝ) - ((w.length / 2 : Nat) : ℝ)) = 0 + ((k * ((j : Int) - ((w.length / 2 : Nat) : Int)) : Int) : ℝ) * (2 * Real.pi) := by
      simp only [Int.cast_mul, Int.cast_sub, Int.cast_natCast]; ring
    rw [e, Real.cos_add_int_mul_two_pi, Real.cos_zero, mul_one]

/-- **C124**: the gain of the average of an odd number of samples. -/
theorem C124_box {k : Nat} (hk : k % 2 = 1) (θ : ℝ) : k * waveGain (avgKernel k) θ * Real.sin (θ / 2) = Real.sin (k * θ / 2) := by
  have hk0 : (k : ℝ) ≠ 0 := by
    have : k ≠ 0 := by omega
    exact_mod_cast this
  have hc : (k : ℝ) = 2 * ((k / 2 : Nat) : ℝ) + 1 := by
    have : k = 2 * (k / 2) + 1 := by omega
    exact_mod_cast this
  have hg : k * waveGain (avgKernel k) θ = ∑ j ∈ Finset.range k, Real.cos (θ * ((j : ℝ) - (k / 2 : Nat))) := by
    rw [waveGain, list_sum_range, Finset.mul_sum]
    simp only [avgKernel, List.length_replicate]
    apply Finset.sum_congr rfl
    intro j hj
    have hj := Finset.mem_range.1 hj
    simp only [List.getD, List.getElem?_replicate, hj, if_true, Option.getD_some]
    field_simp
  have tel : ∀ n : Nat, 2 * Real.sin (θ / 2) * ∑ j ∈ Finset.range n, Real.cos (θ * ((j : ℝ) - (k / 2 : Nat))) =
      Real.sin (θ * ((n : ℝ) - (k / 2 : Nat)) - θ / 2) - Real.sin (θ * (0 - (k / 2 : Nat)) - θ / 2) := by
    intro n
    induction n with
    | zero => simp
    | succ n ih =>
      rw [Finset.sum_range_succ, mul_add, ih]
      have : Real.sin (θ * (((n + 1 : Nat) : ℝ) - (k / 2 : Nat)) - θ / 2) - Real.sin (θ * ((n : ℝ) - (k / 2 : Nat)) - θ / 2) =
          2 * Real.sin (θ / 2) * Real.cos (θ * ((n : ℝ) - (k / 2 : Nat))) := by
        rw [show θ * (((n + 1 : Nat) : ℝ) - (k / 2 : Nat)) - θ / 2 = θ * ((n : ℝ) - (k / 2 : Nat)) + θ / 2 by push_cast; ring, Real.sin_add, Real.sin_sub]
        ring
      linarith
  have h := tel k
  rw [show θ * ((k : ℝ) - (k / 2 : Nat)) - θ / 2 = k * θ / 2 by rw [hc]; ring,
    show θ * (0 - ((k / 2 : Nat) : ℝ)) - θ / 2 = -(k * θ / 2) by rw [hc]; ring, Real.sin_neg] at h
  rw [hg]
  linarith

/-- **C124**: the average of `k` samples, `k` odd, removes every wave that makes a whole number of turns, not one turn per sample, in `k` samples. -/
theorem C124_box_zero {k : Nat} (hk : k % 2 = 1) (i : Int) (hi : ¬ (k : Int) ∣ i) : waveGain (avgKernel k) (2 * Real.pi * i / k) = 0 := by
  have hk0 : (k : ℝ) ≠ 0 := by
    have : k ≠ 0 := by omega
    exact_mod_cast this
  have h := C124_box hk (2 * Real.pi * i / k)
  rw [show (k : ℝ) * (2 * Real.pi * i / k) / 2 = i * Real.pi by field_simp, Real.sin_int_mul_pi] at h
  rcases mul_eq_zero.1 h with h1 | h1
  · exact (mul_eq_zero.1 h1).resolve_left hk0
  · exfalso
    obtain ⟨j, hj⟩ := Real.sin_eq_zero_iff.1 h1
    apply hi
    refine ⟨j, ?_⟩
    have hpi := Real.pi_pos.ne'
    field_simp at hj
    have : (i : ℝ) = k * j := by
      rw [← hj]; ring
    exact_mod_cast this

/-- **C124**: unsharp masking without a threshold multiplies these waves by one plus `amount` times what the blur takes away. -/
theorem C124_sharpen {g : PoolArgs ℝ} {amount threshold : ℝ} {u : UnsharpMask ℝ} (hb : Built pool g m) (ht : threshold ≤ 0)
    (hu : UnsharpMask.init pool amount threshold = .ok u) (hc : SharpenCall g.kernel m gp x ax axes) (hp : Holds p gp) {γ : Nat → ℝ} {F : Nat → Int → ℝ}
    (hw : ∀ i < axes.length, g.kernel.entry [] i ≠ [])
    (hF : ∀ i < axes.length, ContinuedBy (x.shape.getD (axes.getD i 0) 0) (F (axes.getD i 0)) (gp.mode.entry .unknown i))
    (hx : ∀ a ∈ axes, Follows x a (F a))
    (hg : ∀ i < axes.length, ∀ z : Nat, z < x.shape.getD (axes.getD i 0) 0 →
      response (g.kernel.entry [] i) (F (axes.getD i 0)) z = γ (axes.getD i 0) * F (axes.getD i 0) z) (junk : List Nat → ℝ) :
    ∃ q, u.forward (some p) junk x ax = (q, .ok (x.map fun v => (1 + amount * (1 - (axes.map γ).prod)) * v)) := by
  obtain ⟨q, e⟩ := unsharp_form hb hu hc hp junk
  refine ⟨q, ?_⟩
  rw [e]
  obtain ⟨_, h2⟩ := filtered_follows hc.call hF hx hw hg
  congr 2
  refine ext_get rfl ?_
  intro ix hix
  rw [sharpenedImage, get_ofFn (show InB x.shape ix from hix), get_map _ _ (show InB x.shape ix from hix), C45_threshold_nonpos amount ht, h2 ix hix]
  ring

end

/-! ## Concrete cases -/

namespace WavesExample

/-- a ring along axis 0, mirrors along axis 1 -/
noncomputable def walls : PadArgs ℝ := ⟨.one (0, 0), .many [.circular, .symmetric], .one (0, 0), .one (0, 0), .one (none, none)⟩

noncomputable def angle : Nat → ℝ
  | 0 => 2 * Real.pi * (1 : Int) / (8 : Nat)
  | _ => Real.pi * (2 : Int) / (5 : Nat)

noncomputable def start : Nat → ℝ
  | 0 => 7
  | _ => Real.pi * (2 : Int) / (5 : Nat) / 2

/-- eight by five samples: one period around the ring, two half periods between the mirrors -/
noncomputable def picture : Tensor ℝ := ofFn [8, 5] fun ix => wave (angle 0) (start 0) (ix.getD 0 0 : Nat) * wave (angle 1) (start 1) (ix.getD 1 0 : Nat)

theorem call {n : Nat} {w : List ℝ} {ax : Axes} (h : axesOf 2 ax = some [0, 1]) :
    SameCall (PoolArgs.filter (.one w)) walls (ofFn [8, 5] fun ix => (n : ℝ) * picture.get ix) ax [0, 1] where
  axes_eq := h
  ne := by decide
  nodup := by decide
  fits := by intro h; cases h
  rest := ⟨rfl, trivial, trivial, trivial⟩
  stride := by intro i _; exact Nat.one_pos
  pos := by intro a ha; change 0 < [8, 5].getD a 0; revert a; decide
  valued := by
    intro o ho _
    obtain ⟨i, hi, rfl⟩ := sameOps_mem ho
    obtain rfl | rfl : i = 0 ∨ i = 1 := by simp at hi; omega
    all_goals exact ⟨by simp [sameSetting, AxisPad.rule?, walls, Given.entry], by simp [sameSetting, walls, Given.entry]⟩

theorem continued {i : Nat} (hi : i < [0, 1].length) : ContinuedBy ([8, 5].getD ([0, 1].getD i 0) 0) (wave (angle i) (start i)) (walls.mode.entry .unknown i) := by
  obtain rfl | rfl : i = 0 ∨ i = 1 := by simp at hi; omega
  · exact (C124_modes 8 (by decide) 1).1 7
  · exact (C124_modes 5 (by decide) 2).2.1

theorem follows {n : Nat} {i : Nat} (hi : i < [0, 1].length) :
    Follows (ofFn [8, 5] fun ix => (n : ℝ) * picture.get ix) ([0, 1].getD i 0) (wave (angle i) (start i)) := by
  have hget : ∀ ix, InB [8, 5] ix → picture.get ix = wave (angle 0) (start 0) (ix.getD 0 0 : Nat) * wave (angle 1) (start 1) (ix.getD 1 0 : Nat) :=
    fun ix hix => get_ofFn hix
  obtain rfl | rfl : i = 0 ∨ i = 1 := by simp at hi; omega
  · refine ⟨fun ix => n * wave (angle 1) (start 1) (ix.getD 1 0 : Nat), fun ix hix => ?_⟩
    rw [get_ofFn (show InB [8, 5] ix from hix), hget ix hix]
    simp only [show [0, 1].getD 0 0 = 0 from rfl]
    rw [getD_set_ne _ _ _ _ _ (by decide)]
    ring
  · refine ⟨fun ix => n * wave (angle 0) (start 0) (ix.getD 0 0 : Nat), fun ix hix => ?_⟩
    rw [get_ofFn (show InB [8, 5] ix from hix), hget ix hix]
    simp only [show [0, 1].getD 1 0 = 1 from rfl]
    rw [getD_set_ne _ _ _ _ _ (by decide)]
    ring

/-- the kernel 1/4, 1/2, 1/4 has the gain (1 + cos θ) / 2 -/
theorem gain_binomial (θ : ℝ) : waveGain [1 / 4, 1 / 2, 1 / 4] θ = (1 + Real.cos θ) / 2 := by
  simp [waveGain, List.range_succ]
  rw [show θ * (2 - 1) = θ by ring]
  ring

/-- filtering the picture with the kernel 1/4, 1/2, 1/4 along both axes -/
example {pool : SepPool ℝ} (hb : Built pool (PoolArgs.filter (.one [1 / 4, 1 / 2, 1 / 4])) 1) {n : Nat} (junk : List Nat → ℝ) :
    ∃ q, SepPool.forward pool (some (walls.padder 2)) junk (ofFn [8, 5] fun ix => (n : ℝ) * picture.get ix) .none =
      (q, .ok ((ofFn [8, 5] fun ix => (n : ℝ) * picture.get ix).map fun v =>
        ((1 + Real.cos (angle 0)) / 2) * ((1 + Real.cos (angle 1)) / 2) * v)) := by
  have h := C124_wave hb (by intro h; cases h) (call (n := n) (ax := .none) rfl) (holds_padder walls 2) (fun _ _ => ⟨by simp [Given.entry], by simp [Given.entry]⟩) (fun _ hi => continued hi)
    (fun _ hi => follows hi) junk
  simpa only [List.length_cons, List.length_nil, List.range_succ, List.range_zero, List.nil_append, List.cons_append, List.map_cons, List.map_nil,
    List.prod_cons, List.prod_nil, mul_one, Given.entry, gain_binomial] using h

/-- sharpening the picture with amount 2 -/
example {pool : SepPool ℝ} (hb : Built pool (PoolArgs.filter (.one [1 / 4, 1 / 2, 1 / 4])) 1) {u : UnsharpMask ℝ} (hu : UnsharpMask.init pool 2 0 = .ok u) {n : Nat}
    (junk : List Nat → ℝ) :
    ∃ q, u.forward (some (walls.padder 2)) junk (ofFn [8, 5] fun ix => (n : ℝ) * picture.get ix) .none =
      (q, .ok ((ofFn [8, 5] fun ix => (n : ℝ) * picture.get ix).map fun v =>
        (1 + 2 * (1 - ([0, 1].map fun a => (1 + Real.cos (angle a)) / 2).prod)) * v)) := by
  have two : ∀ i < [0, 1].length, [0, 1].getD i 0 = i := by
    intro i hi
    obtain rfl | rfl : i = 0 ∨ i = 1 := by simp at hi; omega
    all_goals rfl
  refine C124_sharpen hb le_rfl hu ⟨rfl, call rfl, (by intro h; cases h), ?_⟩ (holds_padder walls 2) (γ := fun a => (1 + Real.cos (angle a)) / 2)
    (F := fun a => wave (angle a) (start a)) (fun i _ h => by cases h) (fun i hi => ?_) (fun a ha => ?_) (fun i hi z _ => ?_) junk
  · intro i hi
    left
    obtain rfl | rfl : i = 0 ∨ i = 1 := by simp at hi; omega
    all_goals rfl
  · have := continued hi
    simp only [two i hi] at this ⊢
    exact this
  · obtain rfl | rfl : a = 0 ∨ a = 1 := by simpa using ha
    · exact follows (i := 0) (by decide)
    · exact follows (i := 1) (by decide)
  · simp only [two i hi]
    change response [1 / 4, 1 / 2, 1 / 4] _ _ = _
    rw [response_wave, gain_binomial, (C124_parity (w := [1 / 4, 1 / 2, 1 / 4]) rfl _).1 rfl]
    simp [wave]

/-- the central difference turns a wave around a ring into the wave a quarter period later, times the sine of the angle -/
example (θ : ℝ) : waveGain [-(1 / 2), 0, 1 / 2] θ = 0 ∧ quadrature [-(1 / 2), 0, 1 / 2] θ = Real.sin θ := by
  refine ⟨(C124_parity (w := [-(1 / 2), 0, 1 / 2]) rfl θ).2 (by simp), ?_⟩
  simp [quadrature, List.range_succ]
  rw [show θ * (2 - 1) = θ by ring]
  ring

noncomputable def ring : PadArgs ℝ := ⟨.one (0, 0), .one .circular, .one (0, 0), .one (0, 0), .one (none, none)⟩

/-- a kernel without symmetry on a ring of six samples -/
example {pool : SepPool ℝ} {w : List ℝ} (hw : w ≠ []) (hb : Built pool (PoolArgs.filter (.one w)) 1) (φ : ℝ) (junk : List Nat → ℝ) :
    ∃ q z, SepPool.forward pool (some (ring.padder 1)) junk (ofFn [6] fun ix => Real.cos (2 * Real.pi * (2 : Int) / (6 : Nat) * (ix.getD 0 0 : Nat) + φ)) .none = (q, .ok z) := by
  obtain ⟨q, z, h, _⟩ := C124_phase (a := 0) (A := fun _ => 1) (gp := ring) (ax := .none)
    (x := ofFn [6] fun ix => Real.cos (2 * Real.pi * (2 : Int) / (6 : Nat) * (ix.getD 0 0 : Nat) + φ)) hb
    ⟨⟨rfl, by decide, by decide, (fun h => by cases h), ⟨trivial, trivial, trivial, trivial⟩, fun i _ => Nat.one_pos,
      fun a ha => by obtain rfl : a = 0 := by simpa using ha
                     exact Nat.succ_pos 5⟩, by
      intro o ho _
      obtain ⟨i, _, rfl⟩ := sameOps_mem ho
      exact ⟨by simp [sameSetting, AxisPad.rule?, ring, Given.entry], by simp [sameSetting, ring, Given.entry]⟩⟩
    (holds_padder ring 1) hw ((C124_modes 6 (by decide) 2).1 φ) (by
      intro ix hix
      rw [get_ofFn (show InB [6] ix from hix), one_mul]) junk
  exact ⟨q, z, h⟩

/-- the average of three samples removes waves of period three -/
example : waveGain (avgKernel 3) (2 * Real.pi * (1 : Int) / (3 : Nat)) = 0 := C124_box_zero rfl 1 (by decide)

end WavesExample

end TI
