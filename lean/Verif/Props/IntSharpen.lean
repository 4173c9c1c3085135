import Verif.Props.IntEdges
import Verif.Props.SharpenSym
import Verif.Props.Integers

/-!
# Unsharp masking of images with integer entries: C135
-/

set_option linter.unusedSectionVars false

namespace TI
open Tensor Spec

section
variable {t : IntType}

theorem value_wrapped (n : ℤ) : t.value (BitVec.ofInt t.bits n) = wrapped t n := by
  rw [IntType.value, wrapped]
  split_ifs
  · exact BitVec.toInt_ofInt n
  · rw [BitVec.toNat_ofInt]
    have h : (0 : ℤ) < ((2 ^ t.bits : Nat) : ℤ) := by positivity
    rw [Int.toNat_of_nonneg (Int.emod_nonneg _ h.ne')]
    push_cast
    rfl

theorem wrapped_id (hb : 0 < t.bits) {n : ℤ} (h : Holdable t n) : wrapped t n = n := by
  rw [← value_wrapped, value_ofInt hb h]

theorem wrapped_holdable (n : ℤ) : Holdable t (wrapped t n) := by
  rw [← value_wrapped]
  exact value_holdable _

theorem wrapped_value (v : t.Word) : wrapped t (t.value v) = t.value v := by
  rw [← value_wrapped, ofInt_value]

end

section
variable {α : Type} [Field α] [LinearOrder α] [IsStrictOrderedRing α] [FloorRing α] {t : IntType}
variable {pool : SepPool α} {g : PoolArgs α} {m : Nat} {gp : PadArgs α} {p : Padder α} {padder q : Option (Padder α)} {X B : Tensor t.Word} {ax : Axes} {axes : List Nat}
variable {u : UnsharpMask α} {amount threshold : α}

theorem absWord_value (v : t.Word) : t.value (if t.value v < 0 then -v else v) = wrapped t |t.value v| := by
  split_ifs with h
  · rw [abs_of_neg h, ← value_wrapped]
    congr 1
    conv_lhs => rw [← ofInt_value v]
    exact (BitVec.ofInt_neg).symm
  · rw [abs_of_nonneg (not_lt.1 h), wrapped_value]

theorem ofInt_sub' (a b : ℤ) : (BitVec.ofInt t.bits a - BitVec.ofInt t.bits b : t.Word) = BitVec.ofInt t.bits (a - b) := by
  rw [sub_eq_add_neg, ← BitVec.ofInt_neg, ← BitVec.ofInt_add, ← sub_eq_add_neg]

/-- the result, given the blurred image -/
theorem unsharpWord_of_blur (hax : axesOf X.ndim ax = some axes) {junk : List Nat → t.Word} (hB : u.blur.forwardWord t padder junk X (.seq (castV axes)) = (q, .ok B))
    (hs : B.shape = X.shape) :
    ∃ z, u.forwardWord t padder junk X ax = (q, .ok z) ∧ z.shape = X.shape ∧ ∀ ix, InB X.shape ix → ∀ n : ℤ, B.get ix = BitVec.ofInt t.bits n →
      z.get ix = sharpenedInt t u.amount u.threshold (t.value (X.get ix)) n := by
  set y : Tensor t.Word := ofFn X.shape fun ix => X.get ix - B.get ix with hy
  set y' : Tensor t.Word := if 0 < u.threshold then y.map fun v => if ((t.value (if t.value v < 0 then -v else v) : ℤ) : α) < u.threshold then 0 else v else y with hy'
  have hys : y'.shape = X.shape := by rw [hy']; split_ifs <;> rfl
  have h1 := bop_same (f := fun a b : t.Word => a - b) (x := X) (y := B) hs.symm
  have h2 := bop_same (f := fun a b : α => a + b) (x := t.floats X) (y := (t.floats y').map fun v => u.amount * v) (by simpa [IntType.floats] using hys.symm)
  refine ⟨ofFn X.shape fun ix => (t.floats X).get ix + ((t.floats y').map fun v => u.amount * v).get ix, ?_, ?_, ?_⟩
  · simp only [UnsharpMask.forwardWord, (checkAxes_spec hax).1, hB, h1, ok_bind]
    exact congrArg _ h2
  · rfl
  · intro ix hix n hn
    have hd : t.value (X.get ix - B.get ix) = wrapped t (t.value (X.get ix) - n) := by
      conv_lhs => rw [hn, ← ofInt_value (X.get ix)]
      rw [ofInt_sub', value_wrapped]
    have hg : y'.get ix = if 0 < u.threshold ∧ ((wrapped t |wrapped t (t.value (X.get ix) - n)| : ℤ) : α) < u.threshold then 0 else X.get ix - B.get ix := by
      rw [hy']
      by_cases h0 : 0 < u.threshold
      · rw [if_pos h0, get_map _ _ (show InB y.shape ix from hix), hy, get_ofFn hix, absWord_value, hd]
        simp [h0]
      · rw [if_neg h0, if_neg (fun h => h0 h.1), hy, get_ofFn hix]
    rw [get_ofFn hix, IntType.floats, IntType.floats, get_map _ _ hix, get_map _ _ (show InB (y'.map fun v => ((t.value v : ℤ) : α)).shape ix from hys.symm ▸ hix),
      get_map _ _ (show InB y'.shape ix by rw [hys]; exact hix), hg, sharpenedInt]
    split_ifs with h
    · rw [value_zero]; simp
    · rw [hd]

theorem filteredInt_same_shape {g : Given (List α)} {x : Tensor α} (h : SharpenCall g m gp x ax axes) : (filteredInt (PoolArgs.filter g) gp x axes).shape = x.shape := by
  rw [filteredInt_shape g gp (rfl : x.shape = x.shape)]
  exact filtered_same_shape h

theorem filter_many {g : Given (List α)} (h : g.isMany = true → axes.length = m) : (PoolArgs.filter g).isMany = true → axes.length = m := by
  rw [filter_isMany]; exact h

/-- **C135.** Unsharp masking of an image of machine integers: the image is blurred with the weights without their digits after the point, the difference of image and
blurred image is taken modulo the size of the type, and so is its absolute value, which is compared with the threshold. -/
theorem C135_formula (hb : Built pool g m) (hu : UnsharpMask.init pool amount threshold = .ok u) (h : SharpenCall g.kernel m gp (numbers X) ax axes) (hp : Holds p gp)
    (hmode : ∀ i < axes.length, forWords (gp.mode.entry .unknown i)) (junk : List Nat → t.Word) :
    ∃ q z, u.forwardWord t (some p) junk X ax = (q, .ok z) ∧ z.shape = X.shape ∧ ∀ ix, InB X.shape ix →
      ∃ n : ℤ, (filteredInt (PoolArgs.filter g.kernel) gp (numbers X) axes).get ix = n ∧ z.get ix = sharpenedInt t amount threshold (t.value (X.get ix)) n := by
  obtain ⟨pool', e1, h1⟩ := hb.poolIs.1.toFilter
  simp only [UnsharpMask.init, e1, ok_bind] at hu
  cases hu
  obtain ⟨q, B, b1, b2⟩ := C133_same (Built.filter hb e1) (filter_many h.many) h.call hp hmode junk
  obtain ⟨z, z1, z2, z3⟩ := unsharpWord_of_blur (u := ⟨pool', amount, threshold⟩) h.axes_eq b1 (b2.1.trans (filteredInt_same_shape h))
  refine ⟨q, z, z1, z2, fun ix hix => ?_⟩
  obtain ⟨n, n1, n2⟩ := b2.2 ix
  exact ⟨n, n1, z3 ix hix n n2⟩

/-- **C135.** With integer weights and padding by copies, integer constants or reflections, the sharpened image of integers is that of its numbers wherever the difference
of image and blurred image and its size are numbers of the type. -/
theorem C135_exact (hbits : 0 < t.bits) (hb : Built pool g m) (hu : UnsharpMask.init pool amount threshold = .ok u) (h : SharpenCall g.kernel m gp (numbers X) ax axes) (hp : Holds p gp)
    (hmode : ∀ i < axes.length, FillsExactly gp i) (hw : ∀ i < axes.length, WholeWeights (g.kernel.entry [] i)) (junk : List Nat → t.Word) (junk' : List Nat → α) :
    ∃ q q' z z', u.forwardWord t (some p) junk X ax = (q, .ok z) ∧ u.forward (some p) junk' (numbers X) ax = (q', .ok z') ∧ z.shape = z'.shape ∧
      ∀ ix, InB X.shape ix → ∀ d : ℤ, (numbers X).get ix - (filtered g.kernel gp (numbers X) axes).get ix = (d : α) → Holdable t d → Holdable t |d| → z.get ix = z'.get ix := by
  obtain ⟨q, z, h1, h2, h3⟩ := C135_formula hb hu h hp (fun i hi => (hmode i hi).1) junk
  obtain ⟨q', h4⟩ := unsharp_form hb hu h hp junk'
  refine ⟨q, q', z, _, h1, h4, h2, fun ix hix d hd d1 d2 => ?_⟩
  obtain ⟨n, n1, n2⟩ := h3 ix hix
  have e : filteredInt (PoolArgs.filter g.kernel) gp (numbers X) axes = filtered g.kernel gp (numbers (α := α) X) axes := by
    rw [filteredInt, filtered, paddedInt, truncOps_id (g := PoolArgs.filter g.kernel) hw, padSeq_intOps_id (fun o ho => by
      obtain ⟨i, hi, rfl⟩ := sameOps_mem ho
      exact (hmode i hi).2)]
  rw [e] at n1
  have hv : (numbers (α := α) X).get ix = ((t.value (X.get ix) : ℤ) : α) := by rw [numbers, get_map _ _ hix]
  rw [n1, hv] at hd
  have hd' : t.value (X.get ix) - n = d := by exact_mod_cast hd
  rw [n2, sharpenedImage, get_ofFn (show InB (numbers (α := α) X).shape ix from hix), n1, hv, sharpenedInt, sharpened, hd', wrapped_id hbits d1, wrapped_id hbits d2]
  have ha : ((|d| : ℤ) : α) = |((t.value (X.get ix) : ℤ) : α) - (n : α)| := by rw [hd]; push_cast; rfl
  rw [ha, hd]
  by_cases h0 : 0 < threshold
  · simp [h0]
  · rw [if_neg (fun h => h0 h.1), if_neg (not_lt.2 ((not_lt.1 h0).trans (abs_nonneg _)))]

/-- **C135.** If the weights of the blur along one of the axes are all smaller than one, as those of all averages of at least two samples are, unsharp masking of an image
of integers does not look at neighbours at all: numbers of at least the threshold are multiplied by `1 + amount`, the others are kept. -/
theorem C135_brightens (hb : Built pool g m) (hu : UnsharpMask.init pool amount threshold = .ok u) (h : SharpenCall g.kernel m gp (numbers X) ax axes) (hp : Holds p gp)
    (hmode : ∀ i < axes.length, forIntegers (gp.mode.entry .unknown i) = true) (hs : ∃ i < axes.length, Small (g.kernel.entry [] i)) (junk : List Nat → t.Word) :
    ∃ q z, u.forwardWord t (some p) junk X ax = (q, .ok z) ∧ z.shape = X.shape ∧
      (∀ ix, InB X.shape ix → z.get ix = sharpenedInt t amount threshold (t.value (X.get ix)) 0) ∧ (threshold ≤ 0 → z = (numbers X).map fun v => (1 + amount) * v) := by
  obtain ⟨pool', e1, h1⟩ := hb.poolIs.1.toFilter
  simp only [UnsharpMask.init, e1, ok_bind] at hu
  cases hu
  obtain ⟨q, y, B, b1, b2, b3, b4⟩ := C133_zero (Built.filter hb e1) (filter_many h.many) h.call hp hmode hs junk fun _ => 0
  have b5 := h1.forward_same h.call (filter_many h.many) hp (fun _ => (0 : α))
  have hy : y.shape = X.shape := by
    have e : y = filtered g.kernel gp (numbers X) axes := Except.ok.inj (Prod.mk.inj (b1.symm.trans b5)).2
    rw [e, filtered_same_shape h]; rfl
  obtain ⟨z, z1, z2, z3⟩ := unsharpWord_of_blur (u := ⟨pool', amount, threshold⟩) h.axes_eq b2 (by rw [b3, hy])
  have z4 : ∀ ix, InB X.shape ix → z.get ix = sharpenedInt t amount threshold (t.value (X.get ix)) 0 := fun ix hix => z3 ix hix 0 (by rw [b4]; simp)
  refine ⟨q, z, z1, z2, z4, fun h0 => ext_get z2 fun ix hix => ?_⟩
  have hix' : InB X.shape ix := by rw [← z2]; exact hix
  rw [z4 ix hix', get_map _ _ (show InB (numbers (α := α) X).shape ix from hix'), numbers, get_map _ _ hix', sharpenedInt, if_neg (fun h => absurd h.1 (not_lt.2 h0)), sub_zero, wrapped_value]
  ring

/-- the weights of an average of at least two samples are smaller than one -/
theorem avgKernel_small {k : Nat} (hk : 2 ≤ k) : Small (avgKernel (α := α) k) := by
  have hlen : (avgKernel (α := α) k).length = k := by simp [avgKernel]
  have ha := avgKernel_isAverage (α := α) (k := k) (by omega)
  refine ⟨by intro h; rw [h] at hlen; simp at hlen; omega, average_small ?_ ha.2 (by omega)⟩
  intro a ha'
  rw [List.eq_of_mem_replicate ha']
  exact one_div_pos.2 (Nat.cast_pos.2 (by omega))

/-- **C135** for `UnsharpMask(AvgPoolNd(..))` -/
theorem C135_average {size : Given Nat} {st : Given (Option Nat)} (hmp : 0 < m) (hsz : size.Fits m) (hst : st.Fits m) (hv : ∀ s ∈ st.values, s ≠ some 0) (amount threshold : α) :
    ∃ (pool : SepPool α) (u : UnsharpMask α), SepPool.avgInit (size.toPy fun k : Nat => .leaf (some (k : Int))) (st.toPy PoolArgs.pyStride) = .ok pool ∧ UnsharpMask.init pool amount threshold = .ok u ∧
      ∀ {t : IntType} {X : Tensor t.Word} {gp : PadArgs α} {p : Padder α} {ax : Axes} {axes : List Nat}, SharpenCall (size.map avgKernel) m gp (numbers X) ax axes → Holds p gp →
        (∀ i < axes.length, forIntegers (gp.mode.entry .unknown i) = true) → (∃ i < axes.length, 2 ≤ size.entry 0 i) → ∀ junk : List Nat → t.Word,
        ∃ q z, u.forwardWord t (some p) junk X ax = (q, .ok z) ∧ z.shape = X.shape ∧
          (∀ ix, InB X.shape ix → z.get ix = sharpenedInt t amount threshold (t.value (X.get ix)) 0) ∧ (threshold ≤ 0 → z = (numbers X).map fun v => (1 + amount) * v) := by
  obtain ⟨pool, h1, h2, _⟩ := C34_average_kernels (α := α) hmp hsz hst hv
  obtain ⟨u, hu, _⟩ := C45_pooling h2 amount threshold
  refine ⟨pool, u, h1, hu, fun {t X gp p ax axes} hc hp hmode hs junk => ?_⟩
  obtain ⟨i, hi, hk⟩ := hs
  exact C135_brightens h2 hu hc hp hmode ⟨i, hi, by
    rw [show ((size.map avgKernel).entry [] i : List α) = avgKernel (size.entry 0 i) from given_entry_map (avgKernel (α := α)) size 0 i]
    exact avgKernel_small hk⟩ junk

end

/-- the weights of a Gaussian kernel with at least two samples are smaller than one -/
theorem gaussWeights_small {k : Nat} {σ : ℝ} (hσ : σ ≠ 0) (hk : 2 ≤ k) : Small (gaussWeights k σ 0) := by
  obtain ⟨w, hw, hlw, hpw, hsw, _⟩ := C37_probability_vector hσ (k := k) (by omega)
  obtain rfl := Except.ok.inj ((gaussianKernel_weights hσ k 0).symm.trans hw)
  exact ⟨by intro h; rw [h] at hlw; simp at hlw; omega, average_small hpw hsw (by omega)⟩

/-- **C135** for `UnsharpMask(GaussianPoolNd(..))` -/
theorem C135_gaussian {size : Given Nat} {sigma : Given ℝ} {st : Given (Option Nat)} {m : Nat} (hmp : 0 < m) (hsz : size.Fits m)
    (hg : sigma.Fits m) (hst : st.Fits m) (hv : ∀ s ∈ st.values, s ≠ some 0) (hnz : ∀ s ∈ sigma.values, s ≠ 0) (amount threshold : ℝ) :
    ∃ pool u, SepPool.gaussInit (size.toPy pyNat) (sigma.toPy Py.leaf) (.leaf 0) (st.toPy PoolArgs.pyStride) = .ok pool ∧ UnsharpMask.init pool amount threshold = .ok u ∧
      ∀ {t : IntType} {X : Tensor t.Word} {gp : PadArgs ℝ} {p : Padder ℝ} {ax : Axes} {axes : List Nat}, axes.length = m →
        SharpenCall (gaussKernels m size sigma (.one 0)) m gp (numbers X) ax axes → Holds p gp →
        (∀ i < axes.length, forIntegers (gp.mode.entry .unknown i) = true) → (∃ i < axes.length, 2 ≤ size.entry 0 i) → ∀ junk : List Nat → t.Word,
        ∃ q z, u.forwardWord t (some p) junk X ax = (q, .ok z) ∧ z.shape = X.shape ∧
          (∀ ix, InB X.shape ix → z.get ix = sharpenedInt t amount threshold (t.value (X.get ix)) 0) ∧ (threshold ≤ 0 → z = (numbers X).map fun v => (1 + amount) * v) := by
  obtain ⟨pool, h1, h2, _⟩ := C34_gaussian_kernels (size := size) (sigma := sigma) (order := .one 0) (st := st) hmp hsz hg trivial hst hv hnz
  obtain ⟨u, hu, _⟩ := C45_pooling h2 amount threshold
  refine ⟨pool, u, h1, hu, fun {t X gp p ax axes} hl hc hp hmode hs junk => ?_⟩
  obtain ⟨i, hi, hk⟩ := hs
  have hi' : i < m := by omega
  exact C135_brightens h2 hu hc hp hmode ⟨i, hi, by
    rw [show (gaussKernels m size sigma (.one 0)).entry [] i = gaussWeights (size.entry 0 i) (sigma.entry 1 i) 0 from gaussKernels_entry hi']
    exact gaussWeights_small (hnz _ (entry_mem hg 1 fun _ => hi')) hk⟩ junk

namespace IntSharpenExample
open SsimExample AdjointExample EnergyExample IntPadExample IntImageExample

theorem sharpenCall (t : IntType) (w : List ℚ) : SharpenCall (.one w) 1 (args .circular) (numbers (img t [10, 20, 200, 250])) .none [0] where
  axes_eq := rfl
  call := SameCall_seq (call (mode := .circular) (by simp) t w)
  many := by intro h; cases h
  keep := fun i _ => .inl (by simp [args, Given.entry, Mode.isPeriodize])

/-- a picture with 8 bits, sharpened with an average over three samples, is twice as bright -/
example (junk : List Nat → uint8.Word) : ∃ (pool : SepPool ℚ) (u : UnsharpMask ℚ) (q : Option (Padder ℚ)), SepPool.init (PoolArgs.pyKernel (avgKernel 3)) (PoolArgs.pyStride (some 1)) = .ok pool ∧
    UnsharpMask.init pool 1 0 = .ok u ∧ u.forwardWord uint8 (some ((args .circular).padder 1)) junk (img uint8 [10, 20, 200, 250]) .none =
      (q, .ok ((numbers (img uint8 [10, 20, 200, 250])).map fun v => (1 + 1) * v)) := by
  obtain ⟨pool, e1, b1⟩ := one_built (avgKernel 3)
  obtain ⟨u, hu, _⟩ := C45_pooling b1 1 0
  obtain ⟨q, z, z1, _, _, z2⟩ := C135_brightens b1 hu (sharpenCall uint8 (avgKernel 3)) (holds_padder _ 1) (fun i _ => by simp [args, Given.entry, forIntegers])
    ⟨0, by simp, avgKernel_small (by norm_num)⟩ junk
  exact ⟨pool, u, q, e1, hu, by rw [z1, z2 le_rfl]⟩

/-- a blur with integer weights -/
example (junk : List Nat → int8.Word) : ∃ (pool : SepPool ℚ) (u : UnsharpMask ℚ) (q : Option (Padder ℚ)) (z : Tensor ℚ),
    SepPool.init (PoolArgs.pyKernel [1, 2, 1]) (PoolArgs.pyStride (some 1)) = .ok pool ∧
    UnsharpMask.init pool 1 0 = .ok u ∧ u.forwardWord int8 (some ((args .circular).padder 1)) junk (img int8 [10, 20, 200, 250]) .none = (q, .ok z) ∧ z.shape = [4] := by
  obtain ⟨pool, e1, b1⟩ := one_built [1, 2, 1]
  obtain ⟨u, hu, _⟩ := C45_pooling b1 1 0
  obtain ⟨q, _, z, _, z1, _, z2, _⟩ := C135_exact (by decide) b1 hu (sharpenCall int8 [1, 2, 1]) (holds_padder _ 1)
    (fun i _ => by simp [FillsExactly, args, Given.entry, forWords, forIntegers, isStat]) (fun i _ a ha => by
      have : a = 1 ∨ a = 2 := by
        simp [PoolArgs.filter, Given.entry] at ha
        rcases ha with h | h | h <;> simp [h]
      rcases this with rfl | rfl
      · exact ⟨1, by simp⟩
      · exact ⟨2, by simp⟩) junk fun _ => 0
  obtain ⟨q', z', z3, z4, _⟩ := C135_formula b1 hu (sharpenCall int8 [1, 2, 1]) (holds_padder _ 1) (fun i _ => by simp [args, Given.entry, forWords, forIntegers, isStat]) junk
  exact ⟨pool, u, q', z', e1, hu, z3, z4⟩

/-- the sharpened image -/
def runSharp (t : IntType) (w : List ℚ) (amount threshold : ℚ) (l : List ℤ) : Option (List ℚ) :=
  match (SepPool.init (PoolArgs.pyKernel w) (PoolArgs.pyStride (some 1))).bind fun pool => UnsharpMask.init pool amount threshold with
  | .ok u => match (u.forwardWord t (some ((args .circular).padder 1)) (fun _ => 0) (img t l) .none).2 with
    | .ok z => some z.data
    | .error _ => none
  | .error _ => none

end IntSharpenExample

open IntSharpenExample IntPadExample in
/-- **C135**: a blur makes the picture brighter by the amount, beyond the range of the type; a threshold decides by the numbers themselves, and takes -128 for a small number,
so that it counts as no difference; a weight of one is kept, and differences wrap around. -/
theorem C135_differ :
    runSharp uint8 [1 / 4, 1 / 2, 1 / 4] (1 / 2) 0 [10, 20, 200, 250] = some [15, 30, 300, 375] ∧
    runSharp uint8 [1 / 4, 1 / 2, 1 / 4] (1 / 2) 50 [10, 20, 200, 250] = some [10, 20, 300, 375] ∧
    runSharp int8 [1 / 4, 1 / 2, 1 / 4] (1 / 2) 50 [-128, -127, 100, -10] = some [-128, -381 / 2, 150, -10] ∧
    runSharp uint8 [0, 0, 1] (1 / 2) 0 [10, 20, 200, 250] = some [133, 58, 303, 370] ∧
    runSharp int8 [0, 0, 1] (1 / 2) 0 [10, 20, 100, -100] = some [5, -20, 72, -155] := by
  decide +kernel

end TI
