import Verif.Spec.IntImage
import Verif.Proofs.IntImage

/-!
# Filters of images with integer entries: C133
-/

set_option linter.unusedSectionVars false

namespace TI
open Tensor Spec

section
variable {α : Type} [Field α] [LinearOrder α] [IsStrictOrderedRing α] [FloorRing α] {t : IntType}
variable {pool : SepPool α} {g : PoolArgs α} {m : Nat} {gp : PadArgs α} {p : Padder α} {padder q : Option (Padder α)} {X Y : Tensor t.Word} {ax : Axes} {axes : List Nat}

theorem numbers_sameInt (X : Tensor t.Word) : (numbers X : Tensor α).Rel (SameInt (α := α)) X := (numbers_rel X).mono fun _ _ h => h.sameInt

theorem rel_reduces {z : Tensor α} {Z : Tensor t.Word} (h : z.Rel (SameInt (α := α)) Z) : Reduces z Z := ⟨h.shape.symm, fun ix => h.get ix⟩

/-- numbers that fit are determined by their remainders -/
theorem Spec.Reduces.held {z : Tensor α} {Z : Tensor t.Word} (hb : 0 < t.bits) (h : Reduces z Z) (hz : Held t z) : numbers Z = z := by
  refine ext_get h.1 fun ix hix => ?_
  have hix : InB Z.shape ix := hix
  obtain ⟨n, e1, e2⟩ := h.2 ix
  obtain ⟨k, e3, e4⟩ := hz (z.get ix) (by
    rw [data_eq_map_get, List.mem_map]
    exact ⟨ix, mem_indices.2 (h.1 ▸ hix), rfl⟩)
  have : n = k := Int.cast_injective (e1.symm.trans e3)
  rw [numbers, get_map _ _ hix, e1, e2, value_ofInt hb (this ▸ e4)]

/-- **C133.** Filtering an image of machine integers, signed or not, once it has been padded: the results agree, modulo the size of the type, with the exact filter
of the numbers whose weights have lost their digits after the point. -/
theorem C133_wraps (hp : Built pool g m) (hm : g.isMany = true → axes.length = m) (hax : axesOf X.ndim ax = some axes) {junk : List Nat → t.Word}
    (hY : SepPool.padWord t pool padder junk X (.seq (castV axes)) = (q, .ok Y)) (hf : Fitting (numbers Y) (g.ops axes)) :
    ∃ Z, SepPool.forwardWord t pool padder junk X ax = (q, .ok Z) ∧ Reduces (poolSeq (numbers Y) ((g.ops axes).map truncOp)) Z := by
  obtain ⟨Z, h1, h2⟩ := hp.poolIs.1.forwardWord_padded sameInt_ringRel hm hax hY (numbers_sameInt Y) hf
  exact ⟨Z, h1, rel_reduces h2⟩

/-- **C133** with a padder (without statistics): overflow in the padding, between the axes and in the sums does not matter. -/
theorem C133_same (hp : Built pool g m) (hm : g.isMany = true → axes.length = m) (hc : SameCall g gp (numbers X) ax axes) (hpp : Holds p gp)
    (hmode : ∀ i < axes.length, forWords (gp.mode.entry .unknown i)) (junk : List Nat → t.Word) :
    ∃ q Z, SepPool.forwardWord t pool (some p) junk X ax = (q, .ok Z) ∧ Reduces (filteredInt g gp (numbers X) axes) Z := by
  obtain ⟨Z, h1, h2⟩ := hp.poolIs.1.forwardWord_same (numbers_sameInt X) hc hm hpp hmode junk
  exact ⟨_, Z, h1, rel_reduces h2⟩

/-- **C133**: if the filtered image fits into the type it is the result. -/
theorem C133_fits (hb : 0 < t.bits) (hp : Built pool g m) (hm : g.isMany = true → axes.length = m) (hc : SameCall g gp (numbers X) ax axes) (hpp : Holds p gp)
    (hmode : ∀ i < axes.length, forWords (gp.mode.entry .unknown i)) (hz : Held t (filteredInt g gp (numbers (α := α) X) axes)) (junk : List Nat → t.Word) :
    ∃ q Z, SepPool.forwardWord t pool (some p) junk X ax = (q, .ok Z) ∧ numbers Z = filteredInt g gp (numbers X) axes := by
  obtain ⟨q, Z, h1, h2⟩ := C133_same hp hm hc hpp hmode junk
  exact ⟨q, Z, h1, h2.held hb hz⟩

theorem truncOps_id (hw : ∀ i < axes.length, WholeWeights (g.op axes i).kernel) : (g.ops axes).map truncOp = g.ops axes := by
  conv_rhs => rw [← List.map_id (g.ops axes)]
  refine List.map_congr_left fun o ho => ?_
  obtain ⟨i, hi, rfl⟩ := mem_ops.1 ho
  have : (g.op axes i).kernel.map (fun a => ((towardZero a : ℤ) : α)) = (g.op axes i).kernel := by
    conv_rhs => rw [← List.map_id (g.op axes i).kernel]
    refine List.map_congr_left fun a ha => ?_
    obtain ⟨n, rfl⟩ := hw i hi a ha
    rw [towardZero_int]
    rfl
  rw [truncOp, this]
  rfl

theorem padSeq_intOps_id {ops : List (Nat × AxisPad α)} (h : ∀ o ∈ ops, o.2.mode ≠ .linearRamp ∧ (o.2.mode = .constant → ∃ n k : ℤ, o.2.cv = ((n : α), (k : α)))) (x : Tensor α) :
    padSeq x (intOps ops) = padSeq x ops := by
  induction ops generalizing x with
  | nil => rfl
  | cons o ops ih =>
    have e : padStep x (o.1, intAxis o.2) = padStep x o := by
      obtain ⟨h1, h2⟩ := h o (by simp)
      have hr : (intAxis o.2).rule? = o.2.rule? ∧ (∀ n, (intAxis o.2).total n = o.2.total n) := by
        obtain ⟨k, b, a, m, cv, ev, sl⟩ := o
        cases m
        case constant =>
          obtain ⟨n, k', rfl⟩ : ∃ n k : ℤ, cv = ((n : α), (k : α)) := h2 rfl
          simp [intAxis, AxisPad.rule?, AxisPad.total, towardZero_int]
        case linearRamp => exact absurd rfl h1
        all_goals exact ⟨rfl, fun _ => rfl⟩
      rw [padStep, padStep, intAxis_before, intAxis_after]
      split_ifs with hz
      · rfl
      · simp only
        rw [hr.1]
        cases o.2.rule? with
        | none => rfl
        | some E => simp only [hr.2]
    rw [intOps, List.map_cons, padSeq_cons, padSeq_cons, e]
    exact ih (fun o' ho' => h o' (by simp [ho'])) _

/-- **C133.** With integer weights, integer padding constants and any mode but the ramp and the statistics, an integer image is filtered exactly as its numbers are, if
the result fits. -/
theorem C133_exact (hb : 0 < t.bits) (hp : Built pool g m) (hm : g.isMany = true → axes.length = m) (hc : SameCall g gp (numbers X) ax axes) (hpp : Holds p gp)
    (hmode : ∀ i < axes.length, FillsExactly gp i) (hw : ∀ i < axes.length, WholeWeights (g.op axes i).kernel) (junk : List Nat → t.Word) (junk' : List Nat → α) :
    ∃ q z Z, SepPool.forward pool (some p) junk' (numbers X) ax = (q, .ok z) ∧ SepPool.forwardWord t pool (some p) junk X ax = (q, .ok Z) ∧ Reduces z Z ∧
      (Held t z → numbers Z = z) := by
  obtain ⟨Z, h1, h2⟩ := hp.poolIs.1.forwardWord_same (numbers_sameInt X) hc hm hpp (fun i hi => (hmode i hi).1) junk
  have e := hp.poolIs.1.forward_same hc hm hpp junk'
  rw [truncOps_id hw, padSeq_intOps_id (fun o ho => by
    obtain ⟨i, hi, rfl⟩ := sameOps_mem ho
    exact (hmode i hi).2)] at h2
  exact ⟨_, _, Z, e, h1, rel_reduces h2, fun hz => (rel_reduces h2).held hb hz⟩

theorem zero_of_small {Z : Tensor t.Word} {y : Tensor α} (hZ : Reduces (poolSeq y ((g.ops axes).map truncOp)) Z)
    (hs : ∃ i < axes.length, Small (g.op axes i).kernel) (ix : List Nat) : Z.get ix = 0 := by
  obtain ⟨i, hil, hne, hsm⟩ := hs
  obtain ⟨n, e1, e2⟩ := hZ.2 ix
  have := poolSeq_small ⟨_, mem_ops.2 ⟨i, hil, rfl⟩, hne, hsm⟩ y (ravel (poolSeq y ((g.ops axes).map truncOp)).shape ix)
  rw [Tensor.get, this] at e1
  have hn : n = 0 := Int.cast_eq_zero.1 e1.symm
  rw [e2, hn]
  simp

/-- **C133.** If the weights along one of the axes are all smaller than one, a filtered image of machine integers is zero everywhere, whatever the image, the
type and the padding (also by statistics) are. -/
theorem C133_zero (hp : Built pool g m) (hm : g.isMany = true → axes.length = m) (hc : SameCall g gp (numbers X) ax axes) (hpp : Holds p gp)
    (hmode : ∀ i < axes.length, forIntegers (gp.mode.entry .unknown i) = true)
    (hs : ∃ i < axes.length, Small (g.op axes i).kernel) (junk : List Nat → t.Word) (junk' : List Nat → α) :
    ∃ q z Z, SepPool.forward pool (some p) junk' (numbers X) ax = (q, .ok z) ∧ SepPool.forwardWord t pool (some p) junk X ax = (q, .ok Z) ∧ Z.shape = z.shape ∧ ∀ ix, Z.get ix = 0 := by
  obtain ⟨Y, h1, h2⟩ := hp.poolIs.1.padWord_shape (X := X) rfl hc hm hpp hmode junk
  have e := hp.poolIs.1.forward_same hc hm hpp junk'
  obtain ⟨Z, h3, h4⟩ := C133_wraps hp hm hc.axes_eq h1 (Fitting.congr h2.symm hc.poolOps.fitting)
  refine ⟨_, _, Z, e, h3, ?_, zero_of_small h4 hs⟩
  rw [h4.1]
  exact poolSeq_trunc_shape _ h2

/-- **C133** without a padder -/
theorem C133_plain (hp : Built pool g m) (hm : g.isMany = true → axes.length = m) (hax : axesOf X.ndim ax = some axes) (hf : Fitting (numbers X) (g.ops axes))
    (junk : List Nat → t.Word) :
    ∃ Z, SepPool.forwardWord t pool none junk X ax = (none, .ok Z) ∧ Reduces (poolSeq (numbers X) ((g.ops axes).map truncOp)) Z ∧
      ((∃ i < axes.length, Small (g.op axes i).kernel) → ∀ ix, Z.get ix = 0) := by
  obtain ⟨_, hlt⟩ := checkAxes_spec hax
  obtain ⟨Z, h1, h2⟩ := C133_wraps (padder := none) (q := none) (Y := X) (junk := junk) hp hm hax (by simp [SepPool.padWord, checkAxes_castV hlt]) hf
  exact ⟨Z, h1, h2, fun hs ix => zero_of_small h2 hs ix⟩

end

namespace IntImageExample
open SsimExample AdjointExample EnergyExample IntPadExample

theorem call {mode : Mode ℚ} (hv : mode = .circular ∨ mode = .oddReflect ∨ mode = .stat .median) (t : IntType) (w : List ℚ) :
    SameCall (PoolArgs.filter (.one w)) (args mode) (numbers (img t [10, 20, 200, 250])) .none [0] where
  axes_eq := rfl
  ne := by simp
  nodup := by simp
  fits := fun _ => ⟨trivial, trivial⟩
  rest := ⟨trivial, trivial, trivial, trivial⟩
  stride := fun i hi => by simp [PoolArgs.op, PoolArgs.filter, Given.entry]
  pos := by simp [numbers, img, Tensor.map]
  valued := by
    intro o ho _
    obtain ⟨i, hi, rfl⟩ := sameOps_mem ho
    rcases hv with rfl | rfl | rfl <;> exact ⟨by simp [AxisPad.rule?, sameSetting, args, Given.entry], by simp [sameSetting, args, Given.entry]⟩

example (junk : List Nat → uint8.Word) (junk' : List Nat → ℚ) : ∃ pool : SepPool ℚ, ∃ q z Z, SepPool.init (PoolArgs.pyKernel [1, 2, 1]) (PoolArgs.pyStride (some 1)) = .ok pool ∧
    SepPool.forward pool (some ((args .oddReflect).padder 1)) junk' (numbers (img uint8 [10, 20, 200, 250])) .none = (q, .ok z) ∧
    SepPool.forwardWord uint8 pool (some ((args .oddReflect).padder 1)) junk (img uint8 [10, 20, 200, 250]) .none = (q, .ok Z) ∧ Reduces z Z := by
  obtain ⟨pool, e1, b1⟩ := one_built [1, 2, 1]
  obtain ⟨q, z, Z, h1, h2, h3, _⟩ := C133_exact (t := uint8) (by decide) b1 (by intro h; cases h) (call (mode := .oddReflect) (by simp) uint8 _) (holds_padder _ 1)
    (fun i _ => by simp [FillsExactly, args, Given.entry, forWords, forIntegers, isStat]) (fun i _ a ha => by
      have : a = 1 ∨ a = 2 := by
        simp [PoolArgs.op, PoolArgs.filter, Given.entry] at ha
        rcases ha with h | h | h <;> simp [h]
      rcases this with rfl | rfl
      · exact ⟨1, by simp⟩
      · exact ⟨2, by simp⟩) junk junk'
  exact ⟨pool, q, z, Z, e1, h1, h2, h3⟩

/-- a blur of a picture with 8 bits, padded by medians, gives a black picture -/
example (junk : List Nat → uint8.Word) (junk' : List Nat → ℚ) : ∃ pool : SepPool ℚ, ∃ q Z, SepPool.init (PoolArgs.pyKernel [1 / 4, 1 / 2, 1 / 4]) (PoolArgs.pyStride (some 1)) = .ok pool ∧
    SepPool.forwardWord uint8 pool (some ((args (.stat .median)).padder 1)) junk (img uint8 [10, 20, 200, 250]) .none = (q, .ok Z) ∧ ∀ ix, Z.get ix = 0 := by
  obtain ⟨pool, e1, b1⟩ := one_built [1 / 4, 1 / 2, 1 / 4]
  obtain ⟨q, z, Z, h1, h2, _, h4⟩ := C133_zero (t := uint8) b1 (by intro h; cases h) (call (mode := .stat .median) (by simp) uint8 _) (holds_padder _ 1)
    (fun i _ => by simp [args, Given.entry, forIntegers]) ⟨0, by simp, by simp [PoolArgs.op, PoolArgs.filter, Given.entry], fun a ha => by
      have : a = 1 / 4 ∨ a = 1 / 2 := by
        simp [PoolArgs.op, PoolArgs.filter, Given.entry] at ha
        rcases ha with h | h | h <;> simp [h]
      rcases this with rfl | rfl <;> norm_num [abs_of_pos]⟩ junk junk'
  exact ⟨pool, q, Z, e1, h2, h4⟩

/-- the numbers of the filtered image -/
def runWord (t : IntType) (m : Mode ℚ) (w : List ℚ) (l : List ℤ) : Option (List ℤ) :=
  match SepPool.init (PoolArgs.pyKernel w) (PoolArgs.pyStride (some 1)) with
  | .ok pool => match (SepPool.forwardWord t pool (some ((args m).padder 1)) (fun _ => 0) (img t l) .none).2 with
    | .ok z => some (z.data.map t.value)
    | .error _ => none
  | .error _ => none

end IntImageExample

open IntImageExample IntPadExample in
/-- **C133**: sums wrap around at 256 or at 128; a blur gives zeros; weights of 3/2 count as one; there is no mean. -/
theorem C133_differ :
    runWord uint8 .circular [1, 2, 1] [10, 20, 200, 250] = some [34, 250, 158, 198] ∧
    runWord int8 .oddReflect [1, 2, 1] [10, 20, 30, 100] = some [40, 80, -76, -112] ∧
    runWord uint8 .symmetric [1 / 3, 1 / 3, 1 / 3] [10, 20, 200, 250] = some [0, 0, 0, 0] ∧
    runWord uint8 .circular [0, 0, 3 / 2] [10, 20, 200, 250] = some [20, 200, 250, 10] ∧
    runWord uint8 (.stat .mean) [1, 2, 1] [10, 20, 200, 250] = none := by
  decide +kernel

end TI
