import Verif.Spec.Integers
import Verif.Model.Integers
import Verif.Props.Rounding
import Verif.Props.Gaussian

/-!
# Images with integer entries: C131
-/

set_option linter.unusedSectionVars false

namespace TI
open Tensor Spec

section
variable {α : Type} [Field α] [LinearOrder α] [IsStrictOrderedRing α] [FloorRing α]
variable {pool : SepPool α} {g : PoolArgs α} {m b : Nat} {gp : PadArgs α} {p : Padder α} {padder q : Option (Padder α)} {x y : Tensor α}
variable {ax : Axes} {axes : List Nat}

theorem truncate_eq (a : α) : truncate a = towardZero a := by
  rw [truncate, towardZero]
  by_cases h : 0 ≤ a
  · rw [if_pos h, if_neg (not_lt.2 h)]
  · rw [if_neg h, if_pos (not_le.1 h), Int.floor_neg, neg_neg]

theorem towardZero_int (n : ℤ) : towardZero (n : α) = n := by
  rw [towardZero]
  split_ifs
  · rw [← Int.cast_neg, Int.floor_intCast, neg_neg]
  · rw [Int.floor_intCast]

theorem towardZero_small {a : α} (h : |a| < 1) : towardZero a = 0 := by
  obtain ⟨h1, h2⟩ := abs_lt.1 h
  rw [towardZero]
  split_ifs with h3
  · rw [neg_eq_zero, Int.floor_eq_zero_iff]
    exact ⟨by linarith, by linarith⟩
  · rw [Int.floor_eq_zero_iff]
    exact ⟨not_lt.1 h3, h2⟩

theorem two_pow_split (hb : 0 < b) : (2 : ℤ) ^ b = 2 ^ (b - 1) + 2 ^ (b - 1) := by
  obtain ⟨c, rfl⟩ : ∃ c, b = c + 1 := ⟨b - 1, by omega⟩
  rw [Nat.add_sub_cancel, pow_succ]
  ring

theorem wrapBits_range (hb : 0 < b) (n : ℤ) : -2 ^ (b - 1) ≤ wrapBits b n ∧ wrapBits b n < 2 ^ (b - 1) := by
  have hp : (0 : ℤ) < 2 ^ b := by positivity
  have h1 := Int.emod_nonneg (n + 2 ^ (b - 1)) hp.ne'
  have h2 := Int.emod_lt_of_pos (n + 2 ^ (b - 1)) hp
  have h3 := two_pow_split hb
  rw [wrapBits]
  omega

theorem wrapBits_modEq (b : Nat) (n : ℤ) : wrapBits b n ≡ n [ZMOD 2 ^ b] := by
  have h : (n + 2 ^ (b - 1)) % 2 ^ b ≡ n + 2 ^ (b - 1) [ZMOD 2 ^ b] := Int.mod_modEq _ _
  have := h.sub_right (2 ^ (b - 1))
  rwa [add_sub_cancel_right] at this

theorem range_unique (hb : 0 < b) {n k : ℤ} (h : n ≡ k [ZMOD 2 ^ b]) (h1 : -2 ^ (b - 1) ≤ n) (h2 : n < 2 ^ (b - 1)) (h3 : -2 ^ (b - 1) ≤ k) (h4 : k < 2 ^ (b - 1)) :
    n = k := by
  have e : (n + 2 ^ (b - 1)) % 2 ^ b = (k + 2 ^ (b - 1)) % 2 ^ b := h.add_right _
  have hs := two_pow_split hb
  rw [Int.emod_eq_of_lt (by omega) (by omega), Int.emod_eq_of_lt (by omega) (by omega)] at e
  omega

/-- entry by entry: integers in the range, congruent to the integers of the other tensor -/
structure Congruent (b : Nat) (y' y : Tensor α) : Prop where
  shape : y'.shape = y.shape
  entry : ∀ i, ∃ k n : ℤ, y'.data.getD i 0 = k ∧ y.data.getD i 0 = n ∧ -2 ^ (b - 1) ≤ k ∧ k < 2 ^ (b - 1) ∧ k ≡ n [ZMOD 2 ^ b]

theorem Congruent.get {y' y : Tensor α} (h : Congruent b y' y) (ix : List Nat) :
    ∃ k n : ℤ, y'.get ix = k ∧ y.get ix = n ∧ -2 ^ (b - 1) ≤ k ∧ k < 2 ^ (b - 1) ∧ k ≡ n [ZMOD 2 ^ b] := by
  rw [Tensor.get, Tensor.get, h.shape]
  exact h.entry _

theorem Congruent.refl (h : IntEntries b x) : Congruent b x x := by
  refine ⟨rfl, fun i => ?_⟩
  by_cases hi : i < x.data.length
  · obtain ⟨n, h1, h2, h3⟩ := h _ (List.getElem_mem hi)
    have e : x.data.getD i 0 = (n : α) := by simpa [List.getD_eq_getElem?_getD, hi] using h1
    exact ⟨n, n, e, e, h2, h3, rfl⟩
  · have e : x.data.getD i 0 = ((0 : ℤ) : α) := by rw [getD_beyond (by omega)]; simp
    exact ⟨0, 0, e, e, by simp, by positivity, rfl⟩

theorem sum_congr_mod (l : List Nat) (f f' : Nat → ℤ) {M : ℤ} (h : ∀ j ∈ l, f j ≡ f' j [ZMOD M]) : (l.map f).sum ≡ (l.map f').sum [ZMOD M] := by
  induction l with
  | nil => rfl
  | cons a l ih =>
    rw [List.map_cons, List.map_cons, List.sum_cons, List.sum_cons]
    exact (h a (by simp)).add (ih fun j hj => h j (by simp [hj]))

theorem sum_cast (l : List Nat) (f : Nat → ℤ) : ((l.map f).sum : α) = (l.map fun j => (f j : α)).sum := by
  induction l with
  | nil => simp
  | cons a l ih =>
    rw [List.map_cons, List.map_cons, List.sum_cons, List.sum_cons, Int.cast_add, ih]

theorem Congruent.step (hb : 0 < b) {y' y : Tensor α} (h : Congruent b y' y) (i : Nat) (o : PoolOp α) :
    Congruent b (slideWith (intDot b i) y' o) (slide y (truncOp o)) := by
  by_cases hk : o.kernel = []
  · simpa [slideWith, slide, truncOp, hk] using h
  have hk' : (truncOp o).kernel ≠ [] := by simpa [truncOp] using hk
  rw [slideWith, slide, if_neg hk, if_neg hk', h.shape]
  simp only [truncOp, List.length_map]
  refine ⟨rfl, fun n => ?_⟩
  rcases entry_ofFn (y.shape.set o.axis (windowCount (y.shape.getD o.axis 0) o.kernel.length o.stride 1)) (fun ix =>
      intDot b i ix ((List.range o.kernel.length).map fun j => y'.get (ix.set o.axis (ix.getD o.axis 0 * o.stride + j))) o.kernel) n with ⟨hn, e1⟩ | ⟨hn, e1⟩
  · rcases entry_ofFn (y.shape.set o.axis (windowCount (y.shape.getD o.axis 0) o.kernel.length o.stride 1)) (fun ix =>
        ((List.range o.kernel.length).map fun j => (o.kernel.map fun a => ((towardZero a : ℤ) : α)).getD j 0 *
          y.get (ix.set o.axis (ix.getD o.axis 0 * o.stride + j))).sum) n with ⟨_, e2⟩ | ⟨hn', _⟩
    · rw [e1, e2]
      generalize (indices (y.shape.set o.axis (windowCount (y.shape.getD o.axis 0) o.kernel.length o.stride 1))).getD n [] = ix
      choose k n hk1 hn1 _ _ hkn using fun j => h.get (ix.set o.axis (ix.getD o.axis 0 * o.stride + j))
      refine ⟨_, ((List.range o.kernel.length).map fun j => towardZero (o.kernel.getD j 0) * n j).sum, rfl, ?_, (wrapBits_range hb _).1, (wrapBits_range hb _).2, ?_⟩
      · rw [sum_cast]
        refine congrArg List.sum (List.map_congr_left fun j hj => ?_)
        have hj := List.mem_range.1 hj
        rw [hn1, Int.cast_mul]
        congr 1
        simp [hj]
      · refine (wrapBits_modEq b _).trans (sum_congr_mod _ _ _ fun j hj => ?_)
        have hj := List.mem_range.1 hj
        have e3 : ((List.range o.kernel.length).map fun j => y'.get (ix.set o.axis (ix.getD o.axis 0 * o.stride + j))).getD j 0 = (k j : α) := by
          rw [← hk1 j]
          simp [hj]
        rw [e3, truncate_eq, truncate_eq, towardZero_int, mul_comm]
        exact (hkn j).mul_left _
    · omega
  · rw [e1, getD_beyond (by simpa [ofFn] using hn)]
    exact ⟨0, 0, by simp, by simp, by simp, by positivity, rfl⟩

theorem Congruent.seq (hb : 0 < b) : ∀ (ops : List (PoolOp α)) (i : Nat) {y' y : Tensor α}, Congruent b y' y →
    Congruent b (seqWith (intDot b) i y' ops) (poolSeq y (ops.map truncOp))
  | [], _, _, _, h => h
  | o :: ops, i, _, _, h => Congruent.seq hb ops (i + 1) (h.step hb i o)

/-- **C131.** Filtering an image of `b`-bit integers gives integers of this type which agree, modulo `2^b`, with the exact filter whose weights have lost their digits
after the point; overflow between the axes does not matter. -/
theorem C131_wraps (hb : 0 < b) (hp : Built pool g m) (hm : g.isMany = true → axes.length = m) (hax : axesOf x.ndim ax = some axes)
    {junk : List Nat → α} (hy : SepPool.pad pool padder junk x (.seq (castV axes)) = (q, .ok y)) (hf : Fitting y (g.ops axes)) (hi : IntEntries b y) :
    ∃ z, SepPool.forwardInt b pool padder junk x ax = (q, .ok z) ∧ z.shape = (poolSeq y ((g.ops axes).map truncOp)).shape ∧
      ∀ ix, ∃ k n : ℤ, z.get ix = k ∧ (poolSeq y ((g.ops axes).map truncOp)).get ix = n ∧ -2 ^ (b - 1) ≤ k ∧ k < 2 ^ (b - 1) ∧ k ≡ n [ZMOD 2 ^ b] := by
  obtain ⟨_, h2⟩ := calls_padded (dot := intDot b) hp hm hax hy hf
  have h := Congruent.seq hb (g.ops axes) 0 (Congruent.refl hi)
  exact ⟨_, h2, h.shape, h.get⟩

/-- **C131**: if the filtered image fits into the type it is the result, even if the image between the axes does not fit. -/
theorem C131_fits (hb : 0 < b) (hp : Built pool g m) (hm : g.isMany = true → axes.length = m) (hax : axesOf x.ndim ax = some axes)
    {junk : List Nat → α} (hy : SepPool.pad pool padder junk x (.seq (castV axes)) = (q, .ok y)) (hf : Fitting y (g.ops axes)) (hi : IntEntries b y)
    (hz : IntEntries b (poolSeq y ((g.ops axes).map truncOp))) :
    SepPool.forwardInt b pool padder junk x ax = (q, .ok (poolSeq y ((g.ops axes).map truncOp))) := by
  obtain ⟨z, h1, h2, h3⟩ := C131_wraps hb hp hm hax hy hf hi
  rw [h1]
  congr 2
  refine ext_get h2 fun ix hix => ?_
  obtain ⟨k, n, e1, e2, r1, r2, hkn⟩ := h3 ix
  obtain ⟨k', n', e1', e2', r1', r2', _⟩ := (Congruent.refl hz).get ix
  have hn : n = k' := by
    rw [e1'] at e2
    exact (Int.cast_injective e2).symm
  rw [e1, e2, range_unique hb hkn r1 r2 (by rw [hn]; exact r1') (by rw [hn]; exact r2')]

/-- **C131**: so with integer weights an integer image is filtered exactly, if the result fits. -/
theorem C131_integer_weights (hb : 0 < b) (hp : Built pool g m) (hm : g.isMany = true → axes.length = m) (hax : axesOf x.ndim ax = some axes)
    {junk : List Nat → α} (hy : SepPool.pad pool padder junk x (.seq (castV axes)) = (q, .ok y)) (hf : Fitting y (g.ops axes)) (hi : IntEntries b y)
    (hw : ∀ i < axes.length, ∀ a ∈ (g.op axes i).kernel, ∃ n : ℤ, a = n) {z : Tensor α} (hfz : SepPool.forward pool padder junk x ax = (q, .ok z))
    (hz : IntEntries b z) : SepPool.forwardInt b pool padder junk x ax = (q, .ok z) := by
  obtain ⟨h1, _⟩ := calls_padded (dot := intDot b) hp hm hax hy hf
  rw [h1] at hfz
  have e0 := Except.ok.inj (Prod.mk.inj hfz).2
  have e : (g.ops axes).map truncOp = g.ops axes := by
    conv_rhs => rw [← List.map_id (g.ops axes)]
    refine List.map_congr_left fun o ho => ?_
    obtain ⟨i, hi, rfl⟩ := mem_ops.1 ho
    have : (g.op axes i).kernel.map (fun a => ((towardZero a : ℤ) : α)) = (g.op axes i).kernel := by
      conv_rhs => rw [← List.map_id (g.op axes i).kernel]
      refine List.map_congr_left fun a ha => ?_
      obtain ⟨n, rfl⟩ := hw i hi a ha
      rw [towardZero_int]
      rfl
    rw [truncOp, this]
    rfl
  have := C131_fits hb hp hm hax hy hf hi (by rw [e, e0]; exact hz)
  rw [this, e, e0]

theorem poolSeq_zero_data : ∀ (ops : List (PoolOp α)) {y : Tensor α}, (∀ i, y.data.getD i 0 = 0) → ∀ i, (poolSeq y ops).data.getD i 0 = 0
  | [], _, h, i => h i
  | o :: ops, y, h, i => by
    refine poolSeq_zero_data ops (y := slide y o) (fun n => ?_) i
    by_cases hk : o.kernel = []
    · simpa [slide, hk] using h n
    rw [slide, if_neg hk]
    rcases entry_ofFn (y.shape.set o.axis (windowCount (y.shape.getD o.axis 0) o.kernel.length o.stride 1)) (fun ix =>
        ((List.range o.kernel.length).map fun j => o.kernel.getD j 0 * y.get (ix.set o.axis (ix.getD o.axis 0 * o.stride + j))).sum) n with ⟨_, e⟩ | ⟨_, e⟩
    · rw [e]
      refine List.sum_eq_zero fun v hv => ?_
      obtain ⟨j, _, rfl⟩ := List.mem_map.1 hv
      rw [Tensor.get, h, mul_zero]
    · exact e

theorem slide_small {o : PoolOp α} (hk : o.kernel ≠ []) (hs : ∀ a ∈ o.kernel, |a| < 1) (y : Tensor α) (n : Nat) :
    (slide y (truncOp o)).data.getD n 0 = 0 := by
  have hk' : (truncOp o).kernel ≠ [] := by simpa [truncOp] using hk
  have hz : ∀ j, (truncOp o).kernel.getD j 0 = 0 := by
    intro j
    simp only [truncOp, List.getD_eq_getElem?_getD, List.getElem?_map]
    cases hj : o.kernel[j]? with
    | none => rfl
    | some a => simp [towardZero_small (hs a (List.mem_of_getElem? hj))]
  rw [slide, if_neg hk']
  rcases entry_ofFn (y.shape.set (truncOp o).axis (windowCount (y.shape.getD (truncOp o).axis 0) (truncOp o).kernel.length (truncOp o).stride 1)) (fun ix =>
      ((List.range (truncOp o).kernel.length).map fun j => (truncOp o).kernel.getD j 0 *
        y.get (ix.set (truncOp o).axis (ix.getD (truncOp o).axis 0 * (truncOp o).stride + j))).sum) n with ⟨_, e⟩ | ⟨_, e⟩
  · rw [e]
    refine List.sum_eq_zero fun v hv => ?_
    obtain ⟨j, _, rfl⟩ := List.mem_map.1 hv
    rw [hz, zero_mul]
  · exact e

/-- **C131.** If the weights along one of the axes are all smaller than one, the filtered integer image is zero everywhere. -/
theorem C131_zero (hb : 0 < b) (hp : Built pool g m) (hm : g.isMany = true → axes.length = m) (hax : axesOf x.ndim ax = some axes)
    {junk : List Nat → α} (hy : SepPool.pad pool padder junk x (.seq (castV axes)) = (q, .ok y)) (hf : Fitting y (g.ops axes)) (hi : IntEntries b y)
    (hs : ∃ i < axes.length, (g.op axes i).kernel ≠ [] ∧ ∀ a ∈ (g.op axes i).kernel, |a| < 1) :
    ∃ z, SepPool.forwardInt b pool padder junk x ax = (q, .ok z) ∧ z.shape = (poolSeq y (g.ops axes)).shape ∧ ∀ ix, z.get ix = 0 := by
  obtain ⟨z, h1, h2, h3⟩ := C131_wraps hb hp hm hax hy hf hi
  obtain ⟨i, hil, hne, hsm⟩ := hs
  have key : ∀ (ops : List (PoolOp α)), (∃ o ∈ ops, o.kernel ≠ [] ∧ ∀ a ∈ o.kernel, |a| < 1) → ∀ (y : Tensor α) n,
      (poolSeq y (ops.map truncOp)).data.getD n 0 = 0 := by
    intro ops
    induction ops with
    | nil => rintro ⟨o, ho, _⟩; simp at ho
    | cons o ops ih =>
      rintro ⟨o', ho', hk, ha⟩ y n
      rcases List.mem_cons.1 ho' with rfl | ho'
      · exact poolSeq_zero_data (ops.map truncOp) (slide_small hk ha y) n
      · exact ih ⟨o', ho', hk, ha⟩ (slide y (truncOp o)) n
  refine ⟨z, h1, ?_, fun ix => ?_⟩
  · obtain ⟨_, h5⟩ := calls_padded (dot := intDot b) hp hm hax hy hf
    have h6 : (q, Except.ok z) = (q, Except.ok (seqWith (intDot b) 0 y (g.ops axes))) := h1.symm.trans h5
    have h7 := Except.ok.inj (Prod.mk.inj h6).2
    rw [h7]
    exact seqWith_shape _ _ _ rfl
  · obtain ⟨k, n, e1, e2, r1, r2, hkn⟩ := h3 ix
    have hn : n = 0 := by
      have := key (g.ops axes) ⟨_, mem_ops.2 ⟨i, hil, rfl⟩, hne, hsm⟩ y (ravel (poolSeq y ((g.ops axes).map truncOp)).shape ix)
      rw [Tensor.get, this] at e2
      exact (Int.cast_eq_zero.1 e2.symm)
    rw [hn] at hkn
    rw [e1, range_unique hb hkn r1 r2 (by simp) (by positivity), Int.cast_zero]

theorem average_small {w : List α} (hw : ∀ a ∈ w, 0 < a) (hs : w.sum = 1) (hl : 2 ≤ w.length) : ∀ a ∈ w, |a| < 1 := by
  intro a ha
  rw [abs_of_pos (hw a ha)]
  obtain ⟨l, l', rfl⟩ := List.append_of_mem ha
  rw [List.sum_append, List.sum_cons] at hs
  have h1 : 0 ≤ l.sum := List.sum_nonneg fun c hc => (hw c (by simp [hc])).le
  have h2 : 0 ≤ l'.sum := List.sum_nonneg fun c hc => (hw c (by simp [hc])).le
  have h3 : 0 < l.sum + l'.sum := by
    rcases l with _ | ⟨c, l⟩
    · rcases l' with _ | ⟨c, l'⟩
      · simp at hl
      · have hc := hw c (by simp)
        have h2' : 0 ≤ l'.sum := List.sum_nonneg fun c hc => (hw c (by simp [hc])).le
        rw [List.sum_cons, List.sum_nil]
        linarith
    · have hc := hw c (by simp)
      have h2' : 0 ≤ l.sum := List.sum_nonneg fun c hc => (hw c (by simp [hc])).le
      rw [List.sum_cons]
      linarith
  linarith

/-- **C131**: `AvgPoolNd` with a window of at least two samples along some axis turns every integer image into zeros. -/
theorem C131_average {size : Given Nat} {st : Given (Option Nat)} (hb : 0 < b) (hmp : 0 < m) (hsz : size.Fits m) (hst : st.Fits m) (hv : ∀ s ∈ st.values, s ≠ some 0) :
    ∃ pool : SepPool α, SepPool.avgInit (size.toPy fun k : Nat => .leaf (some (k : Int))) (st.toPy PoolArgs.pyStride) = .ok pool ∧
      ∀ {x y : Tensor α} {ax : Axes} {axes : List Nat} {padder q : Option (Padder α)} {junk : List Nat → α}, axes.length = m → axesOf x.ndim ax = some axes →
        SepPool.pad pool padder junk x (.seq (castV axes)) = (q, .ok y) → Fitting y ((⟨size.map avgKernel, st⟩ : PoolArgs α).ops axes) → IntEntries b y →
        (∃ i < axes.length, 2 ≤ size.entry 0 i) →
        ∃ z, SepPool.forwardInt b pool padder junk x ax = (q, .ok z) ∧ ∀ ix, z.get ix = 0 := by
  obtain ⟨pool, h1, h2, _⟩ := C34_average_kernels (α := α) hmp hsz hst hv
  refine ⟨pool, h1, fun {x y ax axes padder q junk} hl hax hy hf hi ⟨i, hil, hs⟩ => ?_⟩
  have hlen : (avgKernel (α := α) (size.entry 0 i)).length = size.entry 0 i := by simp [avgKernel]
  have ha := avgKernel_isAverage (α := α) (k := size.entry 0 i) (by omega)
  have hsm : ((⟨size.map avgKernel, st⟩ : PoolArgs α).op axes i).kernel ≠ [] ∧ ∀ a ∈ ((⟨size.map avgKernel, st⟩ : PoolArgs α).op axes i).kernel, |a| < 1 := by
    rw [show ((⟨size.map avgKernel, st⟩ : PoolArgs α).op axes i).kernel = avgKernel (size.entry 0 i) from given_entry_map (avgKernel (α := α)) size 0 i]
    refine ⟨by intro h; rw [h] at hlen; simp at hlen; omega, average_small ?_ ha.2 (by omega)⟩
    intro a ha'
    rw [List.eq_of_mem_replicate ha']
    exact one_div_pos.2 (Nat.cast_pos.2 (by omega))
  obtain ⟨z, e1, _, e3⟩ := C131_zero hb h2 (fun _ => hl) hax hy hf hi ⟨i, hil, hsm⟩
  exact ⟨z, e1, e3⟩

/-- padding by copies of the samples keeps integer images -/
theorem padded_ints {ops : List (Nat × AxisPad α)} (hnd : (ops.map Prod.fst).Nodup) (hm : ∀ o ∈ ops, modeC o.2.mode ≠ none ∧ o.2.mode ≠ .antisymmetric)
    (hlt : ∀ o ∈ ops, o.1 < x.ndim) (hn : ∀ o ∈ ops, 0 < x.shape.getD o.1 0) (hi : IntEntries b x) : IntEntries b (padSeq x ops) := by
  intro v hv
  rw [data_eq_map_get] at hv
  obtain ⟨ix, hix, rfl⟩ := List.mem_map.1 hv
  rw [padSeq_coord hnd (fun o ho => (hm o ho).1) x hlt hn (mem_indices.1 hix)]
  have hs : signs x.shape ops ix = 1 := by
    rw [signs]
    refine List.prod_eq_one fun s hs => ?_
    obtain ⟨o, ho, rfl⟩ := List.mem_map.1 hs
    have := (hm o ho).2
    cases hmode : o.2.mode <;> first | rfl | exact absurd hmode this
  obtain ⟨k, _, e, _, r1, r2, _⟩ := (Congruent.refl hi).get (source x.shape ops ix)
  exact ⟨k, by rw [hs, one_mul, e], r1, r2⟩

/-- **C131** for a call with a padder which copies samples: the result is zero if the weights along one axis are smaller than one, and exact if the weights are integers and
the result fits. -/
theorem C131_same (hb : 0 < b) (hp : Built pool g m) (hm : g.isMany = true → axes.length = m) (hc : SameCall g gp x ax axes) (hpp : Holds p gp)
    (hmode : ∀ i < axes.length, modeC (gp.mode.entry .unknown i) ≠ none ∧ gp.mode.entry .unknown i ≠ .antisymmetric) (hi : IntEntries b x) (junk : List Nat → α) :
    ∃ q z z', SepPool.forward pool (some p) junk x ax = (q, .ok z) ∧ SepPool.forwardInt b pool (some p) junk x ax = (q, .ok z') ∧ z'.shape = z.shape ∧
      ((∃ i < axes.length, (g.op axes i).kernel ≠ [] ∧ ∀ a ∈ (g.op axes i).kernel, |a| < 1) → ∀ ix, z'.get ix = 0) ∧
      ((∀ i < axes.length, ∀ a ∈ (g.op axes i).kernel, ∃ n : ℤ, a = n) → IntEntries b z → z' = z) := by
  have hy := hp.poolIs.1.pad_same hc hm hpp junk
  have hpos : ∀ o ∈ sameOps g gp x.shape axes, 0 < x.shape.getD o.1 0 := by
    intro o ho
    obtain ⟨i, hil, rfl⟩ := sameOps_mem ho
    exact hc.pos _ (by simp [hil])
  have hint : IntEntries b (padSeq x (sameOps g gp x.shape axes)) := by
    refine padded_ints ?_ ?_ hc.lt hpos hi
    · rw [sameOps_fst]; exact hc.nodup
    · intro o ho
      obtain ⟨i, hil, rfl⟩ := sameOps_mem ho
      exact hmode i hil
  obtain ⟨h1, h2⟩ := calls_padded (dot := intDot b) hp hm hc.axes_eq hy hc.poolOps.fitting
  refine ⟨_, _, _, h1, h2, seqWith_shape _ _ _ rfl, fun hs => ?_, fun hw hz => ?_⟩
  · obtain ⟨z, e1, _, e3⟩ := C131_zero hb hp hm hc.axes_eq hy hc.poolOps.fitting hint hs
    have h6 := h2.symm.trans e1
    rw [Except.ok.inj (Prod.mk.inj h6).2]
    exact e3
  · have e1 := C131_integer_weights hb hp hm hc.axes_eq hy hc.poolOps.fitting hint hw h1 hz
    exact Except.ok.inj (Prod.mk.inj (h2.symm.trans e1)).2

end

/-- **C131**: the same for `GaussianPoolNd`: a kernel of order zero with at least two weights turns every integer image into zeros. -/
theorem C131_gaussian {size : Given Nat} {sigma : Given ℝ} {st : Given (Option Nat)} {m b : Nat} (hb : 0 < b) (hmp : 0 < m) (hsz : size.Fits m)
    (hg : sigma.Fits m) (hst : st.Fits m) (hv : ∀ s ∈ st.values, s ≠ some 0) (hnz : ∀ s ∈ sigma.values, s ≠ 0) :
    ∃ pool, SepPool.gaussInit (size.toPy pyNat) (sigma.toPy Py.leaf) (.leaf 0) (st.toPy PoolArgs.pyStride) = .ok pool ∧
      ∀ {x y : Tensor ℝ} {ax : Axes} {axes : List Nat} {padder q : Option (Padder ℝ)} {junk : List Nat → ℝ}, axes.length = m → axesOf x.ndim ax = some axes →
        SepPool.pad pool padder junk x (.seq (castV axes)) = (q, .ok y) → Fitting y ((⟨gaussKernels m size sigma (.one 0), st⟩ : PoolArgs ℝ).ops axes) →
        IntEntries b y → (∃ i < axes.length, 2 ≤ size.entry 0 i) →
        ∃ z, SepPool.forwardInt b pool padder junk x ax = (q, .ok z) ∧ ∀ ix, z.get ix = 0 := by
  obtain ⟨pool, h1, h2, _⟩ := C34_gaussian_kernels (size := size) (sigma := sigma) (order := .one 0) (st := st) hmp hsz hg trivial hst hv hnz
  refine ⟨pool, h1, fun {x y ax axes padder q junk} hl hax hy hf hi ⟨i, hil, hs⟩ => ?_⟩
  have hi' : i < m := by omega
  have hσ := hnz _ (entry_mem hg 1 fun _ => hi')
  obtain ⟨w, hw, hlw, hpw, hsw, _⟩ := C37_probability_vector hσ (k := size.entry 0 i) (by omega)
  have hsm : ((⟨gaussKernels m size sigma (.one 0), st⟩ : PoolArgs ℝ).op axes i).kernel ≠ [] ∧
      ∀ a ∈ ((⟨gaussKernels m size sigma (.one 0), st⟩ : PoolArgs ℝ).op axes i).kernel, |a| < 1 := by
    rw [show ((⟨gaussKernels m size sigma (.one 0), st⟩ : PoolArgs ℝ).op axes i).kernel = gaussWeights (size.entry 0 i) (sigma.entry 1 i) 0 from
      gaussKernels_entry hi']
    obtain rfl := Except.ok.inj ((gaussianKernel_weights hσ (size.entry 0 i) 0).symm.trans hw)
    exact ⟨by intro h; rw [h] at hlw; simp at hlw; omega, average_small hpw hsw (by omega)⟩
  obtain ⟨z, e1, _, e3⟩ := C131_zero hb h2 (fun _ => hl) hax hy hf hi ⟨i, hil, hsm⟩
  exact ⟨z, e1, e3⟩

namespace IntegersExample
open SsimExample AdjointExample EnergyExample

theorem ramp_ints : IntEntries 8 (sig [1, 2, 4, 8]) := by
  intro v hv
  have : v = 1 ∨ v = 2 ∨ v = 4 ∨ v = 8 := by
    have hd : (sig [1, 2, 4, 8]).data = [1, 2, 4, 8] := by decide +kernel
    rw [hd] at hv
    simpa using hv
  rcases this with rfl | rfl | rfl | rfl
  · exact ⟨1, by simp, by norm_num, by norm_num⟩
  · exact ⟨2, by simp, by norm_num, by norm_num⟩
  · exact ⟨4, by simp, by norm_num, by norm_num⟩
  · exact ⟨8, by simp, by norm_num, by norm_num⟩

/-- the binomial weights of a blur on an 8-bit image -/
example (junk : List Nat → ℚ) : ∃ pool : SepPool ℚ, ∃ q z, SepPool.init (PoolArgs.pyKernel [1 / 4, 1 / 2, 1 / 4]) (PoolArgs.pyStride (some 1)) = .ok pool ∧
    SepPool.forwardInt 8 pool (some ((args .circular).padder 1)) junk (sig [1, 2, 4, 8]) .none = (q, .ok z) ∧ ∀ ix, z.get ix = 0 := by
  obtain ⟨pool, e1, b1⟩ := one_built [1 / 4, 1 / 2, 1 / 4]
  obtain ⟨q, z, z', h1, h2, h3, h4, _⟩ := C131_same (b := 8) (by norm_num) b1 (by intro h; cases h) (sameCall (Or.inl rfl) _) (holds_padder _ 1)
    (fun i _ => ⟨by simp [args, Given.entry, modeC], by simp [args, Given.entry]⟩) ramp_ints junk
  refine ⟨pool, q, z', e1, h2, h4 ⟨0, by simp, by simp [PoolArgs.op, PoolArgs.filter, Given.entry], ?_⟩⟩
  intro a ha
  have : a = 1 / 4 ∨ a = 1 / 2 := by
    simp [PoolArgs.op, PoolArgs.filter, Given.entry] at ha
    rcases ha with h | h | h <;> simp [h]
  rcases this with rfl | rfl <;> norm_num [abs_of_pos]

/-- the values of the integer filter on a ring -/
def runInt (b : Nat) (w l : List ℚ) : Option (List ℚ) :=
  match SepPool.init (PoolArgs.pyKernel w) (PoolArgs.pyStride (some 1)) with
  | .ok pool => match (SepPool.forwardInt b pool (some ((args .circular).padder 1)) (fun _ => 0) (sig l) .none).2 with
    | .ok z => some z.data
    | .error _ => none
  | .error _ => none

end IntegersExample

open IntegersExample in
/-- **C131**: weights are cut and not rounded to the nearest integer, towards zero on both sides, and results wrap around. -/
theorem C131_differ : runInt 8 [1 / 3, 1 / 3, 1 / 3] [90, 60, 30, 120] = some [0, 0, 0, 0] ∧ runInt 8 [1 / 4, 19 / 10, -19 / 10] [1, 2, 4, 8] = some [-1, -2, -4, 7] ∧
    runInt 8 [1, 2, 1] [1, 2, 4, 8] = some [12, 9, 18, 21] ∧ runInt 8 [1, 2, 1] [100, 100, 0, -100] = some [-56, 44, 0, -100] := by
  decide +kernel

end TI
