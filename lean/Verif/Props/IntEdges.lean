import Verif.Proofs.IntEdges
import Verif.Props.EdgesGauss

/-!
# Edge filters of images with integer entries: C134
-/

set_option linter.unusedSectionVars false

namespace TI
open Tensor Spec

section
variable {α : Type} [Field α] [LinearOrder α] [IsStrictOrderedRing α] [FloorRing α] {t : IntType}
variable {f : EdgeFilter α} {w : List α} {g : Given (List α)} {m a : Nat} {gp : PadArgs α} {x : Tensor α} {X : Tensor t.Word} {ps : EdgePadders α} {ax : Axes} {axes : List Nat}

/-- **C134.** A component of an edge filter, for an image of machine integers: modulo the size of the type it is the response of the numbers to the kernels without
their digits after the point.  This is true for all kernels, also those that are mistaken for `(-1, 0, 1)` or `(1, -2, 1)` on images of floating-point numbers. -/
theorem C134_components (hb : EdgeBuilt f w g m) (hps : HoldsBoth ps gp) (hs : EdgeSetup g gp (numbers X) ax axes) (hm : g.isMany = true → axes.length - 1 = m)
    (hmode : forWords (gp.mode.entry .unknown 0)) (ha : a ∈ axes) (junk : List Nat → t.Word) :
    ∃ ps' Z, f.componentWord t ps junk X (.int a) (.seq (castV axes)) = (ps', .ok Z) ∧ Reduces (edgeResponseInt w g gp (numbers X) axes a) Z ∧ Z.shape = X.shape ∧ HoldsBoth ps' gp := by
  obtain ⟨ps', Z, h1, h2, h3⟩ := hs.componentWord hb.edgeIs hm ha (numbers_sameInt X) hps hmode junk
  exact ⟨ps', Z, h1, rel_reduces h2, by rw [← h2.shape, hs.responseInt_shape w ha]; rfl, h3⟩

theorem Spec.FillsExactly.all (hu : gp.Uniform) (h : FillsExactly gp 0) (i : Nat) : FillsExactly gp i := by
  rw [FillsExactly, uniform_entry hu i, entry_of_not_many hu.2.1 _ i, ← entry_of_not_many hu.2.1 _ 0]
  exact h

theorem filteredInt_id (hu : gp.Uniform) (hf : FillsExactly gp 0) (hg : ∀ i < axes.length, WholeWeights (g.entry [] i)) (x : Tensor α) :
    filteredInt (PoolArgs.filter g) gp x axes = filtered g gp x axes := by
  rw [filteredInt, filtered, paddedInt, truncOps_id hg, padSeq_intOps_id (fun o ho => by
    obtain ⟨i, hi, rfl⟩ := sameOps_mem ho
    exact (Spec.FillsExactly.all hu hf i).2)]

theorem edgeResponseInt_id (hu : gp.Uniform) (hf : FillsExactly gp 0) (hnd : axes.Nodup) (ha : a ∈ axes) (hw : WholeWeights w) (hg : ∀ i < axes.length - 1, WholeWeights (g.entry [] i)) (x : Tensor α) :
    edgeResponseInt w g gp x axes a = edgeResponse w g gp x axes a := by
  rw [edgeResponseInt, edgeResponse, filteredInt_id hu hf (by rw [filter_ne_length hnd ha]; exact hg), filteredInt_id (g := .one w) hu hf (fun i _ => hw)]

theorem usedKernel_integral (hw : WholeWeights w) : usedKernel w = w := by
  have hmap : (w.map truncInt).map (Int.cast : ℤ → α) = w := by
    rw [List.map_map]
    conv_rhs => rw [← List.map_id w]
    refine List.map_congr_left fun v hv => ?_
    obtain ⟨n, rfl⟩ := hw v hv
    simp [truncInt_eq, towardZero_int]
  rw [usedKernel]
  split_ifs with h1 h2
  · rw [← trunc_first] at h1
    rw [← hmap, h1]
    simp
  · rw [← trunc_second] at h2
    rw [← hmap, h2]
    simp
  · rfl

/-- **C134.** With integer weights the components of an integer image agree with those of its numbers, modulo the size of the type, and exactly if they fit. -/
theorem C134_exact (hbits : 0 < t.bits) (hb : EdgeBuilt f w g m) (hps : HoldsBoth ps gp) (hs : EdgeSetup g gp (numbers X) ax axes) (hm : g.isMany = true → axes.length - 1 = m)
    (hmode : FillsExactly gp 0) (hw : WholeWeights w) (hg : ∀ i < axes.length - 1, WholeWeights (g.entry [] i)) (ha : a ∈ axes) (junk : List Nat → t.Word) (junk' : List Nat → α) :
    ∃ ps' ps'' z Z, f.component ps junk' (numbers X) (.int a) (.seq (castV axes)) = (ps', .ok z) ∧ f.componentWord t ps junk X (.int a) (.seq (castV axes)) = (ps'', .ok Z) ∧
      Reduces z Z ∧ (Held t z → numbers Z = z) := by
  obtain ⟨ps', e, _⟩ := hs.component hb.edgeIs hm ha hps junk'
  obtain ⟨ps'', Z, h1, h2, _⟩ := C134_components hb hps hs hm hmode.1 ha junk
  rw [edgeResponseInt_id hs.uniform hmode hs.nodup ha hw hg] at h2
  rw [usedKernel_integral hw] at e
  exact ⟨ps', ps'', _, Z, e, h1, h2, fun hz => h2.held hbits hz⟩

theorem edgeResponseInt_small (hnd : axes.Nodup) (ha : a ∈ axes) (hg : ∃ i < axes.length - 1, Small (g.entry [] i)) (x : Tensor α) (ix : List Nat) :
    (edgeResponseInt w g gp x axes a).get ix = 0 := by
  obtain ⟨i, hi, h⟩ := hg
  rw [edgeResponseInt, filteredInt, Tensor.get]
  exact poolSeq_small (ops := (PoolArgs.filter g).ops (axes.filter fun b => b ≠ a)) ⟨_, mem_ops.2 ⟨i, by rw [filter_ne_length hnd ha]; exact hi, rfl⟩, h.1, h.2⟩ _ _

/-- **C134.** If the weights of one of the smoothing kernels are smaller than one, all components of all integer images are zero. -/
theorem C134_zero (hb : EdgeBuilt f w g m) (hps : HoldsBoth ps gp) (hs : EdgeSetup g gp (numbers X) ax axes) (hm : g.isMany = true → axes.length - 1 = m)
    (hmode : forWords (gp.mode.entry .unknown 0)) (hg : ∃ i < axes.length - 1, Small (g.entry [] i)) (ha : a ∈ axes) (junk : List Nat → t.Word) :
    ∃ ps' Z, f.componentWord t ps junk X (.int a) (.seq (castV axes)) = (ps', .ok Z) ∧ Z.shape = X.shape ∧ ∀ ix, Z.get ix = 0 := by
  obtain ⟨ps', Z, h1, h2, h3, _⟩ := C134_components hb hps hs hm hmode ha junk
  refine ⟨ps', Z, h1, h3, fun ix => ?_⟩
  obtain ⟨n, e1, e2⟩ := h2.2 ix
  rw [edgeResponseInt_small hs.nodup ha hg] at e1
  have hn : n = 0 := Int.cast_eq_zero.1 e1.symm
  rw [e2, hn]
  simp

/-- **C134.** `Sobel`, `Prewitt` and `Scharr` without normalisation respond to integer images as to their numbers, modulo the size of the type.  With
normalisation, and for `Farid` in any case, they do not respond at all. -/
theorem C134_named (hbits : 0 < t.bits) (hps : HoldsBoth ps gp) (hmode : FillsExactly gp 0) (junk : List Nat → t.Word) (junk' : List Nat → α) :
    (∀ f : EdgeFilter α, (EdgeFilter.sobel false = .ok f ∨ EdgeFilter.prewitt false = .ok f ∨ EdgeFilter.scharr false = .ok f) →
      (∀ s, EdgeSetup (.one s) gp (numbers X) ax axes) → ∀ a ∈ axes, ∃ ps' ps'' z Z, f.component ps junk' (numbers X) (.int a) (.seq (castV axes)) = (ps', .ok z) ∧
        f.componentWord t ps junk X (.int a) (.seq (castV axes)) = (ps'', .ok Z) ∧ Reduces z Z ∧ (Held t z → numbers Z = z)) ∧
    (∀ f : EdgeFilter α, (EdgeFilter.sobel true = .ok f ∨ EdgeFilter.prewitt true = .ok f ∨ EdgeFilter.scharr true = .ok f ∨ EdgeFilter.farid true = .ok f ∨
        EdgeFilter.farid false = .ok f) →
      (∀ s, EdgeSetup (.one s) gp (numbers X) ax axes) → ∀ a ∈ axes, ∃ ps' Z, f.componentWord t ps junk X (.int a) (.seq (castV axes)) = (ps', .ok Z) ∧ Z.shape = X.shape ∧
        ∀ ix, Z.get ix = 0) := by
  have i3 : ∀ u v : ℤ, WholeWeights ([(u : α), (v : α), (u : α)]) := by
    intro u v a ha
    simp only [List.mem_cons, List.not_mem_nil, or_false] at ha
    rcases ha with rfl | rfl | rfl <;> exact ⟨_, rfl⟩
  have iw : WholeWeights ([-1, 0, 1] : List α) := by
    intro a ha
    simp only [List.mem_cons, List.not_mem_nil, or_false] at ha
    rcases ha with rfl | rfl | rfl
    · exact ⟨-1, by simp⟩
    · exact ⟨0, by simp⟩
    · exact ⟨1, by simp⟩
  constructor
  · intro f hf hs a ha
    have key : ∀ u v : ℤ, EdgeBuilt f [-1, 0, 1] (.one [(u : α), (v : α), (u : α)]) 1 → ∃ ps' ps'' z Z, f.component ps junk' (numbers X) (.int a) (.seq (castV axes)) = (ps', .ok z) ∧
        f.componentWord t ps junk X (.int a) (.seq (castV axes)) = (ps'', .ok Z) ∧ Reduces z Z ∧ (Held t z → numbers Z = z) := by
      intro u v hb
      exact C134_exact hbits hb hps (hs _) (by intro h; cases h) hmode iw (fun i _ => i3 u v) ha junk junk'
    obtain ⟨⟨f1, e1, b1⟩, ⟨f2, e2, b2⟩, ⟨f3, e3, b3⟩, _⟩ := C42_named (α := α) false
    rcases hf with h | h | h
    · rw [e1] at h; cases h
      exact key 1 2 (by simpa using b1)
    · rw [e2] at h; cases h
      exact key 1 1 (by simpa using b2)
    · rw [e3] at h; cases h
      exact key 3 10 (by simpa using b3)
  · intro f hf hs a ha
    have key : ∀ (v s : List α), EdgeBuilt f v (.one s) 1 → Small s → ∃ ps' Z, f.componentWord t ps junk X (.int a) (.seq (castV axes)) = (ps', .ok Z) ∧ Z.shape = X.shape ∧
        ∀ ix, Z.get ix = 0 := by
      intro v s hb hsm
      have h2 := (hs s).two
      exact C134_zero hb hps (hs _) (by intro h; cases h) hmode.1 ⟨0, by omega, hsm⟩ ha junk
    have hsm : ∀ {s : List α}, s ≠ [] → (∀ a ∈ s, 0 ≤ a ∧ a < 1) → Small s := fun h1 h2 => ⟨h1, fun a ha => by rw [abs_of_nonneg (h2 a ha).1]; exact (h2 a ha).2⟩
    have hfa : Small (EdgeFilter.faridSmooth : List α) := by
      refine hsm (by simp [EdgeFilter.faridSmooth]) fun a ha => ?_
      simp only [EdgeFilter.faridSmooth, List.mem_cons, List.not_mem_nil, or_false] at ha
      rcases ha with rfl | rfl | rfl | rfl | rfl <;> constructor <;> norm_num
    have hno : ∀ {s : List α}, s ≠ [] → (∀ a ∈ s, 0 ≤ a ∧ a < s.sum) → Small (normalised s) := by
      intro s h1 h2
      refine hsm (by simpa [normalised] using h1) fun a ha => ?_
      obtain ⟨b, hb, rfl⟩ := List.mem_map.1 ha
      obtain ⟨h3, h4⟩ := h2 b hb
      have : 0 < s.sum := lt_of_le_of_lt h3 h4
      exact ⟨div_nonneg h3 this.le, (div_lt_one this).2 h4⟩
    obtain ⟨⟨f1, e1, b1⟩, ⟨f2, e2, b2⟩, ⟨f3, e3, b3⟩, ⟨f4, e4, b4⟩, _⟩ := C42_named (α := α) true
    obtain ⟨_, _, _, ⟨f5, e5, b5⟩, _⟩ := C42_named (α := α) false
    rcases hf with h | h | h | h | h
    · rw [e1] at h; cases h
      refine key _ _ b1 (hno (by simp) fun a ha => ?_)
      simp only [List.mem_cons, List.not_mem_nil, or_false] at ha
      rcases ha with rfl | rfl | rfl <;> constructor <;> norm_num
    · rw [e2] at h; cases h
      refine key _ _ b2 (hno (by simp) fun a ha => ?_)
      simp only [List.mem_cons, List.not_mem_nil, or_false] at ha
      rcases ha with rfl | rfl | rfl <;> constructor <;> norm_num
    · rw [e3] at h; cases h
      refine key _ _ b3 (hno (by simp) fun a ha => ?_)
      simp only [List.mem_cons, List.not_mem_nil, or_false] at ha
      rcases ha with rfl | rfl | rfl <;> constructor <;> norm_num
    · rw [e4] at h; cases h
      refine key _ _ b4 (hno (by simp [EdgeFilter.faridSmooth]) fun a ha => ?_)
      simp only [EdgeFilter.faridSmooth, List.mem_cons, List.not_mem_nil, or_false] at ha
      rcases ha with rfl | rfl | rfl | rfl | rfl <;> constructor <;> norm_num [EdgeFilter.faridSmooth]
    · rw [e5] at h; cases h
      exact key _ _ b5 hfa

theorem magnitudeWord_eq (hb : EdgeBuilt f w g m) (hps : HoldsBoth ps gp) (hs : EdgeSetup g gp (numbers X) ax axes) (hm : g.isMany = true → axes.length - 1 = m)
    (hmode : forWords (gp.mode.entry .unknown 0)) (p : Nat) (junk : List Nat → t.Word) :
    ∃ ps', ∃ M : Tensor t.Word, f.magnitudeLoopWord t junk X (castV axes) p (castV axes) ps none = (ps', .ok (some M)) ∧
      Reduces (powerSum X.shape p (edgeResponseInt w g gp (numbers X) axes) axes) M ∧
      ∀ (root : α → α) (epsilon : α), f.magnitudeWord t root ps junk X ax epsilon p = if epsilon ≠ 0 then (ps', .error .runtime) else if p = 1 then (ps', .ok (numbers M))
        else if p = 0 then (ps', .error .zeroDivision) else (ps', .ok ((numbers M).map root)) := by
  obtain ⟨ps', M, h1, h2, _⟩ := magnitudeLoopWord_eq (f := f) (junk := junk) (X := X) (p := p) (Inv := fun ps => HoldsBoth ps gp) (S := X.shape)
    (c := edgeResponseInt w g gp (numbers X) axes) (as := axes) (l := castV axes) (by rintro rfl; simpa using hs.two) hps
    (fun a ha ps hps => hs.componentWord hb.edgeIs hm ha (numbers_sameInt X) hps hmode junk) (fun a ha => hs.responseInt_shape w ha)
  refine ⟨ps', M, h1, rel_reduces h2, fun root epsilon => ?_⟩
  have hlen : ¬ (castV axes).length < 2 := by rw [castV, List.length_map]; have := hs.two; omega
  have hax : checkAxes X.ndim ax = .ok (castV axes) := (checkAxes_spec hs.axes_eq).1
  simp only [EdgeFilter.magnitudeWord, hax, hlen, if_false, h1]
  rfl

/-- **C134.** The magnitude of the gradient of an integer image is the root of a number that agrees with the sum of the powers of the components modulo the size of the type
only; for `p = 1` there is no root.  (If both kernels are empty and `p = 1` the sum is accumulated in the image itself, as in `C128_identity`.) -/
theorem C134_magnitude (hb : EdgeBuilt f w g m) (hps : HoldsBoth ps gp) (hs : EdgeSetup g gp (numbers X) ax axes) (hm : g.isMany = true → axes.length - 1 = m)
    (hmode : forWords (gp.mode.entry .unknown 0)) (root : α → α) {p : Nat} (hp : p ≠ 0) (_hact : Acts w g axes.length p) (junk : List Nat → t.Word) :
    ∃ ps', ∃ M : Tensor t.Word, f.magnitudeWord t root ps junk X ax 0 p = (ps', .ok (if p = 1 then numbers M else (numbers M).map root)) ∧
      Reduces (powerSum X.shape p (edgeResponseInt w g gp (numbers X) axes) axes) M := by
  obtain ⟨ps', M, _, h2, h3⟩ := magnitudeWord_eq hb hps hs hm hmode p junk
  refine ⟨ps', M, ?_, h2⟩
  rw [h3, if_neg (by simp), if_neg hp]
  split_ifs <;> rfl

/-- **C134.** Any float `epsilon` other than zero is refused for integer images. -/
theorem C134_rejects (hb : EdgeBuilt f w g m) (hps : HoldsBoth ps gp) (hs : EdgeSetup g gp (numbers X) ax axes) (hm : g.isMany = true → axes.length - 1 = m)
    (hmode : forWords (gp.mode.entry .unknown 0)) (root : α → α) {epsilon : α} (he : epsilon ≠ 0) (p : Nat) (junk : List Nat → t.Word) :
    (f.magnitudeWord t root ps junk X ax epsilon p).2 = .error .runtime ∧ (f.magnitudeWord t root ps junk X ax 0 0).2 = .error .zeroDivision := by
  obtain ⟨ps', M, _, _, h3⟩ := magnitudeWord_eq hb hps hs hm hmode p junk
  obtain ⟨ps'', M', _, _, h4⟩ := magnitudeWord_eq hb hps hs hm hmode 0 junk
  exact ⟨by rw [h3, if_pos he], by rw [h4, if_neg (by simp), if_neg (by simp), if_pos rfl]⟩

/-- **C134.** `Laplace` of an integer image agrees with `Laplace` of its numbers modulo the size of the type, and exactly if the latter fits. -/
theorem C134_laplace (hbits : 0 < t.bits) (hps : HoldsBoth ps gp) (hs : EdgeSetup (.one []) gp (numbers X) ax axes) (hmode : FillsExactly gp 0) (junk : List Nat → t.Word) (junk' : List Nat → α) :
    ∃ f : EdgeFilter α, EdgeFilter.laplace = .ok f ∧ ∃ ps' ps'' z, ∃ M : Tensor t.Word, f.laplaceForward ps junk' (numbers X) ax = (ps', .ok z) ∧
      f.magnitudeWord t id ps junk X ax 0 1 = (ps'', .ok (numbers M)) ∧ Reduces z M ∧ (Held t z → numbers M = z) := by
  obtain ⟨f, e, hb⟩ := laplace_built (α := α)
  have hw : WholeWeights ([1, -2, 1] : List α) := by
    intro a ha
    simp only [List.mem_cons, List.not_mem_nil, or_false] at ha
    rcases ha with rfl | rfl | rfl
    · exact ⟨1, by simp⟩
    · exact ⟨-2, by simp⟩
    · exact ⟨1, by simp⟩
  have hact : Acts ([1, -2, 1] : List α) (.one []) axes.length 1 := Or.inr (Or.inl (by simp))
  obtain ⟨ps'', M, h1, h2⟩ := C134_magnitude hb hps hs (by intro h; cases h) hmode.1 id one_ne_zero hact junk
  obtain ⟨ps', e', _⟩ := magnitude_eq (f := f) (junk := junk') (Inv := fun ps => HoldsBoth ps gp) (root := id) one_ne_zero (S := X.shape)
    (c := edgeResponse (usedKernel [1, -2, 1]) (.one []) gp (numbers X) axes) hs.axes_eq hs.two hps
    (fun a ha ps hps => hs.component hb.edgeIs (by intro h; cases h) ha hps junk') (fun a ha => hs.response_shape _ ha) (hs.own hb.edgeIs (by intro h; cases h) hact junk') 0
  refine ⟨f, e, ps', ps'', _, M, e', by simpa using h1, ?_⟩
  have hz : ((powerSum X.shape 1 (edgeResponse (usedKernel [1, -2, 1]) (.one []) gp (numbers X) axes) axes).map fun v => if 1 = 1 then v + 0 else id (v + 0)) =
      powerSum X.shape 1 (edgeResponseInt [1, -2, 1] (.one []) gp (numbers X) axes) axes := by
    refine ext_get rfl fun ix hix => ?_
    have hix : InB X.shape ix := hix
    rw [get_map _ _ (by simpa [powerSum] using hix), powerSum, powerSum, get_ofFn hix, get_ofFn hix, usedKernel_integral hw, if_pos rfl, add_zero]
    congr 1
    refine List.map_congr_left fun a ha => ?_
    rw [edgeResponseInt_id hs.uniform hmode hs.nodup ha hw (fun i _ a ha => by simp [Given.entry] at ha)]
  exact ⟨hz ▸ h2, fun hh => (hz ▸ h2 : Reduces _ M).held hbits hh⟩

end

namespace IntEdgesExample
open IntPadExample

/-- a picture with 8 bits -/
def picture (t : IntType) : Tensor t.Word := ⟨[3, 4], [10, 20, 200, 250, 0, 7, 255, 3, 90, 91, 92, 93].map (BitVec.ofInt t.bits), rfl⟩

theorem setup (t : IntType) {g : Given (List ℚ)} (hg : g.isMany = false) : EdgeSetup g (Example.modeArgs .reflect) (numbers (picture t)) .none [0, 1] where
  axes_eq := by simp [numbers, picture, Tensor.ndim, Tensor.map, axesOf, List.range_succ]
  two := by decide
  nodup := by decide
  fits := by intro h; rw [hg] at h; cases h
  pos := by intro a ha; simp at ha; rcases ha with rfl | rfl <;> simp [numbers, picture, Tensor.map]
  uniform := ⟨rfl, rfl, rfl, rfl⟩
  valued := by intro s hs; rw [hs]; simp [AxisPad.rule?, hs, Example.modeArgs, Given.entry]
  keep := Or.inl rfl

theorem fills : FillsExactly (Example.modeArgs .reflect : PadArgs ℚ) 0 := by
  simp [FillsExactly, Example.modeArgs, Given.entry, forWords, forIntegers, isStat]

/-- `Sobel` and the normalised `Prewitt` on a picture with 8 bits -/
example (junk : List Nat → uint8.Word) (junk' : List Nat → ℚ) :
    (∃ f : EdgeFilter ℚ, EdgeFilter.sobel false = .ok f ∧ ∃ ps' ps'' z Z, f.component Example.reflectTwo junk' (numbers (picture uint8)) (.int (1 : Nat)) (.seq (castV [0, 1])) = (ps', .ok z) ∧
      f.componentWord uint8 Example.reflectTwo junk (picture uint8) (.int (1 : Nat)) (.seq (castV [0, 1])) = (ps'', .ok Z) ∧ Reduces z Z) ∧
    (∃ f : EdgeFilter ℚ, EdgeFilter.prewitt true = .ok f ∧ ∃ ps' Z,
      f.componentWord uint8 Example.reflectTwo junk (picture uint8) (.int (1 : Nat)) (.seq (castV [0, 1])) = (ps', .ok Z) ∧ ∀ ix, Z.get ix = 0) := by
  obtain ⟨h1, h2⟩ := C134_named (t := uint8) (X := picture uint8) (ax := .none) (axes := [0, 1]) (by decide) Example.reflectTwo_holds fills junk junk'
  obtain ⟨⟨f, e, _⟩, _⟩ := C42_named (α := ℚ) false
  obtain ⟨_, ⟨f', e', _⟩, _⟩ := C42_named (α := ℚ) true
  obtain ⟨ps', ps'', z, Z, a1, a2, a3, _⟩ := h1 f (Or.inl e) (fun s => setup uint8 rfl) 1 (by simp)
  obtain ⟨ps, Z', b1, _, b2⟩ := h2 f' (Or.inr (Or.inl e')) (fun s => setup uint8 rfl) 1 (by simp)
  exact ⟨⟨f, e, ps', ps'', z, Z, a1, a2, a3⟩, f', e', ps, Z', b1, b2⟩

/-- `Laplace` and the magnitude on a picture with signed 8 bits -/
example (junk : List Nat → int8.Word) (junk' : List Nat → ℚ) :
    (∃ f : EdgeFilter ℚ, EdgeFilter.laplace = .ok f ∧ ∃ ps' ps'' z, ∃ M : Tensor int8.Word, f.laplaceForward Example.reflectTwo junk' (numbers (picture int8)) .none = (ps', .ok z) ∧
      f.magnitudeWord int8 id Example.reflectTwo junk (picture int8) .none 0 1 = (ps'', .ok (numbers M)) ∧ Reduces z M) ∧
    ∃ f : EdgeFilter ℚ, EdgeFilter.sobel false = .ok f ∧ (∃ ps', ∃ M : Tensor int8.Word, f.magnitudeWord int8 id Example.reflectTwo junk (picture int8) .none 0 2 = (ps', .ok ((numbers M).map id))) ∧
      (f.magnitudeWord int8 id Example.reflectTwo junk (picture int8) .none (1 / 100) 2).2 = .error .runtime := by
  obtain ⟨f, e, ps', ps'', z, M, h1, h2, h3, _⟩ := C134_laplace (t := int8) (by decide) Example.reflectTwo_holds (setup int8 rfl) fills junk junk'
  obtain ⟨f', e', hb⟩ := Example.sobel_built
  obtain ⟨ps, M', h4, _⟩ := C134_magnitude hb Example.reflectTwo_holds (setup int8 rfl) (by intro h; cases h) fills.1 id two_ne_zero (Or.inl (by decide)) junk
  exact ⟨⟨f, e, ps', ps'', z, M, h1, h2, h3⟩, f', e', ⟨ps, M', by simpa using h4⟩,
    (C134_rejects hb Example.reflectTwo_holds (setup int8 rfl) (by intro h; cases h) fills.1 id (by norm_num) 2 junk).1⟩

/-- the numbers of a component of a filter of a picture -/
def runComponent (t : IntType) (f : Except Err (EdgeFilter ℚ)) (x : Tensor t.Word) (a : Int) : Option (List ℤ) :=
  match f with
  | .ok f => match (f.componentWord t Example.reflectTwo (fun _ => 0) x (.int a) .none).2 with
    | .ok z => some (z.data.map t.value)
    | .error _ => none
  | .error _ => none

/-- the magnitude, without its root -/
def runMagnitude (t : IntType) (f : Except Err (EdgeFilter ℚ)) (x : Tensor t.Word) (epsilon : ℚ) : Option (List ℚ) :=
  match f with
  | .ok f => match (f.magnitudeWord t id Example.reflectTwo (fun _ => 0) x .none epsilon 2).2 with
    | .ok z => some z.data
    | .error _ => none
  | .error _ => none

end IntEdgesExample

open IntEdgesExample IntPadExample in
/-- **C134**: a falling edge of 10 counts as a response of 216 on unsigned integers, a step of 4 has a magnitude of zero, normalised filters see nothing, `epsilon` is refused. -/
theorem C134_differ :
    runComponent uint8 (EdgeFilter.sobel false) ⟨[2, 4], [20, 20, 10, 10, 20, 20, 10, 10].map (BitVec.ofInt 8), rfl⟩ 1 = some [0, 216, 216, 0, 0, 216, 216, 0] ∧
    runComponent int8 (EdgeFilter.sobel false) ⟨[2, 4], [20, 20, 10, 10, 20, 20, 10, 10].map (BitVec.ofInt 8), rfl⟩ 1 = some [0, -40, -40, 0, 0, -40, -40, 0] ∧
    runComponent uint8 (EdgeFilter.sobel true) ⟨[2, 4], [20, 20, 10, 10, 20, 20, 10, 10].map (BitVec.ofInt 8), rfl⟩ 1 = some [0, 0, 0, 0, 0, 0, 0, 0] ∧
    runMagnitude uint8 (EdgeFilter.sobel false) ⟨[2, 4], [8, 8, 12, 12, 8, 8, 12, 12].map (BitVec.ofInt 8), rfl⟩ 0 = some [0, 0, 0, 0, 0, 0, 0, 0] ∧
    runMagnitude uint8 (EdgeFilter.sobel false) ⟨[2, 4], [8, 8, 12, 12, 8, 8, 12, 12].map (BitVec.ofInt 8), rfl⟩ (1 / 100) = none := by
  decide +kernel

end TI
