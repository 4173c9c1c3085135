import Verif.Proofs.Coincide
import Verif.Props.Steps
import Verif.Props.EdgeSym

/-!
# Modes that coincide (C113)
-/

set_option linter.unusedSectionVars false

namespace TI
open Tensor Spec

variable {α : Type} [Field α] [LinearOrder α] [IsStrictOrderedRing α] {x : Tensor α} {ax : Axes} {axes : List Nat}

theorem forall₂_zip {β γ : Type} {R : β × γ → β × γ → Prop} : ∀ {l : List β} {s s' : List γ}, s.length = l.length → s'.length = l.length →
    (∀ j (h : j < l.length) (g : j < s.length) (g' : j < s'.length), R (l[j], s[j]) (l[j], s'[j])) → List.Forall₂ R (l.zip s) (l.zip s')
  | [], [], [], _, _, _ => .nil
  | a :: l, b :: s, c :: s', h1, h2, h => .cons (h 0 (by simp) (by simp) (by simp)) (forall₂_zip (by simpa using h1) (by simpa using h2)
      fun j g g1 g2 => h (j + 1) (by simpa using g) (by simpa using g1) (by simpa using g2))

/-- **C113.** Two padders whose settings belong, axis by axis, to the same family return the same image: the edge family (edge values, statistics
of one sample, mirrors for one sample, nearly everything on axes of one sample), the line family, the ring family, the lower statistics, the
fixed values.  The lengths are those of the axes of the image. -/
theorem C113_pad {p p' : Padder α} {ss ss' : List (AxisPad α)} (h : PadCall p x ax axes ss) (h' : PadCall p' x ax axes ss')
    (l : ss'.length = ss.length)
    (hc : ∀ j (g : j < ss.length) (g' : j < ss'.length), ss[j].Coincide (x.shape.getD (axes.getD (axes.length - ss.length + j) 0) 0) ss'[j])
    (junk junk' : List Nat → α) : p'.forward junk' x ax = p.forward junk x ax := by
  rw [C16_forward_sequential h junk, C16_forward_sequential h' junk']
  congr 1
  have hle := h.len_le
  refine padSeq_coincide h.nd h.lt ?_
  have hv := h.valued
  simp only [zipRight, l] at hv ⊢
  apply forall₂_zip (by rw [List.length_drop]; omega) (by rw [List.length_drop]; omega)
  intro j hj g g'
  have hx := hc j g g'
  refine ⟨rfl, hx.before, hx.after, fun hz => ?_⟩
  have e : (axes.drop (axes.length - ss.length))[j] = axes.getD (axes.length - ss.length + j) 0 := by
    rw [List.getElem_drop]
    have : axes.length - ss.length + j < axes.length := by omega
    simp [this]
  have hm : ((axes.drop (axes.length - ss.length))[j], ss[j]) ∈ (axes.drop (axes.length - ss.length)).zip ss :=
    List.mem_iff_getElem.2 ⟨j, by simp at hj ⊢; omega, by simp⟩
  refine ⟨(hv _ hm hz).2.2, ?_⟩
  simp only [e]
  exact hx

section
variable {pool : SepPool α} {g : PoolArgs α} {m : Nat}

theorem same_coincide {gp gp' : PadArgs α} (hc : SameCall g gp x ax axes)
    (hs : ∀ i < axes.length, (sameSetting g gp x.shape axes i).Coincide (x.shape.getD (axes.getD i 0) 0) (sameSetting g gp' x.shape axes i)) :
    padSeq x (sameOps g gp' x.shape axes) = padSeq x (sameOps g gp x.shape axes) := by
  refine padSeq_coincide (by rw [sameOps_fst]; exact hc.nodup) hc.lt ?_
  apply forall₂_zip (by simp) (by simp)
  intro j hj g1 g2
  simp only [List.getElem_map, List.getElem_range]
  rw [withWidths_entry _ _ _ _ hj, withWidths_entry _ _ _ _ hj]
  have e : axes[j] = axes.getD j 0 := by simp [hj]
  rw [e]
  have := hs j hj
  exact ⟨trivial, this.before, this.after, fun _ => ⟨hc.pos _ (getD_mem_lt hj), this⟩⟩

/-- **C113** for pooling with same padding. -/
theorem C113_pool {gp gp' : PadArgs α} {p p' : Padder α} (hb : Built pool g m) (hc : SameCall g gp x ax axes) (hc' : SameCall g gp' x ax axes)
    (hm : g.isMany = true → axes.length = m) (hp : Holds p gp) (hp' : Holds p' gp')
    (hs : ∀ i < axes.length, (sameSetting g gp x.shape axes i).Coincide (x.shape.getD (axes.getD i 0) 0) (sameSetting g gp' x.shape axes i))
    (junk junk' : List Nat → α) :
    (SepPool.forward pool (some p') junk' x ax).2 = (SepPool.forward pool (some p) junk x ax).2 := by
  rw [hb.poolIs.1.forward_same hc hm hp junk, hb.poolIs.1.forward_same hc' hm hp' junk', same_coincide hc hs]

theorem small_coincide {gp gp' : PadArgs α} (hc : SameCall g gp x ax axes)
    (hk : ∀ i < axes.length, (g.op axes i).kernel.length ≤ 3 ∧ (g.op axes i).stride = 1)
    (hs : ∀ i < axes.length, SmallAlike (x.shape.getD (axes.getD i 0) 0) (gp.mode.entry .unknown i) (gp'.mode.entry .unknown i)) :
    ∀ i < axes.length, (sameSetting g gp x.shape axes i).Coincide (x.shape.getD (axes.getD i 0) 0) (sameSetting g gp' x.shape axes i) := by
  intro i hi
  have ht : ∀ q : PadArgs α, (sameSetting g q x.shape axes i).Thin := by
    intro q
    obtain ⟨h1, h2⟩ := hk i hi
    simp only [AxisPad.Thin, sameSetting, PoolArgs.samePair, PoolArgs.sameTotal, h2, ceilDiv_one]
    omega
  refine ⟨rfl, rfl, ?_⟩
  rcases hs i hi with ⟨h1, h2⟩ | ⟨h1, h2, hn⟩
  · refine .inl ⟨?_, ?_⟩
    · rcases h1 with h | h
      · exact .inl h
      · exact .inr (.inr (.inl ⟨h, .inl (ht gp)⟩))
    · rcases h2 with h | h
      · exact .inl h
      · exact .inr (.inr (.inl ⟨h, .inl (ht gp')⟩))
  · refine .inr (.inl ⟨⟨hn, ?_⟩, hn, ?_⟩)
    · exact h1.imp_right fun h => ⟨h, .inl (ht gp)⟩
    · exact h2.imp_right fun h => ⟨h, .inl (ht gp')⟩

/-- **C113** for small kernels: with kernels of at most three entries and stride one it makes no difference whether the image is continued by edge
values or mirrored about its edges, evenly or oddly; nor whether by straight lines or by point reflection; the other settings of the padders are
irrelevant. -/
theorem C113_small_kernels {gp gp' : PadArgs α} {p p' : Padder α} (hb : Built pool g m) (hc : SameCall g gp x ax axes)
    (hc' : SameCall g gp' x ax axes) (hm : g.isMany = true → axes.length = m) (hp : Holds p gp) (hp' : Holds p' gp')
    (hk : ∀ i < axes.length, (g.op axes i).kernel.length ≤ 3 ∧ (g.op axes i).stride = 1)
    (hs : ∀ i < axes.length, SmallAlike (x.shape.getD (axes.getD i 0) 0) (gp.mode.entry .unknown i) (gp'.mode.entry .unknown i))
    (junk junk' : List Nat → α) :
    (SepPool.forward pool (some p') junk' x ax).2 = (SepPool.forward pool (some p) junk x ax).2 :=
  C113_pool hb hc hc' hm hp hp' (small_coincide hc hk hs) junk junk'

end

section
variable [FloorRing α] {f : EdgeFilter α} {w : List α} {g : Given (List α)} {m : Nat} {ps ps' : EdgePadders α} {gp gp' : PadArgs α}

theorem filtered_small (hc : SameCall (PoolArgs.filter g) gp x ax axes) (hk : ∀ k ∈ g.values, k.length ≤ 3)
    (hs : ∀ i < axes.length, SmallAlike (x.shape.getD (axes.getD i 0) 0) (gp.mode.entry .unknown i) (gp'.mode.entry .unknown i)) :
    filtered g gp' x axes = filtered g gp x axes := by
  rw [filtered, filtered, same_coincide hc (small_coincide hc ?_ hs)]
  intro i hi
  refine ⟨?_, rfl⟩
  show (g.entry [] i).length ≤ 3
  cases g with
  | one k => exact hk k (by simp [Given.values])
  | many l =>
    rw [Given.entry]
    by_cases h : i < l.length
    · have : l.getD i [] = l[i] := by simp [h]
      rw [this]
      exact hk _ (by simp [Given.values])
    · simp [h]

theorem edgeResponse_small (h : EdgeSetup g gp x ax axes) (hw : w.length ≤ 3) (hk : ∀ k ∈ g.values, k.length ≤ 3)
    (hu : gp'.Uniform) (hs : ∀ a ∈ axes, SmallAlike (x.shape.getD a 0) (gp.mode.entry .unknown 0) (gp'.mode.entry .unknown 0)) {a : Nat} (ha : a ∈ axes) :
    edgeResponse w g gp' x axes a = edgeResponse w g gp x axes a := by
  have hc := h.edgeCall w ha
  rw [edgeResponse, edgeResponse, filtered_small hc.edge (by simpa [Given.values] using hw) (by
      intro i hi
      obtain rfl : i = 0 := by simpa using hi
      exact hs a ha), filtered_small hc.smooth hk ?_]
  intro i hi
  rw [uniform_entry h.uniform, uniform_entry hu, h.edge_shape w ha]
  exact hs _ (List.mem_of_mem_filter (getD_mem_lt hi))

/-- **C113** for the edge filters with kernels of at most three entries (Sobel, Scharr, Prewitt): the components and the magnitudes are the same
whether the image is continued by edge values or mirrored about its edges; and whether it is continued by straight lines or by point reflection. -/
theorem C113_edges (hf : EdgeBuilt f w g m) (hps : HoldsBoth ps gp) (hps' : HoldsBoth ps' gp') (h : EdgeSetup g gp x ax axes)
    (h' : EdgeSetup g gp' x ax axes) (hm : g.isMany = true → axes.length - 1 = m) (hw : w.length ≤ 3) (hk : ∀ k ∈ g.values, k.length ≤ 3)
    (hs : ∀ a ∈ axes, SmallAlike (x.shape.getD a 0) (gp.mode.entry .unknown 0) (gp'.mode.entry .unknown 0)) (junk junk' : List Nat → α) :
    (f.allComponents ps' junk' x ax).2 = (f.allComponents ps junk x ax).2 ∧
    ∀ (root : α → α) (epsilon : α) {p : Nat}, p ≠ 0 → Acts w g axes.length p →
      (f.magnitude root ps' junk' x ax epsilon p).2 = (f.magnitude root ps junk x ax epsilon p).2 := by
  have key : ∀ a ∈ axes, edgeResponse (usedKernel w) g gp' x axes a = edgeResponse (usedKernel w) g gp x axes a :=
    fun a ha => edgeResponse_small h (by rw [usedKernel_length]; exact hw) hk h'.uniform hs ha
  constructor
  · obtain ⟨q, e, -⟩ := C75_components hf hps h hm junk
    obtain ⟨q', e', -⟩ := C75_components hf hps' h' hm junk'
    rw [e, e']
    simp only [Except.ok.injEq]
    exact List.map_congr_left key
  · intro root epsilon p hp hact
    obtain ⟨q, e⟩ := magnitude_form hf hps h hm root epsilon hp hact junk
    obtain ⟨q', e'⟩ := magnitude_form hf hps' h' hm root epsilon hp hact junk'
    rw [e, e']
    simp only [Except.ok.injEq]
    congr 1
    apply ofFn_congr
    intro ix hix
    congr 1
    exact List.map_congr_left fun a ha => by rw [key a ha]

end

/-- **C113**, the conditions are needed: two samples of `1, 2` mirrored are `2, 1`, repeated they are `1, 1`; the median of three samples is not
the smallest; a ramp of two samples is not constant. -/
theorem C113_conditions : ∃ p q : Padder ℚ,
    Padder.init (.seq [.leaf 2, .leaf 0]) (.leaf Mode.symmetric) (.leaf 0) (.leaf 0) (.leaf none) = .ok p ∧
    Padder.init (.seq [.leaf 2, .leaf 0]) (.leaf Mode.replicate) (.leaf 0) (.leaf 0) (.leaf none) = .ok q ∧
    (p.forward (fun _ => 0) (ofFn [2] fun ix => (ix.getD 0 0 : ℚ) + 1) (.int 0)).map (fun y => y.data) = .ok [2, 1, 1, 2] ∧
    (q.forward (fun _ => 0) (ofFn [2] fun ix => (ix.getD 0 0 : ℚ) + 1) (.int 0)).map (fun y => y.data) = .ok [1, 1, 1, 2] :=
  ⟨_, _, rfl, rfl, by decide +kernel, by decide +kernel⟩

/-- **C113**, a ramp of two samples from 0 to 4 is not the constant 4. -/
theorem C113_conditions_ramp : ∃ p q : Padder ℚ,
    Padder.init (.seq [.leaf 0, .leaf 2]) (.leaf Mode.linearRamp) (.leaf 4) (.leaf 4) (.leaf none) = .ok p ∧
    Padder.init (.seq [.leaf 0, .leaf 2]) (.leaf Mode.constant) (.leaf 4) (.leaf 4) (.leaf none) = .ok q ∧
    (p.forward (fun _ => 0) (ofFn [1] fun _ => (0 : ℚ)) (.int 0)).map (fun y => y.data) = .ok [0, 2, 4] ∧
    (q.forward (fun _ => 0) (ofFn [1] fun _ => (0 : ℚ)) (.int 0)).map (fun y => y.data) = .ok [0, 4, 4] :=
  ⟨_, _, rfl, rfl, by decide +kernel, by decide +kernel⟩

namespace CoincideExample

/-- `Padder(pad_width=[(1, 0), (2, 5)], mode=[m, m'], stat_length=l)` -/
def g (m m' : Mode ℚ) (l : Option Int) : PadArgs ℚ := ⟨.many [(1, 0), (2, 5)], .many [m, m'], .one (3, 3), .one (0, 0), .one (l, l)⟩

theorem call {x : Tensor ℚ} (hx : x.shape = [2, 6, 8]) (m m' : Mode ℚ) (l : Option Int) (h : m ≠ .zeros ∧ m ≠ .empty ∧ m ≠ .unknown ∧ ∀ f, m ≠ .custom f)
    (h' : m' ≠ .zeros ∧ m' ≠ .empty ∧ m' ≠ .unknown ∧ ∀ f, m' ≠ .custom f) :
    PadCall ((g m m' l).padder 2) x (.seq [1, -1]) [1, 2] ((g m m' l).settings 2 2) := by
  apply call_args (g := g m m' l) (m := 2) (by decide) ⟨rfl, rfl, trivial, trivial, trivial⟩ (by rw [ndim, hx]; decide)
    (by rw [ndim, hx]; rfl) (by decide)
  intro o ho _
  have ho' : o ∈ [(1, (⟨1, 0, m, (3, 3), (0, 0), (l, l)⟩ : AxisPad ℚ)), (2, ⟨2, 5, m', (3, 3), (0, 0), (l, l)⟩)] := ho
  rw [hx]
  simp only [List.mem_cons, List.not_mem_nil, or_false] at ho'
  rcases ho' with rfl | rfl
  · refine ⟨?_, h.1, by simp⟩
    cases m <;> simp_all [AxisPad.rule?]
  · refine ⟨?_, h'.1, by simp⟩
    cases m' <;> simp_all [AxisPad.rule?]

end CoincideExample

open CoincideExample in
/-- rows mirrored or repeated, columns periodic -/
example {x : Tensor ℚ} (hx : x.shape = [2, 6, 8]) (junk : List Nat → ℚ) :
    ((g .symmetric .periodize none).padder 2).forward junk x (.seq [1, -1]) = ((g .replicate .circular (some 7)).padder 2).forward junk x (.seq [1, -1]) :=
  C113_pad (call hx .replicate .circular (some 7) (by simp) (by simp)) (call hx .symmetric .periodize none (by simp) (by simp)) rfl (by
    intro j h1 h2
    have hj : j = 0 ∨ j = 1 := by have : j < 2 := h2; omega
    rw [hx]
    rcases hj with rfl | rfl
    · exact ⟨rfl, rfl, .inl ⟨.inl rfl, .inr (.inr (.inl ⟨.inl rfl, .inl ⟨Nat.le_of_ble_eq_true rfl, Nat.le_of_ble_eq_true rfl⟩⟩))⟩⟩
    · exact ⟨rfl, rfl, .inr (.inr (.inl ⟨.inl rfl, .inr (.inl ⟨rfl, rfl⟩)⟩))⟩) junk junk

open CoincideExample in
/-- the lower median of two samples is the smaller one; the mean of one sample is that sample -/
example {x : Tensor ℚ} (hx : x.shape = [2, 6, 8]) (junk : List Nat → ℚ) :
    ((g (.stat .median) (.stat .median) (some 2)).padder 2).forward junk x (.seq [1, -1]) =
        ((g (.stat .minimum) (.stat .minimum) (some 2)).padder 2).forward junk x (.seq [1, -1]) ∧
      ((g (.stat .mean) (.stat .maximum) (some 1)).padder 2).forward junk x (.seq [1, -1]) =
        ((g .replicate .replicate none).padder 2).forward junk x (.seq [1, -1]) := by
  constructor
  · refine C113_pad (call hx (.stat .minimum) (.stat .minimum) (some 2) (by simp) (by simp))
      (call hx (.stat .median) (.stat .median) (some 2) (by simp) (by simp)) rfl ?_ junk junk
    intro j h1 h2
    have hj : j = 0 ∨ j = 1 := by have : j < 2 := h2; omega
    rcases hj with rfl | rfl <;>
      exact ⟨rfl, rfl, .inr (.inr (.inr (.inl ⟨.inl rfl, .inr ⟨rfl, .inl ⟨⟨2, rfl, le_rfl⟩, 2, rfl, le_rfl⟩⟩, rfl⟩)))⟩
  · refine C113_pad (call hx .replicate .replicate none (by simp) (by simp))
      (call hx (.stat .mean) (.stat .maximum) (some 1) (by simp) (by simp)) rfl ?_ junk junk
    intro j h1 h2
    have hj : j = 0 ∨ j = 1 := by have : j < 2 := h2; omega
    rcases hj with rfl | rfl <;>
      exact ⟨rfl, rfl, .inl ⟨.inl rfl, .inr (.inl ⟨⟨_, rfl⟩, .inl ⟨⟨1, rfl, le_rfl⟩, 1, rfl, le_rfl⟩⟩)⟩⟩

open CoincideExample in
/-- Sobel with `symmetric` and with `replicate` -/
example (junk : List Nat → ℚ) : ∃ f : EdgeFilter ℚ, EdgeFilter.sobel false = .ok f ∧
    (f.allComponents (.shared (some ((Example.modeArgs .symmetric).padder 1))) junk Example.x .none).2 =
      (f.allComponents (.shared (some ((Example.modeArgs .replicate).padder 1))) junk Example.x .none).2 := by
  obtain ⟨f, h1, h2⟩ := Example.sobel_built
  exact ⟨f, h1, (C113_edges h2 ⟨_, _, rfl, rfl, holds_padder _ 1, holds_padder _ 1⟩ ⟨_, _, rfl, rfl, holds_padder _ 1, holds_padder _ 1⟩
    (Example.setup (by intro s hs; simp [AxisPad.rule?, hs, Example.modeArgs, Given.entry]) rfl rfl)
    (Example.setup (by intro s hs; simp [AxisPad.rule?, hs, Example.modeArgs, Given.entry]) rfl rfl) (by intro h; cases h)
    (by decide) (by simp [Given.values]) (fun _ _ => .inl ⟨.inl rfl, .inr (.inl rfl)⟩) junk junk).1⟩

open SsimExample in
/-- averages of three samples of `1, 2, 4, 9`, the image continued by edge values or mirrored oddly -/
example (junk : List Nat → ℚ) : ∃ pool : SepPool ℚ, SepPool.avgInit (.leaf (some 3)) (.leaf (some 1)) = .ok pool ∧
    (SepPool.forward pool (some ((args .oddSymmetric).padder 1)) junk (sig [1, 2, 4, 9]) .none).2 =
      (SepPool.forward pool (some ((args .replicate).padder 1)) junk (sig [1, 2, 4, 9]) .none).2 := by
  obtain ⟨pool, h1, h2, _⟩ := C34_average_kernels (α := ℚ) (size := .one 3) (st := .one (some 1)) (m := 1) (by decide) trivial trivial
    (by intro s hs; simp [Given.values] at hs; simp [hs])
  have hs : ∀ i < ([0] : List Nat).length, SmallAlike ((sig [1, 2, 4, 9]).shape.getD (([0] : List Nat).getD i 0) 0)
      ((args .replicate).mode.entry .unknown i) ((args .oddSymmetric).mode.entry .unknown i) :=
    fun i _ => .inl ⟨.inl rfl, .inr (.inr rfl)⟩
  have hk : ∀ i < ([0] : List Nat).length, ((PoolArgs.filter (.one (avgKernel (α := ℚ) 3))).op [0] i).kernel.length ≤ 3 ∧
      ((PoolArgs.filter (.one (avgKernel (α := ℚ) 3))).op [0] i).stride = 1 := by
    intro i _
    exact ⟨show (avgKernel (α := ℚ) 3).length ≤ 3 by decide +kernel, rfl⟩
  have hc' : SameCall (PoolArgs.filter (.one (avgKernel (α := ℚ) 3))) (args .oddSymmetric) (sig [1, 2, 4, 9]) .none [0] :=
    { sameCall_sig.toSameReq with
      valued := by
        intro o ho _
        obtain ⟨i, _, rfl⟩ := sameOps_mem ho
        exact ⟨by simp [sameSetting, AxisPad.rule?, args, Given.entry], by simp [sameSetting, args, Given.entry]⟩
      rest := ⟨trivial, trivial, trivial, trivial⟩ }
  exact ⟨pool, h1, C113_small_kernels h2 sameCall_sig hc' (by intro h; cases h) (holds_padder _ 1) (holds_padder _ 1) hk hs junk junk⟩

end TI
