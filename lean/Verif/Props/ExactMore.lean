import Verif.Props.PoolMore
import Verif.Props.EdgesGauss
import Verif.Props.Random

/-!
# The exact conditions of C39 – C42 and C68
-/

set_option linter.unusedSectionVars false

namespace TI
open Tensor Spec

section
variable {α : Type} [Field α] [LinearOrder α] [IsStrictOrderedRing α] [FloorRing α]
variable {x : Tensor α} {w : List α} {dim : Int} {d s : Nat}

theorem numel_zero {s : List Nat} (h : ¬ ∀ n ∈ s, 0 < n) : numel s = 0 := by
  push Not at h
  obtain ⟨n, h1, h2⟩ := h
  have : n = 0 := by omega
  exact numel_eq_zero (this ▸ h1)

/-- with an empty axis `any_conv_1d` raises: one of the two calls of `view` cannot determine the missing size -/
theorem C39_empty (hdim : normAxis x.ndim dim = some d) (he : ¬ ∀ n ∈ x.shape, 0 < n) (stride dilation : Int) :
    anyConv1d x w dim stride dilation = .error .runtime := by
  have hd : d < x.shape.length ∧ dim < x.ndim ∧ (dim = (x.ndim : Int) - 1 ∨ dim = -1 ↔ d + 1 = x.shape.length) := by
    rw [normAxis] at hdim
    rw [show x.shape.length = x.ndim from rfl]
    split_ifs at hdim with h1 h2
    · injection hdim; omega
    · injection hdim; omega
  have hconv : convDim x.ndim dim = .ok d := by
    rw [normAxis] at hdim
    simp only [convDim]
    split_ifs at hdim with h1 h2
    · simp only [Option.some.injEq] at hdim
      rw [if_pos h2, if_pos (by omega), hdim]
    · simp only [Option.some.injEq] at hdim
      rw [if_neg h2, if_pos (by omega), hdim]
  simp only [anyConv1d, hconv, bind, Except.bind]
  have herr : ∀ (z : Tensor α) (pre post : List Nat), numel (pre ++ post) = 0 → z.viewInfer pre post = .error .runtime := by
    intro z pre post h
    rw [Tensor.viewInfer, if_pos h]
  have hrow : ∀ z : Tensor α, ∀ e, conv1dRow z w stride dilation = .error e → e = .runtime := by
    intro z e h
    rw [conv1dRow] at h
    split at h
    · split_ifs at h
      exact (Except.error.inj h).symm
    · exact (Except.error.inj h).symm
  have hcol : ∀ z : Tensor α, ∀ e, conv2dColumn z w stride dilation = .error e → e = .runtime := by
    intro z e h
    rw [conv2dColumn] at h
    split at h
    · split_ifs at h
      exact (Except.error.inj h).symm
    · exact (Except.error.inj h).symm
  have hview : ∀ (z : Tensor α) (pre post : List Nat) e, z.viewInfer pre post = .error e → e = .runtime := by
    intro z pre post e h
    rw [Tensor.viewInfer] at h
    split_ifs at h
    · exact (Except.error.inj h).symm
    · rw [Tensor.reshape] at h
      split_ifs at h
      exact (Except.error.inj h).symm
    · exact (Except.error.inj h).symm
  by_cases h0 : x.shape.getD d 0 = 0
  · by_cases hlast : dim = -1 ∨ dim = (x.ndim : Int) - 1
    · rw [if_pos hlast]
      have hl : x.shape.getLastD 0 = x.shape.getD d 0 := by
        have := hd.2.2.1 (Or.comm.1 hlast)
        rw [List.getLastD_eq_getLast?, List.getLast?_eq_getElem?, List.getD_eq_getElem?_getD]
        congr 2
        omega
      rw [herr x [] [1, x.shape.getLastD 0] (by rw [hl, h0]; simp [numel])]
    · rw [if_neg hlast, herr x _ [] (by rw [h0]; simp [numel])]
  · have hrest : numel (x.shape.take d ++ x.shape.drop (d + 1)) = 0 := by
      apply numel_zero
      intro h
      apply he
      intro n hn
      obtain ⟨i, hi, rfl⟩ := List.mem_iff_getElem.1 hn
      by_cases e : i = d
      · subst e
        simp [hi] at h0
        omega
      · apply h
        rw [List.mem_append]
        rcases Nat.lt_or_gt_of_ne e with h1 | h1
        · left
          rw [List.mem_take_iff_getElem]
          exact ⟨i, by omega, rfl⟩
        · right
          rw [List.mem_drop_iff_getElem]
          exact ⟨i - (d + 1), by omega, by congr 1; omega⟩
    split
    · rename_i e h
      split_ifs at h with hlast
      · split at h
        · rename_i e' h'
          cases h
          rw [hview _ _ _ _ h']
        · rw [hrow _ _ h]
      · split at h
        · rename_i e' h'
          cases h
          rw [hview _ _ _ _ h']
        · rw [hcol _ _ h]
    · exact herr _ _ _ hrest

/-- **C39**, exactly: `any_conv_1d(x, w, dim, stride)` is `x.unfold(dim, len(w), stride) @ w` (also if that is an error) exactly if no axis of `x` is empty, or the kernel is longer than the axis. -/
theorem C39_iff (hdim : normAxis x.ndim dim = some d) (hw : w ≠ []) (hs : 0 < s) :
    anyConv1d x w dim s 1 = ((x.unfold d w.length s).bind fun y => y.matvec w) ↔ (∀ n ∈ x.shape, 0 < n) ∨ x.shape.getD d 0 < w.length := by
  have hd : d < x.ndim := by
    rw [normAxis] at hdim
    split_ifs at hdim with h1 h2 <;> simp only [Option.some.injEq] at hdim <;> omega
  by_cases hpos : ∀ n ∈ x.shape, 0 < n
  · exact ⟨fun _ => Or.inl hpos, fun _ => C39_any_conv_unfold_partial hdim hpos hw hs⟩
  · rw [C39_empty hdim hpos]
    by_cases hf : w.length ≤ x.shape.getD d 0
    · rw [unfold_matvec hd hw hs hf]
      simp only [reduceCtorEq, false_iff, not_or]
      exact ⟨hpos, by omega⟩
    · rw [Tensor.unfold, if_pos hd, if_pos (by omega)]
      simp only [Except.bind, true_iff]
      exact Or.inr (by omega)

/-! ## C40 -/

variable {f : EdgeFilter α} {g : Given (List α)} {m a : Nat}

/-- **C40**, exactly: if the padder returns `y`, the fast path agrees with the generic same-padded convolution exactly if `y` has at least three samples along the axis. -/
theorem C40_iff (hb : EdgeBuilt f w g m) (hw : FastKernel w) (ps : EdgePadders α) (junk : List Nat → α) (ha : a < x.ndim) {y : Tensor α}
    (hy : (f.edgePool.pad ps.edge junk x (.int a)).2 = .ok y) (hya : a < y.ndim) :
    f.convEdge ps junk x (a : Int) = (ps.setEdge (f.edgePool.forward ps.edge junk x (.int a)).1, (f.edgePool.forward ps.edge junk x (.int a)).2) ↔
      3 ≤ y.shape.getD a 0 := by
  constructor
  · intro h
    by_contra h3
    have hl : w.length = 3 := by rcases hw with rfl | rfl <;> rfl
    rw [forward_int hb.edgeIs.edge ps.edge junk ha, hy] at h
    have h2 := congrArg Prod.snd h
    have he := hb.edgeIs.edge.step_error (i := 0) (by intro h; cases h) (axes := [a]) (x := y) hya (by
      change y.shape.getD a 0 < w.length
      omega)
    have he' : SepPool.poolStep f.edgePool 0 (a : Int) y = .error .runtime := he
    change (f.convEdge ps junk x (a : Int)).2 = SepPool.poolLoop f.edgePool 0 [(a : Int)] y at h2
    rw [SepPool.poolLoop, he', convEdge_eq hb.edgeIs] at h2
    rcases hw with rfl | rfl
    · rw [if_pos ((trunc_first _).2 (by norm_num [TakenForFirst]))] at h2
      simp only [hy, Except.bind] at h2
      rw [firstDiff_eq hya] at h2
      cases h2
    · rw [if_neg (fun e => by have := (trunc_first _).1 e; norm_num [TakenForFirst] at this),
        if_pos ((trunc_second _).2 (by norm_num [TakenForSecond]))] at h2
      simp only [hy, Except.bind] at h2
      rw [secondDiff_eq hya] at h2
      cases h2
  · intro h3
    apply C40_fast_path_partial hb hw ps junk ha
    intro y' h
    rw [hy] at h
    cases h
    exact h3

/-! ## C41 -/

/-- **C41**, exactly: without a padder the supplied kernel is applied to every row of samples that is long enough exactly if it is not replaced. -/
theorem C41_iff (hb : EdgeBuilt f w g m) (junk : List Nat → α) :
    (∀ n, w.length ≤ n → ∀ x : Tensor α, x.shape = [n] → f.convEdge (.shared none) junk x (0 : Nat) = (.shared none, .ok (slide x ⟨0, w, 1⟩))) ↔
      (TakenForFirst w → w = [-1, 0, 1]) ∧ (TakenForSecond w → w = [1, -2, 1]) := by
  have key : ∀ n, w.length ≤ n → ∀ x : Tensor α, x.shape = [n] → f.convEdge (.shared none) junk x (0 : Nat) = (.shared none, .ok (slide x ⟨0, usedKernel w, 1⟩)) := by
    intro n hn x hx
    have ha : 0 < x.ndim := by rw [Tensor.ndim, hx]; simp
    have hpad : f.edgePool.pad none junk x (.int (0 : Nat)) = (none, .ok x) := by
      rw [pad_int _ _ _ _ ha, SepPool.pad, checkAxes_castV (by simpa using ha)]
    rw [convEdge_used hb.edgeIs (.shared none) junk ha, show (EdgePadders.shared (none : Option (Padder α))).edge = none from rfl, hpad]
    · rfl
    · rw [show (EdgePadders.shared (none : Option (Padder α))).edge = none from rfl, hpad]
      intro y hy _
      cases hy
      exact ⟨ha, by rw [hx]; simpa using hn⟩
  constructor
  · intro h
    have hused : w.length = 3 → usedKernel w = w := by
      intro hl
      have hlu : (usedKernel w).length = 3 := by
        rw [usedKernel]
        split_ifs <;> first | rfl | exact hl
      suffices hj : ∀ j < 3, (usedKernel w).getD j 0 = w.getD j 0 by
        apply List.ext_getElem (by rw [hl, hlu])
        intro j h1 h2
        have := hj j (by omega)
        simpa [h1, h2] using this
      intro j hj
      have hx := h 3 (by omega) (Tensor.ofFn [3] fun ix => if ix = [j] then 1 else 0) rfl
      rw [key 3 (by omega) _ rfl] at hx
      have hx := Except.ok.inj (congrArg Prod.snd hx)
      have hs : ∀ v : List α, v.length = 3 → (slide (Tensor.ofFn [3] fun ix => if ix = [j] then (1 : α) else 0) ⟨0, v, 1⟩).get [0] = v.getD j 0 := by
        intro v hv
        match v, hv with
        | [p, q, r], _ =>
          rw [slide_three]
          refine (get_ofFn (show InB [1] [0] from ⟨by omega, trivial⟩)).trans ?_
          simp only [List.set_cons_zero, List.getD_cons_zero]
          rw [get_ofFn (show InB [3] [0] from ⟨by omega, trivial⟩), get_ofFn (show InB [3] [0 + 1] from ⟨by omega, trivial⟩),
            get_ofFn (show InB [3] [0 + 2] from ⟨by omega, trivial⟩)]
          have : j = 0 ∨ j = 1 ∨ j = 2 := by omega
          rcases this with rfl | rfl | rfl <;> simp
      rw [← hs _ hlu, ← hs _ hl, hx]
    constructor
    · intro h1
      have := hused (by match w, h1 with | [_, _, _], _ => rfl)
      rw [usedKernel, if_pos h1] at this
      exact this.symm
    · intro h2
      have h1 : ¬ TakenForFirst w := by
        match w, h2 with
        | [p, q, r], h2 =>
          intro h1
          have := h2.1.1
          have := h1.1.2
          linarith
      have := hused (by match w, h2 with | [_, _, _], _ => rfl)
      rw [usedKernel, if_neg h1, if_pos h2] at this
      exact this.symm
  · rintro ⟨h1, h2⟩ n hn x hx
    have hw : usedKernel w = w := by
      rw [usedKernel]
      split_ifs with q1 q2
      · exact (h1 q1).symm
      · exact (h2 q2).symm
      · rfl
    rw [key n hn x hx, hw]

/-! ## C42 -/

/-- **C42**, exactly, for smoothing kernels of sum one: the components of a constant image other than zero are zero exactly if the coefficients of the kernel in use sum to zero. -/
theorem C42_iff (hb : EdgeBuilt f w g m) (hw : w ≠ []) (hone : ∀ v ∈ g.values, v ≠ [] → v.sum = 1) {ps : EdgePadders α}
    {gp : PadArgs α} (hps : HoldsBoth ps gp) {ax : Axes} {axes : List Nat} (hs : EdgeSetup g gp x ax axes)
    (hm : g.isMany = true → axes.length - 1 = m) (hfill : gp.FillsFromSamples) {k : α} (hx : Constant k x) (hk : k ≠ 0)
    (hne : ∀ n ∈ x.shape, 0 < n) (junk : List Nat → α) :
    (∃ ps' cs, f.allComponents ps junk x ax = (ps', .ok cs) ∧ cs.length = axes.length ∧ ∀ c ∈ cs, c.shape = x.shape ∧ Constant 0 c) ↔
      (usedKernel w).sum = 0 := by
  obtain ⟨ps', cs, h1, h2, h3⟩ := C76_constant_response hb hw hone hps hs hm hfill hx junk
  have h2' := hs.two
  constructor
  · rintro ⟨ps'', cs', e, -, h⟩
    rw [h1] at e
    cases e
    obtain ⟨c, hc⟩ := List.exists_mem_of_length_pos (l := cs) (by omega)
    have hin : InB x.shape (List.replicate x.shape.length 0) := by
      rw [inB_iff]
      refine ⟨by simp, fun i hi => ?_⟩
      have := hne _ (getD_mem_lt hi)
      simpa [hi] using this
    have e1 := (h3 c hc).2 _ ((h3 c hc).1 ▸ hin)
    have e2 := (h c hc).2 _ ((h3 c hc).1 ▸ hin)
    rw [e1] at e2
    exact (mul_eq_zero.1 e2).resolve_right hk
  · intro h0
    refine ⟨ps', cs, h1, h2, fun c hc => ⟨(h3 c hc).1, ?_⟩⟩
    have := (h3 c hc).2
    rwa [h0, zero_mul] at this

end

/-! ## C68 -/

section
variable {α : Type} [Field α] {x : Tensor α} {ax : Axes} {axes : List Nat} {g : Given (Option Nat)}

/-- **C68**, exactly: a window that is not empty, of an image with distinct entries, is returned for some outcome of the draws exactly if it ends before the end of every cropped axis. -/
theorem C68_iff (hax : axesOf x.ndim ax = some axes) (hne : axes ≠ []) (hnd : axes.Nodup) (hg : g.Fits axes.length)
    (hx : ∀ ix iy, InB x.shape ix → InB x.shape iy → x.get ix = x.get iy → ix = iy) {start cut : List Nat}
    (hw : IsWindow x.shape axes (g.entry none) start cut) (hc : ∀ n ∈ cut, 0 < n) :
    (∃ d, GoodDraw d ∧ randomCrop d x ax (g.toPy pySize) = .ok (cropped x start cut)) ↔
      ∀ i < axes.length, ∀ l, g.entry none i = some l → start.getD (axes.getD i 0) 0 + l < x.shape.getD (axes.getD i 0) 0 := by
  constructor
  · rintro ⟨d, hd, h⟩
    have hl : ∀ i < axes.length, ∀ l, g.entry none i = some l → l < x.shape.getD (axes.getD i 0) 0 := by
      intro i hi l hsz
      by_contra hle
      rw [C68_full_size_false d hax hg hi hsz (by omega)] at h
      cases h
    obtain ⟨start', cut', h1, h2, h3⟩ := C67_random_crop hd hax hne hnd hg hl
    rw [h1] at h
    have h := Except.ok.inj h
    have hcut : cut' = cut := congrArg Tensor.shape h
    subst hcut
    have hz : InB cut' (List.replicate cut'.length 0) := by
      rw [inB_iff]
      refine ⟨by simp, fun i hi => ?_⟩
      have := hc _ (getD_mem_lt hi)
      simpa [hi] using this
    have hb : ∀ {st}, IsWindow x.shape axes (g.entry none) st cut' → InB x.shape st := by
      intro st hst
      rw [inB_iff]
      refine ⟨hst.start_length, fun k hk => ?_⟩
      have hck : 0 < cut'.getD k 0 := hc _ (getD_mem_lt (by rw [hst.cut_length]; exact hk))
      by_cases hka : k ∈ axes
      · obtain ⟨i, hi, rfl⟩ := List.mem_iff_getElem.1 hka
        have e : axes[i] = axes.getD i 0 := by simp [hi]
        rw [e] at hck ⊢
        cases hsz : g.entry none i with
        | none => have := hst.whole i hi hsz; omega
        | some l => have := hst.part i hi l hsz; omega
      · have := hst.rest k hk hka; omega
    have hget := congrArg (fun t : Tensor α => t.get (List.replicate cut'.length 0)) h
    simp only [cropped] at hget
    rw [get_ofFn hz, get_ofFn hz] at hget
    have hzip : ∀ st : List Nat, st.length = cut'.length → List.zipWith (· + ·) (List.replicate cut'.length 0) st = st := by
      intro st hst
      apply List.ext_getElem (by simp [hst])
      intro i _ _
      simp
    rw [hzip _ (by rw [h2.start_length, h2.cut_length]), hzip _ (by rw [hw.start_length, hw.cut_length])] at hget
    have := hx _ _ (hb h2) (hb hw) hget
    subst this
    exact h3
  · exact fun h => C68_reaches_partial hax hne hnd hg hw h

end

/-! ## concrete cases -/

/-- an empty tensor, with a kernel that fits and one that does not -/
example : ¬ anyConv1d (⟨[0, 3], [], rfl⟩ : Tensor ℚ) [1] 1 1 1 = (((⟨[0, 3], [], rfl⟩ : Tensor ℚ).unfold 1 1 1).bind fun y => y.matvec [1]) ∧
    anyConv1d (⟨[0, 3], [], rfl⟩ : Tensor ℚ) [1, 1, 1, 1] 1 1 1 = (((⟨[0, 3], [], rfl⟩ : Tensor ℚ).unfold 1 4 1).bind fun y => y.matvec [1, 1, 1, 1]) :=
  ⟨fun h => absurd ((C39_iff (d := 1) (s := 1) rfl (by simp) (by decide)).1 h) (by decide),
    (C39_iff (d := 1) (s := 1) (w := [1, 1, 1, 1]) rfl (by simp) (by decide)).2 (Or.inr (by decide))⟩

/-- `Sobel` on two samples without a padder -/
example {f : EdgeFilter ℚ} {g : Given (List ℚ)} (hb : EdgeBuilt f [-1, 0, 1] g 1) (junk : List Nat → ℚ) :
    f.convEdge (.shared none) junk ⟨[2], [1, 2], rfl⟩ (0 : Nat) ≠ (EdgePadders.setEdge (.shared none) (f.edgePool.forward none junk ⟨[2], [1, 2], rfl⟩ (.int (0 : Nat))).1,
      (f.edgePool.forward none junk ⟨[2], [1, 2], rfl⟩ (.int (0 : Nat))).2) := by
  intro h
  have := (C40_iff hb (Or.inl rfl) (.shared none) junk (x := ⟨[2], [1, 2], rfl⟩) (a := 0) (y := ⟨[2], [1, 2], rfl⟩) (by decide) rfl (by decide)).1 h
  exact absurd this (by decide)

/-- `(2, -1)` is applied; `(-1.5, 0.5, 1.2)` is replaced -/
example {f : EdgeFilter ℚ} {g : Given (List ℚ)} (hb : EdgeBuilt f [2, -1] g 1) (junk : List Nat → ℚ) :
    f.convEdge (.shared none) junk ⟨[3], [1, 2, 4], rfl⟩ (0 : Nat) = (.shared none, .ok (slide ⟨[3], [1, 2, 4], rfl⟩ ⟨0, [2, -1], 1⟩)) :=
  (C41_iff hb junk).2 ⟨fun h => h.elim, fun h => h.elim⟩ 3 (by decide) _ rfl

example {f : EdgeFilter ℚ} {g : Given (List ℚ)} (hb : EdgeBuilt f [-3 / 2, 1 / 2, 6 / 5] g 1) (junk : List Nat → ℚ) :
    ¬ ∀ n, 3 ≤ n → ∀ x : Tensor ℚ, x.shape = [n] → f.convEdge (.shared none) junk x (0 : Nat) = (.shared none, .ok (slide x ⟨0, [-3 / 2, 1 / 2, 6 / 5], 1⟩)) := by
  intro h
  have := ((C41_iff hb junk).1 h).1 (by norm_num [TakenForFirst])
  norm_num at this

/-- the edge kernel `(2, -1)` does not see edges only -/
example (junk : List Nat → ℚ) : ∃ f : EdgeFilter ℚ, EdgeFilter.init (EdgeFilter.pyVec [2, -1]) (EdgeFilter.pyVec [1 / 2, 1 / 2]) false = .ok f ∧
    ¬ ∃ ps' cs, f.allComponents Example.reflectPadders junk (Tensor.ofFn [2, 3] fun _ => 7) .none = (ps', .ok cs) ∧ cs.length = 2 ∧
      ∀ c ∈ cs, c.shape = [2, 3] ∧ Constant 0 c := by
  obtain ⟨f, e, _⟩ := edgeIs_init (w := [2, -1]) (g := .one [(1 / 2 : ℚ), 1 / 2]) Nat.one_pos trivial false
  have hb := EdgeBuilt.tuples (w := [2, -1]) (g := .one [(1 / 2 : ℚ), 1 / 2]) false Nat.one_pos trivial e
  refine ⟨f, e, fun h => ?_⟩
  have hs := Example.setup_reflect (g := .one [(1 / 2 : ℚ), 1 / 2]) rfl
  have := (C42_iff hb (by simp) (by intro v hv _; simp [Given.values] at hv; rw [hv]; norm_num) Example.reflect_holds (x := Tensor.ofFn [2, 3] fun _ => 7) (ax := .none) (axes := [0, 1])
    ⟨hs.axes_eq, hs.two, hs.nodup, hs.fits, hs.pos, hs.uniform, hs.valued, hs.keep⟩ (by intro h; cases h) trivial (k := 7) (fun ix hix => get_ofFn hix) (by norm_num) (by simp) junk).1 h
  rw [usedKernel, if_neg (by simp [TakenForFirst]), if_neg (by simp [TakenForSecond])] at this
  norm_num at this

/-- of `0, 1, 2` the window `0, 1` is drawn, the window `1, 2` is not -/
example : (∃ d, GoodDraw d ∧ randomCrop d (⟨[3], [0, 1, 2], rfl⟩ : Tensor ℚ) (.int 0) (pySize (some 2)) = .ok ⟨[2], [0, 1], rfl⟩) ∧
    ¬ ∃ d, GoodDraw d ∧ randomCrop d (⟨[3], [0, 1, 2], rfl⟩ : Tensor ℚ) (.int 0) (pySize (some 2)) = .ok ⟨[2], [1, 2], rfl⟩ := by
  have hx : ∀ ix iy, InB [3] ix → InB [3] iy → (⟨[3], [0, 1, 2], rfl⟩ : Tensor ℚ).get ix = (⟨[3], [0, 1, 2], rfl⟩ : Tensor ℚ).get iy → ix = iy := by
    rintro (_ | ⟨i, _ | _⟩) (_ | ⟨j, _ | _⟩) h1 h2 h <;> simp only [InB, and_true, and_false] at h1 h2
    have hi : i = 0 ∨ i = 1 ∨ i = 2 := by omega
    have hj : j = 0 ∨ j = 1 ∨ j = 2 := by omega
    rcases hi with rfl | rfl | rfl <;> rcases hj with rfl | rfl | rfl <;> first | rfl | (exfalso; revert h; decide +kernel)
  have hw : ∀ i ≤ 1, IsWindow [3] [0] ((Given.one (some 2)).entry none) [i] [2] := by
    intro i hi
    refine ⟨rfl, rfl, fun k hk h => absurd hk (by simp at h ⊢; omega), fun _ _ h => (by cases h), fun j hj l hl => ?_⟩
    have : j = 0 := by simpa using hj
    subst this
    cases hl
    exact ⟨by simp; omega, rfl⟩
  have key := fun i hi => C68_iff (α := ℚ) (x := ⟨[3], [0, 1, 2], rfl⟩) (ax := .int 0) (axes := [0]) (g := .one (some 2)) rfl (by simp) (by simp) trivial hx (hw i hi) (by simp)
  constructor
  · refine (key 0 (by omega)).2 fun i hi l hl => ?_
    have : i = 0 := by simpa using hi
    subst this
    cases hl
    decide
  · intro h
    exact absurd ((key 1 (by omega)).1 h 0 (by simp) 2 rfl) (by decide)

end TI
