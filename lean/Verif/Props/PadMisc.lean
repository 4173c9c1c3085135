import Verif.Proofs.PadAxis
import Verif.Proofs.EmptyAxis
import Verif.Proofs.SpecForms
import Verif.Props.PadModes

/-!
# Termination, mode `zeros`, right-justification, `pad_axis`, validation: C19 – C23
-/

namespace TI
open Tensor Spec

set_option linter.unusedSectionVars false

/-! ## C19 -/

/-- the padding functions with loops, as functions of the fuel; `np` says whether the bounds of the region are numpy integers (as in
`forward`) or Python integers (as in `pad_axis`) -/
def loopFuncs {α : Type} [Ring α] (np : Bool) : List (Nat → Tensor α → List PySlice → Nat → Except Err (Tensor α)) :=
  [circular1d, fun f => symmetric1d np f false, fun f => symmetric1d np f true, reflect1d np, oddSymmetric1d, oddReflect1d]

/-- **C19.** On a non-empty region `[head, tail)` of axis `d` of a buffer `y` the loops of every padding function
finish normally, each within as many iterations as samples are to be written on that side, and the outcome does not
depend on any larger bound on the number of iterations. -/
theorem C19_loops_terminate {α : Type} [Field α] {y : Tensor α} {W : List (Nat × Nat)} {d head tail : Nat}
    (hW : List.Forall₂ (fun p n => p.1 ≤ p.2 ∧ p.2 ≤ n) W y.shape) (hd : d < W.length)
    (hwin : W.getD d (0, 0) = (head, tail)) (hlt : head < tail) (np : Bool) :
    ∀ f ∈ loopFuncs (α := α) np, ∃ r, ∀ fuel, head ≤ fuel → y.shape.getD d 0 - tail ≤ fuel →
      f fuel y (W.map fun p => .between p.1 p.2) d = .ok r := by
  intro f hf
  simp only [loopFuncs, List.mem_cons, List.not_mem_nil, or_false] at hf
  rcases hf with rfl | rfl | rfl | rfl | rfl | rfl
  · exact ⟨_, fun fuel h1 h2 => circular1d_spec hW hd hwin hlt (max_le h1 h2)⟩
  · exact ⟨_, fun fuel h1 h2 => symmetric1d_spec hW hd hwin hlt (max_le h1 h2)⟩
  · exact ⟨_, fun fuel h1 h2 => antisymmetric1d_spec hW hd hwin hlt (max_le h1 h2)⟩
  · exact ⟨_, fun fuel h1 h2 => reflect1d_spec hW hd hwin hlt (max_le h1 h2)⟩
  · exact ⟨_, fun fuel h1 h2 => oddSymmetric1d_spec hW hd hwin hlt (max_le h1 h2)⟩
  · exact ⟨_, fun fuel h1 h2 => oddReflect1d_spec hW hd hwin hlt (max_le h1 h2)⟩

/-- **C19** for `periodize`, which needs one more free slot after signals of odd length -/
theorem C19_periodize_terminates {α : Type} [Field α] {y : Tensor α} {W : List (Nat × Nat)} {d head tail : Nat}
    (hW : List.Forall₂ (fun p n => p.1 ≤ p.2 ∧ p.2 ≤ n) W y.shape) (hd : d < W.length)
    (hwin : W.getD d (0, 0) = (head, tail)) (hlt : head < tail)
    (hslot : tail + (tail - head) % 2 ≤ y.shape.getD d 0) :
    ∃ r, ∀ fuel, head ≤ fuel → y.shape.getD d 0 - tail ≤ fuel →
      periodize1d fuel y (W.map fun p => .between p.1 p.2) d = .ok r :=
  ⟨_, fun _ h1 h2 => periodize1d_spec hW hd hwin hlt hslot (max_le h1 h2)⟩

/-- **C19** on an empty region, asked to pad before: with the numpy bounds of `forward` none of the loops terminates, for no number of
iterations -/
theorem C19_empty_before_diverges {α : Type} [Field α] {y : Tensor α} {W : List (Nat × Nat)} {d head : Nat}
    (hW : List.Forall₂ (fun p n => p.1 ≤ p.2 ∧ p.2 ≤ n) W y.shape) (hd : d < W.length)
    (hwin : W.getD d (0, 0) = (head, head)) (hpos : 0 < head) (fuel : Nat) :
    ∀ f ∈ periodize1d :: loopFuncs (α := α) true, f fuel y (W.map fun p => .between p.1 p.2) d = .error .diverge := by
  have h1 := bounds_idxOf hd hwin
  have hb := WinOK.get hW hd
  rw [hwin] at hb
  simp only at hb
  have h0 : ∀ q : Int, lengthDiv true q 0 = .ok 0 := fun q => rfl
  have hcirc : circular1d fuel y (idxOf W) d = .error .diverge := by
    simp only [circular1d, h1, bind, Except.bind, sub_self]
    rw [if_neg (by omega), circularBefore_diverges (W := W) (d := d) (tail := head) (curr := head) fuel y hW hb.2 hb.2 hpos]
  have hsym : ∀ neg, symmetric1d true fuel neg y (idxOf W) d = .error .diverge := by
    intro neg
    simp only [symmetric1d, h1, bind, Except.bind, sub_self, h0]
    rw [if_neg (by omega), if_neg (by omega)]
    have := mirrorBefore_diverges (W := W) (d := d) (g := fun s => makeIdx s d y.ndim)
      (h := fun a : Tensor α => if neg = true then a.map (- ·) else a) (o := 0) (tail := head) (e := 0)
      (fun t => by cases neg <;> rfl) (by omega) (by omega) (by omega) fuel y head true hW (by omega)
    simp only [neg_zero] at this
    rw [this]
  intro f hf
  simp only [loopFuncs, List.mem_cons, List.not_mem_nil, or_false] at hf
  rcases hf with rfl | rfl | rfl | rfl | rfl | rfl | rfl
  · change periodize1d fuel y (idxOf W) d = _
    simp only [periodize1d, h1, bind, Except.bind, sub_self]
    rw [if_pos (by decide), hcirc]
  · exact hcirc
  · exact hsym false
  · exact hsym true
  · change reflect1d true fuel y (idxOf W) d = _
    simp only [reflect1d, h1, bind, Except.bind, sub_self, h0]
    rw [if_neg (by omega), if_neg (by omega), if_neg (by omega)]
    have := mirrorBefore_diverges (W := W) (d := d) (g := fun s => makeIdx s d y.ndim) (h := id) (o := 1) (tail := head) (e := 2)
      (fun t => rfl) (by omega) (by omega) (by omega) fuel y head true hW (by omega)
    simp only [zero_sub]
    rw [this]
  · change oddSymmetric1d fuel y (idxOf W) d = _
    simp only [oddSymmetric1d, h1, bind, Except.bind, sub_self]
    have := oddBefore_diverges (W := W) (d := d) (o := 0) (by omega) fuel y head hW (by omega)
    simp only [neg_zero] at this
    rw [this]
  · change oddReflect1d fuel y (idxOf W) d = _
    simp only [oddReflect1d, h1, bind, Except.bind, sub_self]
    rw [if_neg (by omega)]
    have := oddBefore_diverges (W := W) (d := d) (o := 1) (by omega) fuel y head hW (by omega)
    simp only [zero_sub]
    rw [this]

/-- **C19** on an empty region, asked to pad only after: again no loop terminates, with the numpy bounds of `forward`.  (`odd_reflect_1d`
is left out: it subtracts tensors of different sizes and may raise.) -/
theorem C19_empty_after_diverges {α : Type} [Field α] {y : Tensor α} {W : List (Nat × Nat)} {d : Nat}
    (hW : List.Forall₂ (fun p n => p.1 ≤ p.2 ∧ p.2 ≤ n) W y.shape) (hd : d < W.length)
    (hwin : W.getD d (0, 0) = (0, 0)) (hpos : 0 < y.shape.getD d 0) (fuel : Nat) :
    ∀ f ∈ periodize1d :: (loopFuncs (α := α) true).dropLast, f fuel y (W.map fun p => .between p.1 p.2) d = .error .diverge := by
  have h1 := bounds_idxOf hd hwin
  have h0 : ∀ q : Int, lengthDiv true q 0 = .ok 0 := fun q => rfl
  have hcirc : circular1d fuel y (idxOf W) d = .error .diverge := by
    simp only [circular1d, h1, bind, Except.bind, sub_self, Nat.cast_zero]
    rw [if_neg (by omega), circularBefore_none]
    exact circularAfter_diverges fuel y hW (by omega)
  have hsym : ∀ neg, symmetric1d true fuel neg y (idxOf W) d = .error .diverge := by
    intro neg
    simp only [symmetric1d, h1, bind, Except.bind, sub_self, h0, Nat.cast_zero]
    rw [if_neg (by omega), if_neg (by omega), mirrorBefore_none]
    have := mirrorAfter_diverges (W := W) (d := d) (g := fun s => makeIdx s d y.ndim)
      (h := fun a : Tensor α => if neg = true then a.map (- ·) else a) (o := 0) (head := 0) (e := 0)
      (fun t => by cases neg <;> rfl) (by omega) (by omega) (by omega) fuel y 0 true hW (by omega) (Or.inl rfl)
    simp only [neg_zero] at this
    exact this
  intro f hf
  simp only [loopFuncs, List.dropLast, List.mem_cons, List.not_mem_nil, or_false] at hf
  rcases hf with rfl | rfl | rfl | rfl | rfl | rfl
  · change periodize1d fuel y (idxOf W) d = _
    simp only [periodize1d, h1, bind, Except.bind, sub_self]
    rw [if_pos (by decide), hcirc]
  · exact hcirc
  · exact hsym false
  · exact hsym true
  · change reflect1d true fuel y (idxOf W) d = _
    simp only [reflect1d, h1, bind, Except.bind, sub_self, h0, Nat.cast_zero]
    rw [if_neg (by omega), if_neg (by omega), if_neg (by omega), mirrorBefore_none]
    simp only [zero_sub]
    exact reflectAfter_diverges fuel hW hpos
  · change oddSymmetric1d fuel y (idxOf W) d = _
    simp only [oddSymmetric1d, h1, bind, Except.bind, sub_self, Nat.cast_zero]
    rw [oddBefore_none]
    exact oddAfter_diverges fuel y hW hpos

/-- **C19** on an empty region with the Python bounds of `pad_axis`: `symmetric_1d` (also as `antisymmetric`) and `reflect_1d` raise
ZeroDivisionError -/
theorem C19_mirror_empty_raises {α : Type} [Field α] {y : Tensor α} {W : List (Nat × Nat)} {d head : Nat}
    (hd : d < W.length) (hwin : W.getD d (0, 0) = (head, head)) (fuel : Nat) (neg : Bool) :
    symmetric1d false fuel neg y (W.map fun p => .between p.1 p.2) d = .error .zeroDivision ∧
    reflect1d false fuel y (W.map fun p => .between p.1 p.2) d = .error .zeroDivision := by
  have h1 := bounds_idxOf hd hwin
  have h0 : ∀ q, lengthDiv false q 0 = .error .zeroDivision := fun q => rfl
  constructor
  · change symmetric1d false fuel neg y (idxOf W) d = _
    simp only [symmetric1d, h1, bind, Except.bind, sub_self]
    rw [if_neg (by omega), h0]
  · change reflect1d false fuel y (idxOf W) d = _
    simp only [reflect1d, h1, bind, Except.bind, sub_self]
    rw [if_neg (by omega), if_neg (by omega), h0]

namespace Example

/-- a 2×7 buffer whose columns 2, 3 and 4 are original -/
def buf : Tensor ℚ := ⟨[2, 7], [9, 9, 1, 2, 3, 9, 9, 9, 9, 4, 5, 6, 9, 9], rfl⟩

example : ∃ r, ∀ fuel, 2 ≤ fuel → 7 - 5 ≤ fuel →
    oddReflect1d fuel buf [.between 0 2, .between 2 5] 1 = .ok r :=
  C19_loops_terminate (y := buf) (W := [(0, 2), (2, 5)]) (d := 1) (head := 2) (tail := 5)
    (by simp [buf]) (by decide) rfl (by decide) true oddReflect1d (by simp [loopFuncs])

/-- the same buffer with an empty original region -/
example (fuel : Nat) : reflect1d true fuel buf [.between 0 2, .between 2 2] 1 = .error .diverge :=
  C19_empty_before_diverges (W := [(0, 2), (2, 2)]) (d := 1) (head := 2) (by simp [buf]) (by decide) rfl
    (by decide) fuel _ (by simp [loopFuncs])

example (fuel : Nat) : reflect1d true fuel buf [.between 0 2, .between 0 0] 1 = .error .diverge :=
  C19_empty_after_diverges (W := [(0, 2), (0, 0)]) (d := 1) (by simp [buf]) (by decide) rfl
    (by decide) fuel _ (by simp [loopFuncs])

/-- an image with no columns -/
def noCols : Tensor ℚ := ⟨[2, 0], [], rfl⟩

/-- the divergence is reachable through `forward`: an image with no columns, padded circularly or symmetrically -/
example : (pOf .circular).forward (fun _ => 0) noCols (.int 1) = .error .diverge ∧
    (pOf .symmetric).forward (fun _ => 0) noCols (.int 1) = .error .diverge := by decide +kernel

/-- `pad_axis` on the same image raises instead -/
example : (pOf .symmetric).padAxis (fun _ => 0) noCols (-1) 1 = .error .zeroDivision ∧
    (pOf .circular).padAxis (fun _ => 0) noCols (-1) 1 = .error .diverge := by decide +kernel

end Example

variable {α : Type} [Field α] [LinearOrder α] [IsStrictOrderedRing α]
variable {p : Padder α} {x : Tensor α} {ax : Axes} {axes : List Nat} {ss : List (AxisPad α)}

/-! ## C20 -/

/-- **C20** fails: if every widened axis has mode `zeros`, `forward` does not raise, keeps the original samples,
and returns *uninitialised memory* in all padded samples. -/
theorem C20_zeros_returns_junk (h : PadReq p x ax axes ss)
    (hm : ∀ s ∈ ss, ¬ (s.before = 0 ∧ s.after = 0) → s.mode = .zeros) (junk : List Nat → α) :
    ∃ y, p.forward junk x ax = .ok y ∧
      (∀ ix, InB x.shape ix → y.get (embed (zipRight axes ss) ix) = x.get ix) ∧
      ∀ ix, InB y.shape ix → ¬ Inside x.shape (zipRight axes ss) ix → y.get ix = junk ix := by
  obtain ⟨y, h1, _, h3, h4⟩ := forward_zeros h hm junk
  exact ⟨y, h1, h3, h4⟩

/-- **C20**, what holds: `zeros_1d` itself writes zeros (it is `constant_1d` with 0); the padder never calls it.
Missing for the full property: the call. -/
theorem C20_zeros1d_partial (y : Tensor α) {W : List (Nat × Nat)} {d head tail : Nat}
    (hW : List.Forall₂ (fun p n => p.1 ≤ p.2 ∧ p.2 ≤ n) W y.shape) (hd : d < W.length)
    (hwin : W.getD d (0, 0) = (head, tail)) :
    ∃ r, zeros1d y (W.map fun p => .between p.1 p.2) d = .ok r ∧ r.shape = y.shape ∧
      ∀ ix, InB y.shape ix → r.get ix =
        if (∀ k, k < W.length → k ≠ d → (W.getD k (0, 0)).1 ≤ ix.getD k 0 ∧ ix.getD k 0 < (W.getD k (0, 0)).2) ∧
          ¬ (head ≤ ix.getD d 0 ∧ ix.getD d 0 < tail) then 0 else y.get ix := by
  refine ⟨_, constant1d_spec 0 0 hW hd hwin, rfl, ?_⟩
  intro ix hix
  have hlen : ix.length = W.length := by rw [hix.length_eq, List.Forall₂.length_eq hW]
  have hN : ix.getD d 0 < y.shape.getD d 0 :=
    (inB_iff.1 hix).2 d (by rw [← List.Forall₂.length_eq hW]; exact hd)
  simp only [applyExt, fill]
  rw [get_ofFn hix]
  by_cases ho : ∀ k, k < W.length → k ≠ d → (W.getD k (0, 0)).1 ≤ ix.getD k 0 ∧ ix.getD k 0 < (W.getD k (0, 0)).2
  · rw [if_pos ((inWin_set hd).2 ⟨⟨hlen, ho⟩, Nat.zero_le _, hN⟩)]
    simp only [Spec.constant]
    by_cases h1 : ix.getD d 0 < head
    · rw [if_pos (by omega), if_pos ⟨ho, by omega⟩]
    · by_cases h2 : ix.getD d 0 < tail
      · rw [if_neg (by omega), if_pos (by omega), if_neg (fun h => h.2 ⟨by omega, h2⟩)]
        congr 1
        have : head + ((ix.getD d 0 : Int) - head).toNat = ix.getD d 0 := by omega
        rw [this, set_getD_self]
      · rw [if_neg (by omega), if_neg (by omega), if_pos ⟨ho, by omega⟩]
  · rw [if_neg (fun h => ho ((inWin_set hd).1 h).1.2), if_neg (fun h => ho h.1)]

namespace Example

/-- `Padder(pad_width=(4, 7), mode="zeros").forward(x, axes=(-1, 0))` -/
theorem reqZeros : PadReq (pOf .zeros) Example.x (.seq [-1, 0]) [1, 0] [sOf .zeros, sOf .zeros] where
  ndim_ne := by decide
  axes_eq := by decide
  nodup := by decide
  len := by simp [pOf]
  reads := by
    intro j hj
    match j, hj with
    | 0, _ => exact ⟨rfl, rfl, rfl, rfl, rfl⟩
    | 1, _ => exact ⟨rfl, rfl, rfl, rfl, rfl⟩

example (junk : List Nat → ℚ) : ∃ y, (pOf .zeros).forward junk Example.x (.seq [-1, 0]) = .ok y ∧
    (∀ ix, InB Example.x.shape ix → y.get (embed (zipRight [1, 0] [sOf .zeros, sOf .zeros]) ix) = Example.x.get ix) ∧
    ∀ ix, InB y.shape ix → ¬ Inside Example.x.shape (zipRight [1, 0] [sOf .zeros, sOf .zeros]) ix → y.get ix = junk ix :=
  C20_zeros_returns_junk reqZeros (fun s hs _ => allOf _ s hs) junk

end Example

/-- **C20** is false: a request with mode `zeros` on every axis whose result is not zero padding -/
theorem C20_zeros_false : ∃ (p : Padder ℚ) (x : Tensor ℚ) (ax : Axes) (axes : List Nat) (ss : List (AxisPad ℚ)),
    PadReq p x ax axes ss ∧ (∀ s ∈ ss, s.mode = .zeros) ∧
    ∃ junk, p.forward junk x ax ≠ .ok (padSeq x (zipRight axes ss)) :=
  ⟨_, _, _, _, _, Example.reqZeros, Example.allOf _, fun _ => 1, by decide +kernel⟩

/-- **C20**: worse, `zeros` on one axis followed by another mode on a later axis raises TypeError -/
theorem C20_zeros_then_other_raises : ∃ p : Padder ℚ,
    Padder.init (.leaf 1) (.seq [.leaf Mode.zeros, .leaf Mode.replicate]) (.leaf 0) (.leaf 0) (.leaf none) = .ok p ∧
    p.forward (fun _ => 0) Example.x .none = .error .type :=
  ⟨_, rfl, by decide +kernel⟩

/-! ## C21 -/

/-- **C21.** Every setting is given once for all axes or as a list with `m` entries.  The constructor accepts them.
When `k` axes are padded, the last `min m k` entries apply to the last `min m k` axes, in order; all other axes are
untouched.  If no setting is a list, the single settings apply to every axis. -/
theorem C21_right_justified {g : PadArgs α} {m : Nat} (hm : 0 < m) (hg : g.Fits m) :
    ∃ p, Padder.init (g.width.toPy PadArgs.pyWidth) (g.mode.toPy .leaf) (g.cv.toPy pyPair) (g.ev.toPy pyPair)
        (g.sl.toPy pyPair) = .ok p ∧
      ∀ (x : Tensor α) (ax : Axes) (axes : List Nat), x.ndim ≠ 0 → axesOf x.ndim ax = some axes → axes.Nodup →
        (∀ o ∈ zipRight axes (g.settings m axes.length), ¬ (o.2.before = 0 ∧ o.2.after = 0) →
          o.2.rule? ≠ none ∧ o.2.mode ≠ .zeros ∧ 0 < x.shape.getD o.1 0) →
        ∀ junk, p.forward junk x ax = .ok (padSeq x (zipRight axes (g.settings m axes.length))) :=
  ⟨g.padder m, init_args hm hg, fun _ _ _ hx hax hnd hv junk => forward_call (call_args hm hg hx hax hnd hv) junk⟩

namespace Example

/-- three widths, three modes, everything else once -/
def args : PadArgs ℚ :=
  ⟨.many [(1, 1), (2, 0), (0, 3)], .many [.reflect, .circular, .constant], .one (5, 6), .one (0, 0), .one (none, none)⟩

/-- the last two entries go to the two axes of `x` -/
example : args.settings 3 2 = [⟨2, 0, .circular, (5, 6), (0, 0), (none, none)⟩,
    ⟨0, 3, .constant, (5, 6), (0, 0), (none, none)⟩] := rfl

example : ∃ p, Padder.init (.seq [.seq [.leaf 1, .leaf 1], .seq [.leaf 2, .leaf 0], .seq [.leaf 0, .leaf 3]])
      (.seq [.leaf Mode.reflect, .leaf Mode.circular, .leaf Mode.constant]) (.seq [.leaf (5 : ℚ), .leaf 6])
      (.seq [.leaf 0, .leaf 0]) (.seq [.leaf none, .leaf none]) = .ok p ∧
    ∀ junk, p.forward junk Example.x .none =
      .ok (extendAxis (Spec.constant 5 6) 1 0 3 (extendAxis Spec.circular 0 2 0 Example.x)) := by
  obtain ⟨p, h1, h2⟩ := C21_right_justified (g := args) (m := 3) (by decide) ⟨rfl, rfl, trivial, trivial, trivial⟩
  refine ⟨p, h1, h2 Example.x .none [0, 1] (by decide) rfl (by decide) ?_⟩
  intro o ho _
  have ho : o = (0, ⟨2, 0, .circular, (5, 6), (0, 0), (none, none)⟩) ∨
      o = (1, ⟨0, 3, .constant, (5, 6), (0, 0), (none, none)⟩) := by
    simpa [zipRight, args, PadArgs.settings, PadArgs.isMany, Given.isMany, List.range_succ, PadArgs.entry,
      Given.entry] using ho
  rcases ho with rfl | rfl <;> exact ⟨by simp [AxisPad.rule?], by simp, by decide⟩

end Example

/-! ## C22 -/

/-- **C22**, what holds: `pad_axis(x, i, axis)` extends that axis by entry `i` of the padder, unless the mode is
`periodize` and the axis has odd length.  Missing for the full property: that case, see `C22_pad_axis_false`. -/
theorem C22_pad_axis_extends_partial {s : AxisPad α} {a : Nat} {i axis : Int} (hr : Reads p i s)
    (ha : normAxis x.ndim axis = some a)
    (hv : ¬ (s.before = 0 ∧ s.after = 0) → s.rule? ≠ none ∧ s.mode ≠ .zeros ∧ 0 < x.shape.getD a 0)
    (hp : s.mode.isPeriodize = true → x.shape.getD a 0 % 2 = 0) (junk : List Nat → α) :
    p.padAxis junk x i axis = .ok (padStep x (a, s)) :=
  padAxis_spec hr ha hv hp junk

/-- **C22**, what holds, in terms of the two methods: outside that case `pad_axis(x, -1, axis)` and
`forward(x, axis)` return the same tensor -/
theorem C22_pad_axis_forward_partial {s : AxisPad α} {a : Nat} {axis : Int} (h : PadCall p x (.int axis) [a] [s])
    (hp : s.mode.isPeriodize = true → x.shape.getD a 0 % 2 = 0) (junk junk' : List Nat → α) :
    p.padAxis junk x (-1) axis = p.forward junk' x (.int axis) := by
  have ha : normAxis x.ndim axis = some a := by
    have := h.axes_eq
    simp only [axesOf, normAxes] at this
    split at this
    · rename_i k ks h1 h2
      cases h2
      simp only [Option.some.injEq, List.cons.injEq, and_true] at this
      rw [h1, this]
    · cases this
  have hz : zipRight [a] [s] = [(a, s)] := rfl
  rw [padAxis_spec (s := s) (a := a) (by simpa using h.reads 0 (by simp)) ha
    (fun hnz => h.valued (a, s) (by simp [hz]) hnz) hp, forward_call h, hz]
  rfl

namespace Example

theorem callAxis : PadCall Example.p Example.x (.int 0) [0] [s1] where
  ndim_ne := by decide
  axes_eq := by decide
  nodup := by decide
  len := by decide
  reads := by
    intro j hj
    match j, hj with
    | 0, _ => exact ⟨rfl, rfl, rfl, rfl, rfl⟩
  valued := by
    intro o ho _
    have ho : o = (0, s1) := by simpa [zipRight] using ho
    subst ho
    exact ⟨by simp [AxisPad.rule?, s1], by simp [s1], by decide⟩

example (junk junk' : List Nat → ℚ) : Example.p.padAxis junk Example.x (-1) 0 = Example.p.forward junk' Example.x (.int 0) :=
  C22_pad_axis_forward_partial callAxis (by simp [s1, Mode.isPeriodize]) junk junk'

example (junk : List Nat → ℚ) : Example.p.padAxis junk Example.x 0 (-1) = .ok (extendAxis Spec.circular 1 1 2 Example.x) :=
  C22_pad_axis_extends_partial (s := s0) (a := 1) (i := 0) ⟨rfl, rfl, rfl, rfl, rfl⟩ (by decide)
    (fun _ => ⟨by simp [AxisPad.rule?, s0], by simp [s0], by decide⟩) (by simp [s0, Mode.isPeriodize]) junk

end Example

/-- **C22** is false: with `periodize` and an axis of odd length `pad_axis` allocates one sample too few and
returns a different tensor than `forward` -/
theorem C22_pad_axis_false : ∃ (p : Padder ℚ) (x : Tensor ℚ) (junk : List Nat → ℚ),
    Padder.init (.leaf 2) (.leaf Mode.periodize) (.leaf 0) (.leaf 0) (.leaf none) = .ok p ∧
    p.padAxis junk x 0 0 ≠ p.forward junk x (.int 0) :=
  ⟨_, ⟨[3], [1, 2, 3], rfl⟩, fun _ => 0, rfl, by decide +kernel⟩

/-! ## C23 -/

/-- **C23.** An integer `c` means `(c, c)` for every axis -/
theorem C23_int_is_pair (c : Int) (mode : Py (Mode α)) (cv ev : Py α) (sl : Py (Option Int)) :
    Padder.init (.leaf c) mode cv ev sl = Padder.init (.seq [.leaf c, .leaf c]) mode cv ev sl := by
  simp only [Padder.init, ofItem_leaf2, ofItem_pair]

example : Padder.init (.leaf 4) (.leaf Mode.reflect) (.leaf (0 : ℚ)) (.leaf 0) (.leaf none) =
    Padder.init (.seq [.leaf 4, .leaf 4]) (.leaf Mode.reflect) (.leaf 0) (.leaf 0) (.leaf none) :=
  C23_int_is_pair 4 _ _ _ _

/-- **C23.** A list of one-element lists `[c]` means a list of pairs `(c, c)` -/
theorem C23_singletons_are_pairs {l : List Int} (hne : l ≠ []) (mode : Py (Mode α)) (cv ev : Py α)
    (sl : Py (Option Int)) :
    Padder.init (.seq (l.map fun c => .seq [.leaf c])) mode cv ev sl =
      Padder.init (.seq (l.map fun c => .seq [.leaf c, .leaf c])) mode cv ev sl := by
  simp only [Padder.init, ofItem_singletons hne,
    ofItem_pairs (f := fun c : Int => Py.seq [.leaf c, .leaf c]) (fun c => ⟨c, c, rfl⟩) hne]

example : Padder.init (.seq [.seq [.leaf 4], .seq [.leaf 0]]) (.leaf Mode.reflect) (.leaf (0 : ℚ)) (.leaf 0) (.leaf none) =
    Padder.init (.seq [.seq [.leaf 4, .leaf 4], .seq [.leaf 0, .leaf 0]]) (.leaf Mode.reflect) (.leaf 0) (.leaf 0)
      (.leaf none) :=
  C23_singletons_are_pairs (l := [4, 0]) (by simp) _ _ _ _

/-- **C23.** A pair with a negative width is rejected with ValueError, whatever the other arguments are -/
theorem C23_negative_pair {b a : Int} (h : b < 0 ∨ a < 0) (mode : Py (Mode α)) (cv ev : Py α)
    (sl : Py (Option Int)) : Padder.init (.seq [.leaf b, .leaf a]) mode cv ev sl = .error .value := by
  simp [Padder.init, ofItem_pair, NdSpec.map, NdSpec.itemShape, recApply, checkPadWidth, h, bind, Except.bind]

example : Padder.init (.seq [.leaf 3, .leaf (-1)]) (.leaf Mode.reflect) (.leaf (0 : ℚ)) (.leaf 0) (.leaf none) =
    .error .value := C23_negative_pair (Or.inr (by decide)) _ _ _ _

/-- **C23.** So is a list of pairs with a negative width anywhere -/
theorem C23_negative_in_list {l : List (Int × Int)} (h : ∃ w ∈ l, w.1 < 0 ∨ w.2 < 0) (mode : Py (Mode α))
    (cv ev : Py α) (sl : Py (Option Int)) :
    Padder.init (.seq (l.map fun w => .seq [.leaf w.1, .leaf w.2])) mode cv ev sl = .error .value := by
  have hne : l ≠ [] := by rintro rfl; simp at h
  have hrec := recApply_negative (l := l) h
  simp only [Padder.init, ofItem_pairs (f := fun w : Int × Int => Py.seq [.leaf w.1, .leaf w.2])
    (fun w => ⟨w.1, w.2, rfl⟩) hne, NdSpec.map, NdSpec.itemShape]
  simp [recApply, hrec, bind, Except.bind]

example : Padder.init (.seq [.seq [.leaf 1, .leaf 1], .seq [.leaf (-2), .leaf 0], .seq [.leaf 0, .leaf 3]])
    (.leaf Mode.reflect) (.leaf (0 : ℚ)) (.leaf 0) (.leaf none) = .error .value :=
  C23_negative_in_list (l := [(1, 1), (-2, 0), (0, 3)]) ⟨(-2, 0), by simp, by decide⟩ _ _ _ _

/-- **C23.** Whatever Python value is passed as `pad_width`: if the constructor accepts it, no width read from the
padder is negative -/
theorem C23_no_negative_width {pw : Py Int} {mode : Py (Mode α)} {cv ev : Py α} {sl : Py (Option Int)} {p : Padder α}
    (h : Padder.init pw mode cv ev sl = .ok p) {i b a : Int} (hp : Padder.pairAt p.padWidth i = .ok (b, a)) :
    0 ≤ b ∧ 0 ≤ a := by
  simp only [Padder.init, bind, Except.bind] at h
  split at h
  · cases h
  rename_i w hw
  split at h
  · cases h
  rename_i w' hw'
  have hpw : p.padWidth = w' := by
    repeat' (split at h)
    all_goals cases h
    all_goals rfl
  rw [hpw] at hp
  exact pairAt_checked hw' hp

example {i b a : Int} (hp : Padder.pairAt Example.p.padWidth i = .ok (b, a)) : 0 ≤ b ∧ 0 ≤ a :=
  C23_no_negative_width Example.init_p hp

end TI
