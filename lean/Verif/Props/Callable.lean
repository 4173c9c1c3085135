import Verif.Proofs.Callable
import Verif.Props.PadForward

/-!
# C100: padding functions supplied by the caller
-/

namespace TI
open Tensor Spec

section
set_option linter.unusedSectionVars false
variable {α : Type} [Field α] [LinearOrder α] [IsStrictOrderedRing α]
variable {p : Padder α} {x : Tensor α} {ax : Axes} {axes : List Nat} {ss : List (AxisPad α)}

/-- **C100.** A padder whose modes are names and callables in any combination: if every callable computes a rule on
the lines it is given, `forward` is sequential padding with these rules, each step on the full previous result,
whatever the buffer contained. -/
theorem C100_callable (h : PadReq p x ax axes ss) (R : AxisPad α → Ext α)
    (hR : ∀ o ∈ zipRight axes ss, ¬ (o.2.before = 0 ∧ o.2.after = 0) →
      Amounts o.2 (R o.2) ∧ 0 < x.shape.getD o.1 0) (junk : List Nat → α) :
    p.forward junk x ax = .ok (padBy R x (zipRight axes ss)) := by
  have hc := checkAxes_spec h.axes_eq
  by_cases hne : axes = []
  · have h0 : ss = [] := by
      apply List.length_eq_zero_iff.1
      have := h.len_le
      rw [hne] at this; simpa using this
    subst h0
    have : castV axes = [] := by rw [hne]; rfl
    simp [Padder.forward, h.ndim_ne, hc.1, this, bind, Except.bind, pure, Except.pure, zipRight, padBy]
  · exact forward_by p junk x ax (castV axes) R _ h.ndim_ne hc.1 (by simpa [castV] using hne) h.forall₂
      (zipRight_nodup h.nodup h.len_le) (fun o ho => hc.2 _ (zipRight_mem ho).1) hR

/-- **C100**, shape and samples: the result has the requested size, and if the rules leave the signal itself alone it
contains the input at the offset of the widths before. -/
theorem C100_shape_samples (h : PadReq p x ax axes ss) (R : AxisPad α → Ext α)
    (hR : ∀ o ∈ zipRight axes ss, ¬ (o.2.before = 0 ∧ o.2.after = 0) →
      Amounts o.2 (R o.2) ∧ 0 < x.shape.getD o.1 0) (junk : List Nat → α) :
    ∃ y, p.forward junk x ax = .ok y ∧ y.ndim = x.ndim ∧
      (∀ k, y.shape.getD k 0 = match settingAt (zipRight axes ss) k with
        | some s => s.before + x.shape.getD k 0 + s.total (x.shape.getD k 0)
        | none => x.shape.getD k 0) ∧
      ((∀ o ∈ zipRight axes ss, ∀ n, IsExt (R o.2) n) → ∀ ix, InB x.shape ix →
        InB y.shape (embed (zipRight axes ss) ix) ∧ y.get (embed (zipRight axes ss) ix) = x.get ix) := by
  have hc := checkAxes_spec h.axes_eq
  have hnd := zipRight_nodup (ss := ss) h.nodup h.len_le
  have hlt : ∀ o ∈ zipRight axes ss, o.1 < x.ndim := fun o ho => hc.2 _ (zipRight_mem ho).1
  exact ⟨_, C100_callable h R hR junk, padBy_ndim R _ x, padBy_shape R hnd x hlt, fun he ix hix =>
    ⟨padBy_embed_inB R hnd hlt hix, padBy_crop R he hnd x hlt hix⟩⟩

/-- the callable that evaluates a rule on every line through the region -/
def ruleFn (E : Ext α) : PadFn α := fun y idx d =>
  let lo := ((idx.getD d PySlice.full).start.getD 0).toNat
  let hi := ((idx.getD d PySlice.full).stop.getD 0).toNat
  .ok (ofFn y.shape fun ix => E (hi - lo) (fun j => y.get (ix.set d (lo + j))) ((ix.getD d 0 : Int) - lo))

/-- **C100**: every rule can be supplied, with any widths. -/
theorem C100_every_rule (E : Ext α) (b a : Nat) : Computes (ruleFn E) b a E := by
  intro y W d hl hW hd hb hlt hN
  have e : (W.map fun w => PySlice.between w.1 w.2).getD d PySlice.full =
      PySlice.between (W.getD d (0, 0)).1 (W.getD d (0, 0)).2 := by
    simp [List.getD_eq_getElem?_getD, List.getElem?_map, List.getElem?_eq_getElem hd]
  refine ⟨_, rfl, rfl, ?_⟩
  intro ix hix _
  rw [get_ofFn hix, e]
  simp only [PySlice.between, Option.getD_some, Int.toNat_natCast, hb]

/-- **C100**: the functions behind the named modes (except `periodize`, which needs one more place), passed as
callables, compute the rules of the modes. -/
theorem C100_library_rules {i : Int} {s : AxisPad α} {E : Ext α} (hr : Reads p i s) (hE : s.rule? = some E)
    (hz : s.mode ≠ .zeros) (hp : s.mode.isPeriodize = false) :
    Computes (p.runMode true i s.mode) s.before s.after E := by
  apply computes_of_applyExt
  intro y W d tail hW hd hwin hlt hN
  obtain ⟨E', h1, _, h3⟩ := runMode_spec (np := true) hr (valued_of_rule (by rw [hE]; simp) hz) hW hd hwin hlt rfl
    (by rw [hN, hp]; simp)
  rw [hE] at h1
  cases h1
  exact h3

/-- `p'` is `p` with some named modes replaced by callables that do the same; the modes that write nothing and
`periodize` are kept. -/
structure Spec.CallableFor (p p' : Padder α) : Prop where
  width : p'.padWidth = p.padWidth
  cv : p'.constantValues = p.constantValues
  ev : p'.endValues = p.endValues
  sl : p'.statLength = p.statLength
  ndim : p'.ndim = p.ndim
  modes : ∀ i, p'.modeAt i = p.modeAt i ∨ ∃ m f, p.modeAt i = .ok m ∧ p'.modeAt i = .ok (.custom f) ∧
    m ≠ .empty ∧ m ≠ .zeros ∧ m ≠ .unknown ∧ m ≠ .periodize ∧ ∀ y idx d, f y idx d = p.runMode true i m y idx d

theorem runMode_other {p p' : Padder α} (h : CallableFor p p') (np : Bool) (i : Int) (m : Mode α) :
    p'.runMode np i m = p.runMode np i m := by
  funext y idx d
  cases m <;> simp only [Padder.runMode, h.cv, h.ev, h.sl]

theorem accStep_callable {p p' : Padder α} (h : CallableFor p p') (shape : List Nat) (axes : List Int) (i : Int)
    (acc : List Int × List Int) : p'.accStep shape axes i acc = p.accStep shape axes i acc := by
  simp only [Padder.accStep, h.width]
  rcases h.modes i with h1 | ⟨m, f, h1, h2, _, _, _, h3, _⟩
  · rw [h1]
  · have h3 : m.isPeriodize = false := by cases m <;> simp_all [Mode.isPeriodize]
    rw [h1, h2]
    simp only [bind, Except.bind, h3]
    rfl

theorem fillValue1d_callable {p p' : Padder α} (h : CallableFor p p') (y : Tensor α) (i a : Int)
    (idx : Option (List PySlice)) : p'.fillValue1d true y i a idx = p.fillValue1d true y i a idx := by
  simp only [Padder.fillValue1d, h.width, runMode_other h]
  rcases h.modes i with h1 | ⟨m, f, h1, h2, h3, h4, h5, h6, h7⟩
  · rw [h1]
  · rw [h1, h2]
    have e : ∀ y idx d, p.runMode true i (.custom f) y idx d = p.runMode true i m y idx d := h7
    have ew : ∀ pw idx d, Padder.widen (.custom f) pw idx d = Padder.widen m pw idx d := by
      intro pw idx d
      cases m <;> simp_all [Padder.widen, Mode.isPeriodize]
    cases m <;> first | contradiction | simp only [bind, Except.bind, e, ew]

/-- **C100**, the names are abbreviations: a padder in which named modes are replaced by the functions they stand for
returns the same tensors and raises the same exceptions, on every input. -/
theorem C100_names {p p' : Padder α} (h : CallableFor p p') (junk : List Nat → α) (x : Tensor α) (ax : Axes) :
    p'.forward junk x ax = p.forward junk x ax := by
  have hl : ∀ axes is acc, p'.accLoop x.shape axes is acc = p.accLoop x.shape axes is acc := by
    intro axes is
    induction is with
    | nil => intro acc; rfl
    | cons i is ih =>
      intro acc
      simp only [Padder.accLoop, accStep_callable h, ih]
  have hfl : ∀ axes is y idx, p'.fillLoop axes is y idx = p.fillLoop axes is y idx := by
    intro axes is
    induction is with
    | nil => intro y idx; rfl
    | cons i is ih =>
      intro y idx
      simp only [Padder.fillLoop, fillValue1d_callable h, ih]
  have hn : ∀ axes, p'.nPadded axes = p.nPadded axes := by
    intro axes; simp only [Padder.nPadded, h.ndim]
  simp only [Padder.forward, hl, hfl, hn]

end

namespace Example

/-- `Padder(pad_width=[(1, 2), (3, 0)], mode=[circular_1d, "reflect"])` -/
def pFn : Padder ℚ := { p with mode := ⟨.seq [.leaf (.custom (p.runMode true (-2) .circular)), .leaf .reflect], [2], 1⟩ }

theorem callableFor : CallableFor p pFn where
  width := rfl
  cv := rfl
  ev := rfl
  sl := rfl
  ndim := rfl
  modes := by
    intro i
    by_cases h0 : i = -2 ∨ i = 0
    · right
      refine ⟨.circular, p.runMode true (-2) .circular, ?_, ?_, by simp, by simp, by simp, by simp, fun y idx d => rfl⟩
      · rcases h0 with rfl | rfl <;> rfl
      · rcases h0 with rfl | rfl <;> rfl
    · left
      by_cases h1 : i = -1 ∨ i = 1
      · rcases h1 with rfl | rfl <;> rfl
      · have key : ∀ a b : Py (Mode ℚ), pyIndex [a, b] i = .error .index := by
          intro a b
          have e : (2 : Int) = (([a, b].length : Nat) : Int) := rfl
          simp only [pyIndex, ← e]
          by_cases hi : (if i < 0 then i + 2 else i) < 0
          · rw [if_pos hi]
          · rw [if_neg hi, List.getElem?_eq_none]
            simp only [List.length_cons, List.length_nil]
            split_ifs at hi ⊢ <;> omega
        have k1 : p.mode.get i = .error .index := key _ _
        have k2 : pFn.mode.get i = .error .index := key _ _
        simp only [Padder.modeAt, k1, k2]

example (junk : List Nat → ℚ) (x : Tensor ℚ) (ax : Axes) : pFn.forward junk x ax = p.forward junk x ax :=
  C100_names callableFor junk x ax

/-- a rule no name stands for: both borders show the sum of the two border samples -/
def wrapSum : Ext ℚ := fun n u z => if 0 ≤ z ∧ z < n then u z.toNat else u 0 + u (n - 1)

/-- `Padder(pad_width=[(1, 2), (3, 0)], mode=[f, "reflect"])` -/
def pSum : Padder ℚ := { p with mode := ⟨.seq [.leaf (.custom (ruleFn wrapSum)), .leaf .reflect], [2], 1⟩ }

theorem reqSum : PadReq pSum x (.seq [1, -2]) [1, 0] [{ s0 with mode := .custom (ruleFn wrapSum) }, s1] where
  ndim_ne := by decide
  axes_eq := by decide
  nodup := by decide
  len := by decide
  reads := by
    intro j hj
    match j, hj with
    | 0, _ => exact ⟨rfl, rfl, rfl, rfl, rfl⟩
    | 1, _ => exact ⟨rfl, rfl, rfl, rfl, rfl⟩

theorem wrapSum_samples : SamplesOnly wrapSum := by
  intro n u u' z hn h
  simp only [wrapSum]
  split_ifs with hz
  · exact h _ (by omega)
  · rw [h 0 hn, h (n - 1) (by omega)]

example (junk : List Nat → ℚ) : pSum.forward junk x (.seq [1, -2]) =
    .ok (extendAxis Spec.reflect 0 3 0 (extendAxis wrapSum 1 1 2 x)) := by
  have := C100_callable reqSum (fun s => match s.mode with | .reflect => Spec.reflect | _ => wrapSum) ?_ junk
  · rw [this]; rfl
  · intro o ho _
    have ho : o = (1, { s0 with mode := .custom (ruleFn wrapSum) }) ∨ o = (0, s1) := by simpa [zipRight] using ho
    rcases ho with rfl | rfl
    · exact ⟨⟨C100_every_rule wrapSum 1 2, wrapSum_samples⟩, by decide⟩
    · exact ⟨rfl, by decide⟩

/-- three samples -/
def three : Tensor ℚ := Tensor.ofFn [3] fun ix => ix.getD 0 0

/-- `Padder(1, mode=m)` -/
def pOne (m : Mode ℚ) : Padder ℚ where
  padWidth := ⟨.seq [.leaf 1, .leaf 1], [2], 0⟩
  mode := ⟨.leaf m, [], 0⟩
  constantValues := ⟨.seq [.leaf 0, .leaf 0], [2], 0⟩
  endValues := ⟨.seq [.leaf 0, .leaf 0], [2], 0⟩
  statLength := ⟨.seq [.leaf none, .leaf none], [2], 0⟩
  ndim := 0

end Example

/-- **C100**: `periodize` is the exception.  Passing `periodize_1d` itself as a callable is not the mode `periodize`: the
result lacks the sample that makes the length even. -/
theorem C100_periodize_false : ∃ (p p' : Padder ℚ) (x y y' : Tensor ℚ), p.modeAt (-1) = .ok .periodize ∧
    p' = { p with mode := ⟨.leaf (.custom (p.runMode true (-1) .periodize)), [], 0⟩ } ∧
    p.forward (fun _ => 0) x .none = .ok y ∧ p'.forward (fun _ => 0) x .none = .ok y' ∧
    y.shape = [6] ∧ y'.shape = [5] := by
  refine ⟨Example.pOne .periodize, _, Example.three, _, _, rfl, rfl, rfl, rfl, ?_, ?_⟩ <;> decide +kernel

end TI
