import Verif.Proofs.Steps
import Verif.Props.PadForward

/-!
# Padding in two steps (C105), more on the order of the axes (C17)
-/

set_option linter.unusedSectionVars false

namespace TI
open Tensor Spec

variable {α : Type} [Field α] [LinearOrder α] [IsStrictOrderedRing α] {x : Tensor α} {ax : Axes} {axes : List Nat}

/-- **C105.** Padding with edge values, straight lines, constants or statistics of whole fibres can be made in two steps: first with the widths
of `p₁`, then the result with the widths of `p₂`, is the same as padding once with the sums of the widths. -/
theorem C105_two_steps {p p₁ p₂ : Padder α} {ss ss₁ ss₂ : List (AxisPad α)} (h : PadCall p x ax axes ss) (h₁ : PadCall p₁ x ax axes ss₁)
    (h₂ : PadCall p₂ x ax axes ss₂) (l₁ : ss₁.length = ss.length) (l₂ : ss₂.length = ss.length)
    (hs : ∀ j (g₁ : j < ss₁.length) (g₂ : j < ss₂.length) (g : j < ss.length), ss₁[j].Steps ss₂[j] ss[j] ∧ ss[j].Settled)
    (ha : Agreeing ss) (junk junk₁ junk₂ : List Nat → α) :
    ∃ y z, p₁.forward junk₁ x ax = .ok y ∧ p₂.forward junk₂ y ax = .ok z ∧ p.forward junk x ax = .ok z := by
  have hnd : (padSeq x (zipRight axes ss₁)).ndim = x.ndim := padSeq_ndim h₁.ok x
  refine ⟨_, _, C16_forward_sequential h₁ junk₁, C16_forward_sequential (h₂.grown hnd (padSeq_grows _ _)) junk₂, ?_⟩
  rw [C16_forward_sequential h junk]
  congr 1
  simp only [zipRight, l₁, l₂]
  have hle := h.len_le
  symm
  refine padSeq_steps (by rw [List.length_drop]; omega) (by rw [List.length_drop]; omega) (by rw [List.length_drop]; omega) hs
    (fun d hd => (checkAxes_spec h.axes_eq).2 _ (List.mem_of_mem_drop hd)) (h.nodup.sublist (List.drop_sublist _ _))
    (fun o ho hz => (h.valued o ho hz).2.2) ?_
  intro s hs₁ t ht₂
  have h2 : 2 ≤ ss.length := by
    have := List.length_pos_of_mem hs₁
    rw [List.length_tail] at this
    omega
  obtain ⟨i, hi, rfl⟩ := List.mem_iff_getElem.1 (List.mem_of_mem_tail hs₁)
  obtain ⟨j, hj, rfl⟩ := List.mem_iff_getElem.1 ht₂
  have g := (hs i hi (by omega) (by omega)).1
  have g' := (hs j (by omega) hj (by omega)).1
  exact fun {_ _} hn hn' => exchange_agreeing ha h2 (List.getElem_mem (by omega)) (List.getElem_mem (by omega)) ⟨g.mode.1, g.cv.1⟩ ⟨g'.mode.2, g'.cv.2⟩ hn hn'

/-- **C17**, more modes: the order of the axes does not matter either when the constants of all the axes are the same, or when the modes are
edge values and maxima, or edge values and minima, whatever the lengths for the statistics. -/
theorem C17_order_agreeing {p p' : Padder α} {ax' : Axes} {axes' : List Nat} {ss ss' : List (AxisPad α)}
    (h : PadCall p x ax axes ss) (h' : PadCall p' x ax' axes' ss') (hperm : (zipRight axes ss).Perm (zipRight axes' ss'))
    (ha : Agreeing ss) (junk junk' : List Nat → α) : p.forward junk x ax = p'.forward junk' x ax' := by
  rw [C16_forward_sequential h junk, C16_forward_sequential h' junk']
  by_cases h2 : 2 ≤ ss.length
  · rw [padSeq_perm_exchange hperm x h.nd h.lt (fun o ho hz => (h.valued o ho hz).2.2)
      (fun o ho o' ho' => exchange_agreeing ha h2 (zipRight_mem ho).2 (zipRight_mem ho').2 ⟨rfl, rfl⟩ ⟨rfl, rfl⟩)]
  · have hl : (zipRight axes ss).length ≤ 1 := by simp [zipRight]; omega
    have e : zipRight axes' ss' = zipRight axes ss := by
      revert hperm hl
      match zipRight axes ss with
      | [] => intro hp _; exact hp.nil_eq.symm
      | [a] => intro hp _; exact (List.perm_singleton.1 hp.symm)
      | _ :: _ :: _ => intro _ hl; simp at hl
    rw [e]

namespace StepsExample

/-- `Padder(pad_width=w, mode=["replicate", "maximum"])` -/
def g (w : List (Nat × Nat)) : PadArgs ℚ := ⟨.many w, .many [.replicate, .stat .maximum], .one (3, 3), .one (0, 0), .one (none, none)⟩

theorem call {x : Tensor ℚ} (hx : x.shape = [2, 6, 9]) (a b c d : Nat) :
    PadCall ((g [(a, b), (c, d)]).padder 2) x (.seq [1, -1]) [1, 2] ((g [(a, b), (c, d)]).settings 2 2) := by
  apply call_args (g := g [(a, b), (c, d)]) (m := 2) (by decide) ⟨rfl, rfl, trivial, trivial, trivial⟩ (by rw [ndim, hx]; decide)
    (by rw [ndim, hx]; rfl) (by decide)
  intro o ho _
  have ho' : o ∈ [(1, (⟨a, b, .replicate, (3, 3), (0, 0), (none, none)⟩ : AxisPad ℚ)), (2, ⟨c, d, .stat .maximum, (3, 3), (0, 0), (none, none)⟩)] := ho
  rw [hx]
  simp only [List.mem_cons, List.not_mem_nil, or_false] at ho'
  rcases ho' with rfl | rfl <;> refine ⟨by simp [AxisPad.rule?], by simp, by simp⟩

theorem agreeing (a b c d : Nat) : Agreeing ((g [(a, b), (c, d)]).settings 2 2) :=
  .inr (.inr (.inl (by
    intro s hs
    have hs' : s ∈ [(⟨a, b, .replicate, (3, 3), (0, 0), (none, none)⟩ : AxisPad ℚ), ⟨c, d, .stat .maximum, (3, 3), (0, 0), (none, none)⟩] := hs
    simp only [List.mem_cons, List.not_mem_nil, or_false] at hs'
    rcases hs' with rfl | rfl <;> simp)))

end StepsExample

open StepsExample in
example {x : Tensor ℚ} (hx : x.shape = [2, 6, 9]) (junk : List Nat → ℚ) : ∃ y z,
    ((g [(1, 0), (2, 5)]).padder 2).forward junk x (.seq [1, -1]) = .ok y ∧
    ((g [(2, 3), (0, 4)]).padder 2).forward junk y (.seq [1, -1]) = .ok z ∧
    ((g [(3, 3), (2, 9)]).padder 2).forward junk x (.seq [1, -1]) = .ok z := by
  refine C105_two_steps (call hx 3 3 2 9) (call hx 1 0 2 5) (call hx 2 3 0 4) rfl rfl ?_ (agreeing _ _ _ _) _ _ _
  intro j h1 h2 h3
  have hj : j = 0 ∨ j = 1 := by have : j < 2 := h3; omega
  rcases hj with rfl | rfl
  · exact ⟨⟨rfl, rfl, ⟨rfl, rfl⟩, ⟨rfl, rfl⟩, ⟨rfl, rfl⟩⟩, trivial⟩
  · exact ⟨⟨rfl, rfl, ⟨rfl, rfl⟩, ⟨rfl, rfl⟩, ⟨rfl, rfl⟩⟩, rfl⟩

/-- **C105**, the other modes do not have the property: the signal `1, 2` continued periodically to `2, 1, 2` is then continued to `2, 2, 1, 2`
and not to `1, 2, 1, 2`. -/
theorem C105_circular_steps_differ : ∃ p₁ p : Padder ℚ,
    Padder.init (.seq [.leaf 1, .leaf 0]) (.leaf Mode.circular) (.leaf 0) (.leaf 0) (.leaf none) = .ok p₁ ∧
    Padder.init (.seq [.leaf 2, .leaf 0]) (.leaf Mode.circular) (.leaf 0) (.leaf 0) (.leaf none) = .ok p ∧
    (p₁.forward (fun _ => 0) (ofFn [2] fun ix => (ix.getD 0 0 : ℚ) + 1) (.int 0)).bind (fun y => p₁.forward (fun _ => 0) y (.int 0)) ≠
      p.forward (fun _ => 0) (ofFn [2] fun ix => (ix.getD 0 0 : ℚ) + 1) (.int 0) :=
  ⟨_, _, rfl, rfl, by decide +kernel⟩

/-- **C105**, the settings of several axes must agree: with the constants 5 for the rows and 7 for the columns the corners of the second step
are not those of a single step. -/
theorem C105_constants_steps_differ : ∃ p₁ p : Padder ℚ,
    Padder.init (.leaf 1) (.leaf Mode.constant) (.seq [.seq [.leaf 5, .leaf 5], .seq [.leaf 7, .leaf 7]]) (.leaf 0) (.leaf none) = .ok p₁ ∧
    Padder.init (.leaf 2) (.leaf Mode.constant) (.seq [.seq [.leaf 5, .leaf 5], .seq [.leaf 7, .leaf 7]]) (.leaf 0) (.leaf none) = .ok p ∧
    (p₁.forward (fun _ => 0) (ofFn [1, 1] fun _ => (1 : ℚ)) (.seq [0, 1])).bind (fun y => p₁.forward (fun _ => 0) y (.seq [0, 1])) ≠
      p.forward (fun _ => 0) (ofFn [1, 1] fun _ => (1 : ℚ)) (.seq [0, 1]) :=
  ⟨_, _, rfl, rfl, by decide +kernel⟩

namespace StepsExample

/-- `Padder(pad_width=w, mode=["maximum", "replicate"])` -/
def g' (w : List (Nat × Nat)) : PadArgs ℚ := ⟨.many w, .many [.stat .maximum, .replicate], .one (3, 3), .one (0, 0), .one (none, none)⟩

theorem call' {x : Tensor ℚ} (hx : x.shape = [2, 6, 9]) (a b c d : Nat) :
    PadCall ((g' [(c, d), (a, b)]).padder 2) x (.seq [2, 1]) [2, 1] ((g' [(c, d), (a, b)]).settings 2 2) := by
  apply call_args (g := g' [(c, d), (a, b)]) (m := 2) (by decide) ⟨rfl, rfl, trivial, trivial, trivial⟩ (by rw [ndim, hx]; decide)
    (by rw [ndim, hx]; rfl) (by decide)
  intro o ho _
  have ho' : o ∈ [(2, (⟨c, d, .stat .maximum, (3, 3), (0, 0), (none, none)⟩ : AxisPad ℚ)), (1, ⟨a, b, .replicate, (3, 3), (0, 0), (none, none)⟩)] := ho
  rw [hx]
  simp only [List.mem_cons, List.not_mem_nil, or_false] at ho'
  rcases ho' with rfl | rfl <;> refine ⟨by simp [AxisPad.rule?], by simp, by simp⟩

end StepsExample

open StepsExample in
example {x : Tensor ℚ} (hx : x.shape = [2, 6, 9]) (junk : List Nat → ℚ) :
    ((g [(1, 0), (2, 5)]).padder 2).forward junk x (.seq [1, -1]) = ((g' [(2, 5), (1, 0)]).padder 2).forward junk x (.seq [2, 1]) :=
  C17_order_agreeing (call hx 1 0 2 5) (call' hx 1 0 2 5) (List.Perm.swap (2, (⟨2, 5, .stat .maximum, (3, 3), (0, 0), (none, none)⟩ : AxisPad ℚ))
    (1, ⟨1, 0, .replicate, (3, 3), (0, 0), (none, none)⟩) []) (agreeing _ _ _ _) junk junk

end TI
