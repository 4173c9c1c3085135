import Verif.Proofs.Wider
import Verif.Props.Steps

/-!
# A narrower padding inside a wider one (C106)
-/

set_option linter.unusedSectionVars false

namespace TI
open Tensor Spec

variable {α : Type} [Field α] [LinearOrder α] [IsStrictOrderedRing α] {x : Tensor α} {ax : Axes} {axes : List Nat}

/-- **C106.** What a padding writes at a distance from the border does not depend on the widths: the result of a narrower padding is a part of
the result of a wider one, corners included; it begins at the differences of the widths before. -/
theorem C106_narrower {p p' : Padder α} {ss ss' : List (AxisPad α)} (h : PadCall p x ax axes ss) (h' : PadCall p' x ax axes ss')
    (l : ss'.length = ss.length) (hw : ∀ j (g : j < ss.length) (g' : j < ss'.length), ss[j].Wider ss'[j]) (junk junk' : List Nat → α) :
    ∃ y z, p.forward junk x ax = .ok y ∧ p'.forward junk' x ax = .ok z ∧
      PartOf (fun k => beforeAt (zipRight axes ss') k - beforeAt (zipRight axes ss) k) y z := by
  refine ⟨_, _, C16_forward_sequential h junk, C16_forward_sequential h' junk', ?_⟩
  have hle := h.len_le
  have key := padSeq_partOf (axes := axes.drop (axes.length - ss.length)) (ss := ss) (ss' := ss') (y := x) (z := x) (off := fun _ => 0)
    (by rw [List.length_drop]; omega) (by rw [List.length_drop]; omega) hw
    (fun ix hix => by rw [further_zero (fun _ => rfl)]; exact ⟨hix, rfl⟩) rfl
    (fun d hd => ⟨(checkAxes_spec h.axes_eq).2 _ (List.mem_of_mem_drop hd), rfl, rfl⟩) (h.nodup.sublist (List.drop_sublist _ _))
    (fun o ho hz => by
      have := h'.valued o (by rw [zipRight, l]; exact ho) hz
      exact ⟨this.1, this.2.2⟩)
  simpa only [zipRight, l, Nat.zero_add] using key

open StepsExample in
example {x : Tensor ℚ} (hx : x.shape = [2, 6, 9]) (junk : List Nat → ℚ) : ∃ y z,
    ((g [(1, 0), (2, 5)]).padder 2).forward junk x (.seq [1, -1]) = .ok y ∧
    ((g [(4, 0), (3, 7)]).padder 2).forward junk x (.seq [1, -1]) = .ok z ∧
    (InB y.shape [1, 3, 8] → z.get [1, 6, 9] = y.get [1, 3, 8]) := by
  obtain ⟨y, z, h1, h2, h3⟩ := C106_narrower (call hx 1 0 2 5) (call hx 4 0 3 7) rfl (by
    intro j h1 h2
    have hj : j = 0 ∨ j = 1 := by have : j < 2 := h2; omega
    rcases hj with rfl | rfl
    · exact ⟨Nat.le_of_ble_eq_true rfl, Nat.le_of_ble_eq_true rfl, rfl, rfl, rfl, by rintro ⟨⟩⟩
    · exact ⟨Nat.le_of_ble_eq_true rfl, Nat.le_of_ble_eq_true rfl, rfl, rfl, rfl, by rintro ⟨⟩⟩) junk junk
  exact ⟨y, z, h1, h2, fun h => (h3 _ h).2⟩

/-- **C106**, ramps are excluded: the ramp from 4 to 0 over one sample is `0`, over two samples it is `0, 2`. -/
theorem C106_ramps_differ : ∃ p p' : Padder ℚ,
    Padder.init (.seq [.leaf 1, .leaf 0]) (.leaf Mode.linearRamp) (.leaf 0) (.leaf 0) (.leaf none) = .ok p ∧
    Padder.init (.seq [.leaf 2, .leaf 0]) (.leaf Mode.linearRamp) (.leaf 0) (.leaf 0) (.leaf none) = .ok p' ∧
    (p.forward (fun _ => 0) (ofFn [1] fun _ => (4 : ℚ)) (.int 0)).map (fun y => y.get [0]) = .ok 0 ∧
    (p'.forward (fun _ => 0) (ofFn [1] fun _ => (4 : ℚ)) (.int 0)).map (fun y => y.get [1]) = .ok 2 :=
  ⟨_, _, rfl, rfl, by decide +kernel, by decide +kernel⟩

end TI
