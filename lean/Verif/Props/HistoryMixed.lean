import Verif.Proofs.HistoryMixed
import Verif.Props.History

/-!
# Padders that serve images of several types: C156
-/

namespace TI
open Tensor Spec

/-- **C156.** Whatever a padder served before (images of numbers, of machine integers of any types, or with entries that are not finite, in calls of any modules that share it), a call on
images of numbers has the outcome it has with the padder as constructed. -/
theorem C156_numbers (c : ModuleMethod) (p : Option (Padder ℝ)) (history : List MixedEvent) : (c.run (history.foldl MixedEvent.run p)).2 = (c.run p).2 :=
  moduleMethod_same c (mixed_history p history)

/-- **C156** for a call on images of machine integers -/
theorem C156_integers {t : IntType} (c : MethodWord t) (p : Option (Padder ℝ)) (history : List MixedEvent) : (c.run (history.foldl MixedEvent.run p)).2 = (c.run p).2 :=
  (methodWord_indep c).2 (mixed_history p history)

/-- **C156** for a call on images with entries that are not finite: NaN and infinities leave no trace in the module -/
theorem C156_floats (c : MethodFlt) (p : Option (Padder ℝ)) (history : List MixedEvent) : (c.run (history.foldl MixedEvent.run p)).2 = (c.run p).2 :=
  (methodFlt_indep c).2 (mixed_history p history)

/-- **C156**: the settings of the padder stay what they are -/
theorem C156_settings (p : Option (Padder ℝ)) (history : List MixedEvent) :
    (history.foldl MixedEvent.run p).map (fun q => (q.mode, q.constantValues, q.endValues, q.statLength)) = p.map fun q => (q.mode, q.constantValues, q.endValues, q.statLength) := by
  have h := mixed_history p history
  revert h
  generalize history.foldl MixedEvent.run p = q
  intro h
  cases p <;> cases q
  · rfl
  · exact h.elim
  · exact h.elim
  · rename_i p q
    have h : SameSettings q p := h
    simp [h.mode, h.cv, h.ev, h.sl]

open HistoryExample in
/-- C156: after images full of NaN and images of bytes, multi-scale SSIM of images of numbers is what it is with a new padder -/
example (m : MsSsim) (u : UnsharpMask ℝ) (f : EdgeFilter ℝ) (j : List Nat → ℝ) (jw : List Nat → (IntType.mk 8 false).Word) (jf : List Nat → Flt ℝ) (x y : Tensor ℝ) (w : Tensor (IntType.mk 8 false).Word) :
    widen.run (some reflector) ≠ some reflector ∧
    (m.forward j x y (.slice (.from 2)) .none ([.numbers widen, .floats (.sharpen u jf (ofFn [1, 1, 9, 7] fun _ => Flt.nan) .none), .integers ⟨8, false⟩ (.edge (.loss f jw w w)),
      .integers ⟨8, false⟩ (.msssim m jw w w .none .none)].foldl MixedEvent.run (some reflector))).2 = (m.forward j x y (.slice (.from 2)) .none (some reflector)).2 :=
  ⟨fun h => widths_before (by rw [← h]; exact widths), Outcome.tensor.inj (C156_numbers (.msssim m j x y (.slice (.from 2)) .none) (some reflector) _)⟩

end TI
