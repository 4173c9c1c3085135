import Verif.Proofs.History
import Verif.Props.Pool

/-!
# The history of a padder has no influence on the modules that hold it: C155
-/

namespace TI
open Tensor Spec

/-- **C155.** Whatever happened to a padder before (calls of any modules that share it, on any tensors, raising or not, and direct calls of `to_same`), every call of a
pooling, averaging, sharpening or edge module, of SSIM, of MS-SSIM or of a loss on edges has the outcome it has with the padder as constructed. -/
theorem C155_shared (c : ModuleMethod) (p : Option (Padder ℝ)) (history : List SharedEvent) : (c.run (history.foldl SharedEvent.run p)).2 = (c.run p).2 :=
  moduleMethod_same c (shared_history p history)

/-- **C155** for edge filters, which hold two padders: the same, whether these are one object or two, and whatever happened to either of them. -/
theorem C155_edge (c : EdgeMethod) (ps : EdgePadders ℝ) (history : List EdgeEvent) : (c.run (history.foldl EdgeEvent.run ps)).2 = (c.run ps).2 :=
  (edgeMethod_indep c).same (edge_history ps history)

/-- **C155**: no history changes the settings given at construction; a module without a padder does not get one. -/
theorem C155_settings (p : Option (Padder ℝ)) (history : List SharedEvent) :
    (history.foldl SharedEvent.run p).map (fun q => (q.mode, q.constantValues, q.endValues, q.statLength)) = p.map fun q => (q.mode, q.constantValues, q.endValues, q.statLength) := by
  have h := shared_history p history
  revert h
  generalize history.foldl SharedEvent.run p = q
  intro h
  cases p <;> cases q
  · rfl
  · exact h.elim
  · exact h.elim
  · rename_i p q
    have h : SameSettings q p := h
    simp [h.mode, h.cv, h.ev, h.sl]

/-- **C155**: after a call of a pooling, averaging or sharpening module, of SSIM or of MS-SSIM that returns, the padder is in the state in which that call leaves it as constructed. -/
theorem C155_state (c : ModuleMethod) (hc : ∀ e, c ≠ .edge e) (p : Option (Padder ℝ)) (history : List SharedEvent)
    (hok : (∃ z, (c.run p).2 = .tensor (.ok z)) ∨ ∃ z, (c.run p).2 = .scores (.ok z)) : (c.run (history.foldl SharedEvent.run p)).1 = (c.run p).1 := by
  have h := (shared_history p history).symm
  symm
  rcases hok with ⟨z, hz⟩ | ⟨z, hz⟩
  · cases c with
    | pool m junk x ax => exact (forward_settles m junk x ax).state h (Outcome.tensor.inj hz)
    | average m junk x ax => exact (exclude_settles m junk x ax).state h (Outcome.tensor.inj hz)
    | sharpen u junk x ax => exact (sharpen_settles u junk x ax).state h (Outcome.tensor.inj hz)
    | ssim s junk a b ax rax => cases hz
    | msssim m junk a b ax rax => exact (msssim_settles m junk a b ax rax).state h (Outcome.tensor.inj hz)
    | edge e => exact absurd rfl (hc e)
  · cases c with
    | pool m junk x ax => cases hz
    | average m junk x ax => cases hz
    | sharpen u junk x ax => cases hz
    | ssim s junk a b ax rax => exact (ssim_settles s junk a b ax rax).state h (Outcome.scores.inj hz)
    | msssim m junk a b ax rax => cases hz
    | edge e => exact absurd rfl (hc e)

/-- **C155** for any scalars: SSIM -/
theorem C155_ssim {α : Type} [Field α] [LinearOrder α] [IsStrictOrderedRing α] (s : SSIM α) (junk : List Nat → α) (y1 y2 : Tensor α) (ax rax : Axes) {p q : Padder α}
    (hm : q.mode = p.mode) (hc : q.constantValues = p.constantValues) (he : q.endValues = p.endValues) (hs : q.statLength = p.statLength) :
    (s.forward junk y1 y2 ax rax (some q)).2 = (s.forward junk y1 y2 ax rax (some p)).2 :=
  (ssim_settles s junk y1 y2 ax rax).same (show SameSettings q p from ⟨hm, hc, he, hs⟩)

/-! ### an example: a padder with widths -/

namespace HistoryExample

/-- a padder that reflects, as constructed -/
def reflector : Padder ℝ := PadArgs.padder ⟨.one (0, 0), .one .reflect, .one (0, 0), .one (0, 0), .one (none, none)⟩ 1

/-- `to_same` for windows of five samples on an axis of seven -/
def widen : SharedEvent := .toSame ⟨.leaf (some 5), [], 0⟩ ⟨.leaf (some 1), [], 0⟩ ⟨.leaf (some 7), [], 0⟩

theorem widths : (widen.run (some reflector)).map (fun q => q.padWidth.data) = some (.seq [.leaf 2, .leaf 2]) := rfl

theorem widths_before : (some reflector).map (fun q => q.padWidth.data) ≠ some (.seq [.leaf 2, .leaf 2]) := by
  intro h
  have : reflector.padWidth.data = .seq [.leaf 2, .leaf 2] := Option.some.inj h
  simp [reflector, PadArgs.padder, specOf, PadArgs.pyWidth] at this

end HistoryExample

open HistoryExample in
/-- C155: the padder is widened, used by SSIM, by an edge filter and by a sharpening module, and still serves MS-SSIM as if it were new -/
example (m : MsSsim) (s : SSIM ℝ) (f : EdgeFilter ℝ) (u : UnsharpMask ℝ) (j : List Nat → ℝ) (x y : Tensor ℝ) : widen.run (some reflector) ≠ some reflector ∧
    (m.forward j x y (.slice (.from 2)) .none ([widen, .call (.ssim s j x y .none .none), .call (.edge (.magnitude id f j x .none 0 2)),
      .call (.sharpen u j y .none)].foldl SharedEvent.run (some reflector))).2 = (m.forward j x y (.slice (.from 2)) .none (some reflector)).2 :=
  ⟨fun h => widths_before (by rw [← h]; exact widths), Outcome.tensor.inj (C155_shared (.msssim m j x y (.slice (.from 2)) .none) (some reflector) _)⟩

open HistoryExample in
/-- C155: an edge filter with two padders, one of which also served a sharpening module -/
example (f g : EdgeFilter ℝ) (u : UnsharpMask ℝ) (j : List Nat → ℝ) (x y : Tensor ℝ) :
    (EdgeLoss.forward f ([EdgeEvent.edgePadder (.call (.sharpen u j y .none)), .call (.components g j y .none), .smoothPadder widen].foldl EdgeEvent.run (.separate reflector reflector)) j x y).2 =
      (EdgeLoss.forward f (.separate reflector reflector) j x y).2 :=
  EdgeOutcome.tensor.inj (C155_edge (.loss f j x y) (.separate reflector reflector) _)

end TI
