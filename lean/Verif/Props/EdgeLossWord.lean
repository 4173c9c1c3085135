import Verif.Model.EdgeLossWord
import Verif.Props.EdgeLoss
import Verif.Props.IntEdges
import Verif.Props.IntSharpen
import Verif.Props.IntSsim

/-!
# Losses on edges of images of integers: C149
-/

set_option linter.unusedSectionVars false

namespace TI
open Tensor Spec

section
variable {α : Type} [Field α] [LinearOrder α] [IsStrictOrderedRing α] [FloorRing α] {t : IntType}
variable {f : EdgeFilter α} {w : List α} {g : Given (List α)} {m n c h v : Nat} {X Y : Tensor t.Word} {ps : EdgePadders α}

theorem reflect_words : forWords ((reflectArgs : PadArgs α).mode.entry .unknown 0) := by
  simp [reflectArgs, Given.entry, forWords, forIntegers, isStat]

/-- **C149**: the stack of edges of an image of integers: modulo the size of the type the responses of its numbers to the kernels without their digits after the point -/
def Spec.StackReduces (w : List α) (g : Given (List α)) (X : Tensor t.Word) (n c h v : Nat) (E : Tensor t.Word) : Prop :=
  Reduces (ofFn [n, c + c, h, v] (stacked (edgeResponseInt w g reflectArgs (numbers X) [2, 3]) c)) E

theorem cat_words {a b : Tensor t.Word} (ha : a.shape = [n, c, h, v]) (hb : b.shape = [n, c, h, v]) :
    Tensor.cat [a, b] 1 = .ok (ofFn [n, c + c, h, v] fun ix => if ix.getD 1 0 < c then a.get ix else b.get (ix.set 1 (ix.getD 1 0 - c))) := by
  have hd : convDim a.ndim 1 = .ok 1 := by
    rw [convDim, ndim, ha]
    rfl
  simp only [Tensor.cat, hd, ok_bind, ha, hb, List.all_cons, List.all_nil, decide_true, Bool.and_true, if_true, List.foldl_cons, List.foldl_nil, cat2]
  rfl

theorem edgeTensorWord_eq (hb : EdgeBuilt f w g m) (hps : HoldsBoth ps reflectArgs) (hg : g.isMany = false) (hX : X.shape = [n, c, h, v]) (hh : 0 < h) (hv : 0 < v)
    (junk : List Nat → t.Word) :
    ∃ ps' E, EdgeLoss.edgeTensorWord t f ps junk X = (ps', .ok E) ∧ StackReduces w g X n c h v E ∧ E.shape = [n, c + c, h, v] ∧ HoldsBoth ps' reflectArgs := by
  have hs : EdgeSetup g reflectArgs (numbers X : Tensor α) (.seq [2, 3]) [2, 3] := reflect_setup hg hX hh hv
  have hm : g.isMany = true → [2, 3].length - 1 = m := by intro h; rw [hg] at h; cases h
  obtain ⟨p1, A, a1, a2, a3, a4⟩ := C134_components (a := 2) hb hps hs hm reflect_words (by simp) junk
  obtain ⟨p2, B, b1, b2, b3, b4⟩ := C134_components (a := 3) hb a4 hs hm reflect_words (by simp) junk
  have hax : checkAxes X.ndim (.seq [2, 3]) = .ok [2, 3] := by rw [Tensor.ndim, hX]; rfl
  have a1' : f.componentWord t ps junk X (.int 2) (.seq [2, 3]) = (p1, .ok A) := a1
  have b1' : f.componentWord t p1 junk X (.int 3) (.seq [2, 3]) = (p2, .ok B) := b1
  refine ⟨p2, ofFn [n, c + c, h, v] fun ix => if ix.getD 1 0 < c then A.get ix else B.get (ix.set 1 (ix.getD 1 0 - c)), ?_, ?_, rfl, b4⟩
  rotate_left
  · refine rel_reduces (rel_of_get sameInt_ringRel.zero rfl fun ix hix => ?_)
    have hix : InB [n, c + c, h, v] ix := hix
    rw [get_ofFn hix, get_ofFn hix, stacked]
    split_ifs
    · exact a2.2 ix
    · exact b2.2 _
  · simp only [EdgeLoss.edgeTensorWord, EdgeFilter.allComponentsWord, hax, EdgeFilter.componentLoopWord, a1', b1']
    rw [← cat_words (a3.trans hX) (b3.trans hX)]
    rfl

theorem withEdgesWord_eq {β : Type} (loss : Tensor t.Word → Tensor t.Word → Except Err β) (hb : EdgeBuilt f w g m) (hps : HoldsBoth ps reflectArgs) (hg : g.isMany = false)
    (hX : X.shape = [n, c, h, v]) (hY : Y.shape = [n, c, h, v]) (hh : 0 < h) (hv : 0 < v) (junk : List Nat → t.Word) :
    ∃ ps' P T, EdgeLoss.withEdgesWord t loss f ps junk X Y = (ps', loss P T) ∧ StackReduces w g X n c h v P ∧ StackReduces w g Y n c h v T ∧ P.shape = [n, c + c, h, v] ∧
      T.shape = [n, c + c, h, v] ∧ HoldsBoth ps' reflectArgs := by
  obtain ⟨p1, P, a1, a2, a3, a4⟩ := edgeTensorWord_eq hb hps hg hX hh hv junk
  obtain ⟨p2, T, b1, b2, b3, b4⟩ := edgeTensorWord_eq hb a4 hg hY hh hv junk
  exact ⟨p2, P, T, by simp only [EdgeLoss.withEdgesWord, a1, b1], a2, b2, a3, b3, b4⟩

/-- **C149.** The plain loss, `WeightedMul` and `WeightedSum` of two images of integers always end with a RuntimeError (there is no mean of integers), but only after
both images have been filtered. -/
theorem C149_rejects (hb : EdgeBuilt f w g m) (hps : HoldsBoth ps reflectArgs) (hg : g.isMany = false) (hX : X.shape = [n, c, h, v]) (hY : Y.shape = [n, c, h, v]) (hh : 0 < h)
    (hv : 0 < v) (junk : List Nat → t.Word) :
    ∃ ps', EdgeLoss.withEdgesWord t (EdgeLoss.l1Word (α := α) t) f ps junk X Y = (ps', .error .runtime) ∧
      EdgeLoss.withEdgesWord t (EdgeLoss.mulLossWord (α := α) t) f ps junk X Y = (ps', .error .runtime) ∧
      EdgeLoss.withEdgesWord t (EdgeLoss.sumLossWord (α := α) t) f ps junk X Y = (ps', .error .runtime) ∧ HoldsBoth ps' reflectArgs := by
  obtain ⟨p1, P, a1, a2, a3, a4⟩ := edgeTensorWord_eq hb hps hg hX hh hv junk
  obtain ⟨p2, T, b1, b2, b3, b4⟩ := edgeTensorWord_eq hb a4 hg hY hh hv junk
  have hPT : T.shape = P.shape := by rw [a3, b3]
  refine ⟨p2, ?_, ?_, ?_, b4⟩
  · simp only [EdgeLoss.withEdgesWord, a1, b1, EdgeLoss.l1Word, EdgeLoss.meanWord]
    rw [bop_same hPT.symm, ok_bind]
  · simp only [EdgeLoss.withEdgesWord, a1, b1, EdgeLoss.mulLossWord, EdgeLoss.meanWord]
    rw [bop_same hPT, ok_bind, map_ofFn, bop_same (by simp), ok_bind]
  · simp only [EdgeLoss.withEdgesWord, a1, b1, EdgeLoss.sumLossWord, EdgeLoss.meanWord]
    rfl

end

section
variable {t : IntType} {f : EdgeFilter ℝ} {w : List ℝ} {g : Given (List ℝ)} {m n c h v : Nat} {X Y : Tensor t.Word} {ps : EdgePadders ℝ}

open Classical in
theorem divLossWord_eq {P T : Tensor t.Word} (hPT : P.shape = T.shape) :
    EdgeLoss.divLossWord t P T = .ok (if ∃ ix, InB T.shape ix ∧ t.value (T.get ix) = 0 then .bad
      else .real (Spec.mean ((indices T.shape).map fun ix => (t.value (EdgeLoss.absWord t (T.get ix - P.get ix)) : ℝ) / t.value (T.get ix)))) := by
  have e1 : (t.floats ((ofFn T.shape fun ix => T.get ix - P.get ix).map (EdgeLoss.absWord t)) : Tensor ℝ) =
      ofFn T.shape fun ix => ((t.value (EdgeLoss.absWord t (T.get ix - P.get ix)) : ℤ) : ℝ) := by
    rw [IntType.floats, map_ofFn, map_ofFn]
  have e2 : bop (fun a b : ℝ => (a / b, b)) (ofFn T.shape fun ix => ((t.value (EdgeLoss.absWord t (T.get ix - P.get ix)) : ℤ) : ℝ)) (t.floats T) =
      .ok (ofFn T.shape fun ix => ((ofFn T.shape fun ix => ((t.value (EdgeLoss.absWord t (T.get ix - P.get ix)) : ℤ) : ℝ)).get ix / (t.floats T : Tensor ℝ).get ix,
        (t.floats T : Tensor ℝ).get ix)) := bop_same (by simp [IntType.floats])
  rw [EdgeLoss.divLossWord, bop_same hPT.symm, ok_bind, e1, e2, ok_bind]
  have hany : ((ofFn T.shape fun ix => (((ofFn T.shape fun ix => ((t.value (EdgeLoss.absWord t (T.get ix - P.get ix)) : ℤ) : ℝ)).get ix / (t.floats T : Tensor ℝ).get ix,
      (t.floats T : Tensor ℝ).get ix) : ℝ × ℝ)).data.any fun r => decide (r.2 = 0)) = true ↔ ∃ ix, InB T.shape ix ∧ t.value (T.get ix) = 0 := by
    rw [List.any_eq_true]
    simp only [ofFn, List.mem_map, mem_indices, decide_eq_true_eq]
    constructor
    · rintro ⟨_, ⟨ix, hix, rfl⟩, e⟩
      refine ⟨ix, hix, ?_⟩
      simp only at e
      rw [IntType.floats, get_map _ _ hix] at e
      exact_mod_cast e
    · rintro ⟨ix, hix, e⟩
      refine ⟨_, ⟨ix, hix, rfl⟩, ?_⟩
      simp only
      rw [IntType.floats, get_map _ _ hix, e]
      simp
  by_cases hz : ∃ ix, InB T.shape ix ∧ t.value (T.get ix) = 0
  · rw [if_pos hz]
    rw [if_pos (hany.2 hz)]
  · rw [if_neg hz]
    rw [if_neg (fun h => hz (hany.1 h)), map_ofFn, meanAll, ok_bind]
    congr 2
    rw [show ∀ q : ℝ, (Tensor.scalar q).get [] = q from fun q => rfl]
    congr 1
    apply List.map_congr_left
    intro ix hix
    have hix := mem_indices.1 hix
    rw [get_ofFn hix, IntType.floats, get_map _ _ hix]

open Classical in
/-- **C149.** `WeightedDiv` of two images of integers: NaN or infinite if one of the true edges is zero, the mean of the quotients of the words otherwise. -/
theorem C149_weighted_div (hb : EdgeBuilt f w g m) (hps : HoldsBoth ps reflectArgs) (hg : g.isMany = false) (hX : X.shape = [n, c, h, v]) (hY : Y.shape = [n, c, h, v])
    (hh : 0 < h) (hv : 0 < v) (junk : List Nat → t.Word) :
    ∃ ps' P T, StackReduces w g X n c h v P ∧ StackReduces w g Y n c h v T ∧ HoldsBoth ps' reflectArgs ∧
      EdgeLoss.withEdgesWord t (EdgeLoss.divLossWord t) f ps junk X Y = (ps', .ok (if ∃ ix, InB [n, c + c, h, v] ix ∧ t.value (T.get ix) = 0 then .bad
        else .real (Spec.mean ((indices [n, c + c, h, v]).map fun ix => (t.value (EdgeLoss.absWord t (T.get ix - P.get ix)) : ℝ) / t.value (T.get ix))))) := by
  obtain ⟨ps', P, T, e, h1, h2, h3, h4, h5⟩ := withEdgesWord_eq (EdgeLoss.divLossWord t) hb hps hg hX hY hh hv junk
  exact ⟨ps', P, T, h1, h2, h5, by rw [e, divLossWord_eq (h3.trans h4.symm), h4]⟩

/-- **C149.** If the smoothing weights are smaller than one, all edges of all images of integers are zero, and `WeightedDiv` is NaN. -/
theorem C149_nan (hb : EdgeBuilt f w g m) (hps : HoldsBoth ps reflectArgs) (hg : g.isMany = false) (hsm : Small (g.entry [] 0)) (hX : X.shape = [n, c, h, v])
    (hY : Y.shape = [n, c, h, v]) (hn : 0 < n) (hc : 0 < c) (hh : 0 < h) (hv : 0 < v) (junk : List Nat → t.Word) :
    (EdgeLoss.withEdgesWord t (EdgeLoss.divLossWord t) f ps junk X Y).2 = .ok .bad := by
  obtain ⟨ps', P, T, _, h2, _, e⟩ := C149_weighted_div hb hps hg hX hY hh hv junk
  have hin : InB [n, c + c, h, v] [0, 0, 0, 0] := ⟨hn, by omega, hh, hv, trivial⟩
  rw [e, if_pos]
  refine ⟨[0, 0, 0, 0], hin, ?_⟩
  obtain ⟨k, e1, e2⟩ := h2.2 [0, 0, 0, 0]
  rw [get_ofFn hin, stacked, if_pos (by simpa using hc), edgeResponseInt_small (by decide) (by simp) ⟨0, by simp, hsm⟩] at e1
  have hk : k = 0 := Int.cast_eq_zero.1 e1.symm
  rw [e2, hk]
  simp [IntType.value]

/-- **C149** for the constructor: with two or more samples in the smoothing kernel no loss of images of integers is a number, whatever the images. -/
theorem C149_init {ks : Nat} (hk : 2 ≤ ks) {sigma : ℝ} (hs : sigma ≠ 0) (order : Nat) :
    ∃ f ps, EdgeLoss.init (.leaf ks) (.leaf sigma) order = .ok (f, ps) ∧ ∀ {t : IntType} {X Y : Tensor t.Word} {n c h v : Nat}, X.shape = [n, c, h, v] → Y.shape = [n, c, h, v] →
      0 < n → 0 < c → 0 < h → 0 < v → ∀ junk : List Nat → t.Word,
      (EdgeLoss.withEdgesWord t (EdgeLoss.l1Word (α := ℝ) t) f ps junk X Y).2 = .error .runtime ∧
      (EdgeLoss.withEdgesWord t (EdgeLoss.mulLossWord (α := ℝ) t) f ps junk X Y).2 = .error .runtime ∧
      (EdgeLoss.withEdgesWord t (EdgeLoss.sumLossWord (α := ℝ) t) f ps junk X Y).2 = .error .runtime ∧
      (EdgeLoss.withEdgesWord t (EdgeLoss.divLossWord t) f ps junk X Y).2 = .ok .bad := by
  obtain ⟨f, ps, e, hb, hps, hg⟩ := C85_init ks hs order
  refine ⟨f, ps, e, fun hX hY hn hc hh hv junk => ?_⟩
  obtain ⟨ps', h1, h2, h3, _⟩ := C149_rejects hb hps hg hX hY hh hv junk
  refine ⟨by rw [h1], by rw [h2], by rw [h3], C149_nan hb hps hg ?_ hX hY hn hc hh hv junk⟩
  have h1 : normalised (gaussWeights ks sigma 0) = gaussWeights ks sigma 0 := by
    rw [normalised, gaussWeights_zero_sum hs (by omega)]
    simp
  show Small (normalised (gaussWeights ks sigma 0))
  rw [h1]
  exact gaussWeights_small hs hk

open IntPadExample in
/-- C149: the losses of kernel size 5, sigma 2, order 1 on two photographs of bytes -/
example (X Y : Tensor uint8.Word) (hX : X.shape = [1, 3, 480, 640]) (hY : Y.shape = [1, 3, 480, 640]) (junk : List Nat → uint8.Word) :
    ∃ f ps, EdgeLoss.init (.leaf 5) (.leaf 2) 1 = .ok (f, ps) ∧ (EdgeLoss.withEdgesWord uint8 (EdgeLoss.l1Word (α := ℝ) uint8) f ps junk X Y).2 = .error .runtime ∧
      (EdgeLoss.withEdgesWord uint8 (EdgeLoss.divLossWord uint8) f ps junk X Y).2 = .ok .bad := by
  obtain ⟨f, ps, e, h⟩ := C149_init (ks := 5) (by decide) (sigma := 2) two_ne_zero 1
  obtain ⟨h1, _, _, h2⟩ := h hX hY (by decide) (by decide) (by decide) (by decide) junk
  exact ⟨f, ps, e, h1, h2⟩

end

end TI
