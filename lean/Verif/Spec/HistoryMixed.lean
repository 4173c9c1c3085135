import Verif.Spec.History
import Verif.Model.EdgeLossWord
import Verif.Model.EdgeLossFlt
import Verif.Model.IntMs
import Verif.Model.MsFlt

/-!
# Histories of padders that serve images of several types
-/

namespace TI.Spec

/-- the methods of an edge filter and of the losses built on it, on images of integers -/
inductive EdgeMethodWord (t : IntType) where
  | component (f : EdgeFilter ℝ) (junk : List Nat → t.Word) (x : Tensor t.Word) (edgeAxis smoothAxes : Axes)
  | components (f : EdgeFilter ℝ) (junk : List Nat → t.Word) (x : Tensor t.Word) (axes : Axes)
  | magnitude (root : ℝ → ℝ) (f : EdgeFilter ℝ) (junk : List Nat → t.Word) (x : Tensor t.Word) (axes : Axes) (epsilon : ℝ) (p : Nat)
  | loss (f : EdgeFilter ℝ) (junk : List Nat → t.Word) (pred true : Tensor t.Word)
  | weightedMul (f : EdgeFilter ℝ) (junk : List Nat → t.Word) (pred true : Tensor t.Word)
  | weightedDiv (f : EdgeFilter ℝ) (junk : List Nat → t.Word) (pred true : Tensor t.Word)
  | weightedSum (f : EdgeFilter ℝ) (junk : List Nat → t.Word) (pred true : Tensor t.Word)

/-- what a call returns or raises -/
inductive OutcomeWord (t : IntType) where
  | words (r : Except Err (Tensor t.Word))
  | list (r : Except Err (List (Tensor t.Word)))
  | tensor (r : Except Err (Tensor ℝ))
  | scores (r : Except Err (Tensor ℝ × Tensor ℝ))
  | value (r : Except Err Val)

/-- the padders after the call, and its outcome -/
noncomputable def EdgeMethodWord.run {t : IntType} (ps : EdgePadders ℝ) : EdgeMethodWord t → EdgePadders ℝ × OutcomeWord t
  | .component f junk x ea sa => let r := f.componentWord t ps junk x ea sa; (r.1, .words r.2)
  | .components f junk x ax => let r := f.allComponentsWord t ps junk x ax; (r.1, .list r.2)
  | .magnitude root f junk x ax epsilon p => let r := f.magnitudeWord t root ps junk x ax epsilon p; (r.1, .tensor r.2)
  | .loss f junk u v => let r := EdgeLoss.withEdgesWord t (EdgeLoss.l1Word (α := ℝ) t) f ps junk u v; (r.1, .tensor r.2)
  | .weightedMul f junk u v => let r := EdgeLoss.withEdgesWord t (EdgeLoss.mulLossWord (α := ℝ) t) f ps junk u v; (r.1, .tensor r.2)
  | .weightedDiv f junk u v => let r := EdgeLoss.withEdgesWord t (EdgeLoss.divLossWord t) f ps junk u v; (r.1, .value r.2)
  | .weightedSum f junk u v => let r := EdgeLoss.withEdgesWord t (EdgeLoss.sumLossWord (α := ℝ) t) f ps junk u v; (r.1, .tensor r.2)

/-- the methods of the modules with one padder on images of integers -/
inductive MethodWord (t : IntType) where
  | pool (pool : SepPool ℝ) (junk : List Nat → t.Word) (x : Tensor t.Word) (axes : Axes)
  | sharpen (u : UnsharpMask ℝ) (junk : List Nat → t.Word) (x : Tensor t.Word) (axes : Axes)
  | ssim (s : SSIM ℝ) (junk : List Nat → t.Word) (pred true : Tensor t.Word) (axes reduceAxes : Axes)
  | msssim (m : MsSsim) (junk : List Nat → t.Word) (pred true : Tensor t.Word) (axes reduceAxes : Axes)
  | edge (c : EdgeMethodWord t)

/-- the padder after the call, and its outcome -/
noncomputable def MethodWord.run {t : IntType} (p : Option (Padder ℝ)) : MethodWord t → Option (Padder ℝ) × OutcomeWord t
  | .pool m junk x ax => let r := m.forwardWord t p junk x ax; (r.1, .words r.2)
  | .sharpen u junk x ax => let r := u.forwardWord t p junk x ax; (r.1, .tensor r.2)
  | .ssim s junk a b ax rax => let r := s.forwardWord t junk a b ax rax p; (r.1, .scores r.2)
  | .msssim m junk a b ax rax => let r := m.forwardWord t junk a b ax rax p; (r.1, .tensor r.2)
  | .edge c => let r := c.run (.shared p); (r.1.edge, r.2)

/-- the methods of an edge filter and of the losses built on it, on images with entries that are not finite -/
inductive EdgeMethodFlt where
  | component (f : EdgeFilter ℝ) (junk : List Nat → Flt ℝ) (x : Tensor (Flt ℝ)) (edgeAxis smoothAxes : Axes)
  | components (f : EdgeFilter ℝ) (junk : List Nat → Flt ℝ) (x : Tensor (Flt ℝ)) (axes : Axes)
  | loss (f : EdgeFilter ℝ) (junk : List Nat → Flt ℝ) (pred true : Tensor (Flt ℝ))
  | weightedMul (f : EdgeFilter ℝ) (junk : List Nat → Flt ℝ) (pred true : Tensor (Flt ℝ))
  | weightedDiv (f : EdgeFilter ℝ) (junk : List Nat → Flt ℝ) (pred true : Tensor (Flt ℝ))
  | weightedSum (f : EdgeFilter ℝ) (junk : List Nat → Flt ℝ) (pred true : Tensor (Flt ℝ))

/-- what a call returns or raises -/
inductive OutcomeFlt where
  | tensor (r : Except Err (Tensor (Flt ℝ)))
  | list (r : Except Err (List (Tensor (Flt ℝ))))
  | scores (r : Except Err (Tensor (Flt ℝ) × Tensor (Flt ℝ)))

/-- the padders after the call, and its outcome -/
noncomputable def EdgeMethodFlt.run (ps : EdgePadders ℝ) : EdgeMethodFlt → EdgePadders ℝ × OutcomeFlt
  | .component f junk x ea sa => let r := f.componentFlt ps junk x ea sa; (r.1, .tensor r.2)
  | .components f junk x ax => let r := f.allComponentsFlt ps junk x ax; (r.1, .list r.2)
  | .loss f junk u v => let r := EdgeLoss.withEdgesFlt EdgeLoss.l1Flt f ps junk u v; (r.1, .tensor r.2)
  | .weightedMul f junk u v => let r := EdgeLoss.withEdgesFlt EdgeLoss.mulLossFlt f ps junk u v; (r.1, .tensor r.2)
  | .weightedDiv f junk u v => let r := EdgeLoss.withEdgesFlt EdgeLoss.divLossFlt f ps junk u v; (r.1, .tensor r.2)
  | .weightedSum f junk u v => let r := EdgeLoss.withEdgesFlt EdgeLoss.sumLossFlt f ps junk u v; (r.1, .tensor r.2)

/-- the methods of the modules with one padder on images with entries that are not finite -/
inductive MethodFlt where
  | pool (pool : SepPool ℝ) (junk : List Nat → Flt ℝ) (x : Tensor (Flt ℝ)) (axes : Axes)
  | sharpen (u : UnsharpMask ℝ) (junk : List Nat → Flt ℝ) (x : Tensor (Flt ℝ)) (axes : Axes)
  | ssim (s : SSIM ℝ) (junk : List Nat → Flt ℝ) (pred true : Tensor (Flt ℝ)) (axes reduceAxes : Axes)
  | msssim (m : MsSsim) (junk : List Nat → Flt ℝ) (pred true : Tensor (Flt ℝ)) (axes reduceAxes : Axes)
  | edge (c : EdgeMethodFlt)

/-- the padder after the call, and its outcome -/
noncomputable def MethodFlt.run (p : Option (Padder ℝ)) : MethodFlt → Option (Padder ℝ) × OutcomeFlt
  | .pool m junk x ax => let r := m.forwardFlt p junk x ax; (r.1, .tensor r.2)
  | .sharpen u junk x ax => let r := u.forwardFlt p junk x ax; (r.1, .tensor r.2)
  | .ssim s junk a b ax rax => let r := s.forwardFlt junk a b ax rax p; (r.1, .scores r.2)
  | .msssim m junk a b ax rax => let r := m.forwardFlt junk a b ax rax p; (r.1, .tensor r.2)
  | .edge c => let r := c.run (.shared p); (r.1.edge, r.2)

/-- what can happen to a padder that serves images of several types -/
inductive MixedEvent where
  | numbers (e : SharedEvent)
  | integers (t : IntType) (c : MethodWord t)
  | floats (c : MethodFlt)

/-- the padder after the event, whether or not the call raised -/
noncomputable def MixedEvent.run (p : Option (Padder ℝ)) : MixedEvent → Option (Padder ℝ)
  | .numbers e => e.run p
  | .integers _ c => (c.run p).1
  | .floats c => (c.run p).1

end TI.Spec
