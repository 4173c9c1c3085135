import Verif.Model.EdgeLoss
import Verif.Spec.Pool

/-!
# Histories of the padders held by modules
-/

namespace TI.Spec

/-- the methods of an edge filter and of the losses built on it, with their arguments -/
inductive EdgeMethod where
  | component (f : EdgeFilter ℝ) (junk : List Nat → ℝ) (x : Tensor ℝ) (edgeAxis smoothAxes : Axes)
  | components (f : EdgeFilter ℝ) (junk : List Nat → ℝ) (x : Tensor ℝ) (axes : Axes)
  | magnitude (root : ℝ → ℝ) (f : EdgeFilter ℝ) (junk : List Nat → ℝ) (x : Tensor ℝ) (axes : Axes) (epsilon : ℝ) (p : Nat)
  | loss (f : EdgeFilter ℝ) (junk : List Nat → ℝ) (pred true : Tensor ℝ)
  | weightedMul (f : EdgeFilter ℝ) (junk : List Nat → ℝ) (pred true : Tensor ℝ)
  | weightedDiv (f : EdgeFilter ℝ) (junk : List Nat → ℝ) (pred true : Tensor ℝ)
  | weightedSum (f : EdgeFilter ℝ) (junk : List Nat → ℝ) (pred true : Tensor ℝ)

/-- what a call returns or raises; `magnitude` may also change its argument -/
inductive EdgeOutcome where
  | tensor (r : Except Err (Tensor ℝ))
  | tensors (r : Except Err (List (Tensor ℝ)))
  | changed (x : Tensor ℝ) (r : Except Err (Tensor ℝ))
  | value (r : Except Err Val)

/-- the padders after the call, and its outcome -/
noncomputable def EdgeMethod.run (ps : EdgePadders ℝ) : EdgeMethod → EdgePadders ℝ × EdgeOutcome
  | .component f junk x ea sa => let r := f.component ps junk x ea sa; (r.1, .tensor r.2)
  | .components f junk x ax => let r := f.allComponents ps junk x ax; (r.1, .tensors r.2)
  | .magnitude root f junk x ax epsilon p => let r := f.magnitudeInPlace root ps junk x ax epsilon p; (r.1, .changed r.2.1 r.2.2)
  | .loss f junk u v => let r := EdgeLoss.forward f ps junk u v; (r.1, .tensor r.2)
  | .weightedMul f junk u v => let r := EdgeLoss.weightedMul f ps junk u v; (r.1, .tensor r.2)
  | .weightedDiv f junk u v => let r := EdgeLoss.weightedDiv f ps junk u v; (r.1, .value r.2)
  | .weightedSum f junk u v => let r := EdgeLoss.weightedSum f ps junk u v; (r.1, .tensor r.2)

/-- the methods of the modules with one padder, with their arguments, and those of edge filters whose two pooling modules share it -/
inductive ModuleMethod where
  | pool (pool : SepPool ℝ) (junk : List Nat → ℝ) (x : Tensor ℝ) (axes : Axes)
  | average (pool : SepPool ℝ) (junk : List Nat → ℝ) (x : Tensor ℝ) (axes : Axes)
  | sharpen (u : UnsharpMask ℝ) (junk : List Nat → ℝ) (x : Tensor ℝ) (axes : Axes)
  | ssim (s : SSIM ℝ) (junk : List Nat → ℝ) (pred true : Tensor ℝ) (axes reduceAxes : Axes)
  | msssim (m : MsSsim) (junk : List Nat → ℝ) (pred true : Tensor ℝ) (axes reduceAxes : Axes)
  | edge (c : EdgeMethod)

/-- what a call returns or raises -/
inductive Outcome where
  | tensor (r : Except Err (Tensor ℝ))
  | scores (r : Except Err (Tensor ℝ × Tensor ℝ))
  | edge (o : EdgeOutcome)

/-- the padder after the call, and its outcome -/
noncomputable def ModuleMethod.run (p : Option (Padder ℝ)) : ModuleMethod → Option (Padder ℝ) × Outcome
  | .pool m junk x ax => let r := m.forward p junk x ax; (r.1, .tensor r.2)
  | .average m junk x ax => let r := m.avgForwardExclude p junk x ax; (r.1, .tensor r.2)
  | .sharpen u junk x ax => let r := u.forward p junk x ax; (r.1, .tensor r.2)
  | .ssim s junk a b ax rax => let r := s.forward junk a b ax rax p; (r.1, .scores r.2)
  | .msssim m junk a b ax rax => let r := m.forward junk a b ax rax p; (r.1, .tensor r.2)
  | .edge c => let r := c.run (.shared p); (r.1.edge, .edge r.2)

/-- what can happen to a padder that is shared by modules: calls of their methods, direct calls of `to_same` and of the padder itself (which leaves it as it is) -/
inductive SharedEvent where
  | call (c : ModuleMethod)
  | toSame (kernel stride inShape : NdSpec (Option Int))
  | pad

/-- the padder after the event, whether or not the call raised -/
noncomputable def SharedEvent.run (p : Option (Padder ℝ)) : SharedEvent → Option (Padder ℝ)
  | .call c => (c.run p).1
  | .toSame k s n => p.map fun p => (p.toSame k s n).1
  | .pad => p

/-- what can happen to the two padders of an edge filter: its own calls, and events at either of the padders, which other modules may hold as well -/
inductive EdgeEvent where
  | call (c : EdgeMethod)
  | edgePadder (e : SharedEvent)
  | smoothPadder (e : SharedEvent)

/-- the padders after the event -/
noncomputable def EdgeEvent.run (ps : EdgePadders ℝ) : EdgeEvent → EdgePadders ℝ
  | .call c => (c.run ps).1
  | .edgePadder e => ps.setEdge (e.run ps.edge)
  | .smoothPadder e => ps.setSmooth (e.run ps.smooth)

end TI.Spec
