import Verif.Spec.Flt
import Verif.Spec.Ssim

/-!
# MS-SSIM of images with entries that are not finite
-/

namespace TI.Spec

/-- The entry `jx` of the result is a mean over the planes along `axes`, of which `px` is in one. -/
def InScore (axes raxes jx px : List Nat) : Prop :=
  onKept (reducedAxes px.length raxes) ((List.range px.length).map fun k => if k ∈ axes then 0 else px.getD k 0) = jx

end TI.Spec
