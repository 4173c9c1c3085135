import Verif.Spec.Pool

/-!
# Metrics: reductions, structural similarity
-/

namespace TI.Spec

/-- the axes out of `n` that are not reduced -/
def keptAxes (n : Nat) (ds : List Nat) : List Nat := (List.range n).filter fun k => k ∉ ds

/-- the entries of a shape or of a position on the axes that are not reduced -/
def onKept (ds ix : List Nat) : List Nat := (keptAxes ix.length ds).map fun k => ix.getD k 0

/-- all positions that agree with `jx` on the axes that are not reduced -/
def collected (shape ds jx : List Nat) : List (List Nat) := (indices shape).filter fun ix => onKept ds ix = jx

/-- the axes that are reduced: all of them if none are named -/
def reducedAxes (n : Nat) (axes : List Nat) : List Nat := if axes = [] then List.range n else axes

/-- tensor with the entries `(x - y)^2` -/
def squaredError {α : Type} [Field α] (x y : Tensor α) : Tensor α :=
  Tensor.ofFn x.shape fun ix => (x.get ix - y.get ix) ^ 2

/-- entry by entry product -/
def times {α : Type} [Field α] (x y : Tensor α) : Tensor α := Tensor.ofFn x.shape fun ix => x.get ix * y.get ix

/-- The SSIM index: two means, the means of the two squares and of the product, a factor for the variances and the covariance,
and two constants. -/
def ssimIndex {α : Type} [Field α] (c1 c2 f m1 m2 e11 e22 e12 : α) : α :=
  ((2 * (m1 * m2) + c1) * (2 * (f * (e12 - m1 * m2)) + c2)) /
    ((m1 ^ 2 + m2 ^ 2 + c1) * (f * (e11 - m1 ^ 2) + f * (e22 - m2 ^ 2) + c2))

/-- The index without the comparison of the means. -/
def csIndex {α : Type} [Field α] (c2 f m1 m2 e11 e22 e12 : α) : α :=
  (2 * (f * (e12 - m1 * m2)) + c2) / (f * (e11 - m1 ^ 2) + f * (e22 - m2 ^ 2) + c2)

end TI.Spec
