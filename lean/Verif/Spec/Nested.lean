import Verif.Model.NdSpec

/-!
# Nested lists: depth, lengths per level, rectangular data, broadcasting
-/

namespace TI.Spec

variable {α : Type}

/-- every leaf has depth `D`; lists above the last level are not empty -/
def UniformDepth : Nat → Py α → Prop
  | 0, .leaf _ => True
  | 0, .seq _ => False
  | _ + 1, .leaf _ => False
  | D + 1, .seq l => (D ≠ 0 → l ≠ []) ∧ ∀ b ∈ l, UniformDepth D b

/-- the lengths of all lists at level `i` -/
def levelLens : Nat → Py α → List Nat
  | _, .leaf _ => []
  | 0, .seq l => [l.length]
  | i + 1, .seq l => l.flatMap (levelLens i)

/-- the common value of a list, `-1` if there is none -/
def common : List Nat → Int
  | [] => -1
  | a :: l => if ∀ b ∈ l, b = a then (a : Int) else -1

/-- the shape of a ragged array of depth `D`: per level the common length, or `-1` -/
def raggedShape (D : Nat) (a : Py α) : List Int := (List.range D).map fun i => common (levelLens i a)

mutual
/-- the leaves from left to right -/
def leaves : Py α → List α
  | .leaf a => [a]
  | .seq l => leavesList l
/-- the leaves of several trees -/
def leavesList : List (Py α) → List α
  | [] => []
  | a :: l => leaves a ++ leavesList l
end

/-- `a` is a rectangular array of shape `s` -/
def HasShape : List Nat → Py α → Prop
  | [], .leaf _ => True
  | [], .seq _ => False
  | _ :: _, .leaf _ => False
  | n :: s, .seq l => l.length = n ∧ ∀ b ∈ l, HasShape s b

/-- the entry at a multi-index -/
def entryAt : Py α → List Nat → Option α
  | .leaf a, [] => some a
  | .leaf _, _ :: _ => none
  | .seq _, [] => none
  | .seq l, i :: ix => match l[i]? with
    | some b => entryAt b ix
    | none => none

/-- the length of an axis of length `n` after expansion to target `t`; `-1` keeps the length -/
def expandedLen (n : Nat) (t : Int) : Nat := if t = -1 then n else t.toNat

/-- an axis of length `n` can be expanded to target `t` -/
def Expandable (n : Nat) (t : Int) : Prop := t = -1 ∨ t = n ∨ t = 0 ∨ n = 1

/-- the coordinate of the original entry: zero on axes of length one -/
def collapse : List Nat → List Nat → List Nat
  | n :: s, i :: ix => (if n = 1 then 0 else i) :: collapse s ix
  | _, _ => []

end TI.Spec
