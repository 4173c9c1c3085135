import Verif.Model.RaggedArray

/-!
# Arrays as nested lists
-/

namespace TI.Spec
variable {α : Type} [Zero α]

/-- the nested list with sizes `s` and entries `f` -/
def nested : List Nat → (List Nat → α) → Py α
  | [], f => .leaf (f [])
  | n :: s, f => .seq ((List.range n).map fun i => nested s fun ix => f (i :: ix))

mutual
/-- a specification in which every array is written as a nested list -/
def asLists : PyA α → Py α
  | .leaf a => .leaf a
  | .seq l => .seq (asListsAll l)
  | .arr _ x => nested x.shape x.get
/-- several specifications -/
def asListsAll : List (PyA α) → List (Py α)
  | [] => []
  | a :: l => asLists a :: asListsAll l
end

mutual
/-- no array in the specification has an axis of length zero -/
def NonEmpty : PyA α → Prop
  | .leaf _ => True
  | .seq l => NonEmptyAll l
  | .arr _ x => ∀ n ∈ x.shape, 0 < n
/-- several specifications -/
def NonEmptyAll : List (PyA α) → Prop
  | [] => True
  | a :: l => NonEmpty a ∧ NonEmptyAll l
end

/-- two runs with the same outcome, up to the kind of exception; results are compared by `f` -/
def SameOutcome {β γ : Type} (f : β → γ) : Except Err β → Except Err γ → Prop
  | .ok b, .ok c => c = f b
  | .error _, .error _ => True
  | _, _ => False

end TI.Spec
