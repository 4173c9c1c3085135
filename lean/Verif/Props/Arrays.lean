import Verif.Proofs.Arrays

/-!
# C102: arrays and tensors in specifications
-/

namespace TI
open Spec Tensor

section
variable {α : Type} [Zero α]

/-- **C102.** `get_ragged_ndarray` finds the same shape (and, in the non-strict mode, the same lifted data) for a
specification with arrays and tensors and for the nested lists they stand for. -/
theorem C102_shape (strict : Bool) {a : PyA α} (h : NonEmpty a) :
    getRagged strict (asLists a) = (asLists (getRaggedA strict a).1, (getRaggedA strict a).2) := getRagged_asLists strict a h

/-- the specification with every array written as a nested list -/
def NdSpecA.listed (s : NdSpecA α) : NdSpec α := ⟨asLists s.data, s.shape, s.indexPos⟩

/-- **C102**: `NdSpec(data, item_shape=item)` with arrays and tensors at any depth of `data` is `NdSpec` of the nested
lists: one raises exactly if the other does, and the stored data, shape and index position agree. -/
theorem C102_spec {a : PyA α} {item : List Int} (h : NonEmpty a) (ht : ∀ t ∈ item, -1 ≤ t ∧ t ≠ 0) :
    SameOutcome NdSpecA.listed (NdSpecA.ofItem item a) (NdSpec.ofItem item (asLists a)) := by
  have hd : (getRaggedA true a).1 = a := by
    cases a with
    | leaf a => simp [getRaggedA]
    | arr b x => simp [getRaggedA]
    | seq l =>
      cases l with
      | nil => simp [getRaggedA]
      | cons b bs =>
        simp only [getRaggedA]
        split <;> rfl
  have := expandRagged_asLists h ht
  simp only [NdSpecA.ofItem, NdSpec.ofItem, getRagged_asLists true a h, hd]
  revert this
  cases expandRaggedA a (getRaggedA true a).2 item <;> cases expandRagged (asLists a) (getRaggedA true a).2 item <;> intro this
  · trivial
  · exact this.elim
  · exact this.elim
  · simp only [SameOutcome] at this ⊢
    subst this
    rfl

/-- **C102**: the same with a given index shape. -/
theorem C102_spec_index {a : PyA α} {index : List Int} (h : NonEmpty a) :
    SameOutcome NdSpecA.listed (NdSpecA.ofIndex index a) (NdSpec.ofIndex index (asLists a)) := by
  simp only [NdSpecA.ofIndex, NdSpec.ofIndex, getRagged_asLists true a h]
  cases NdSpec.indexShapeOK (getRaggedA true a).2 index with
  | error e => trivial
  | ok b => cases b <;> trivial

/-- **C102**: indexing, length and iteration of a specification do not distinguish arrays from nested lists. -/
theorem C102_items (s : NdSpecA α) : s.len = s.listed.len ∧ (∀ i, SameOutcome asLists (s.get i) (s.listed.get i)) ∧
    SameOutcome (fun l => l.map asLists) s.toList s.listed.toList := by
  have hg : ∀ i, SameOutcome asLists (s.get i) (s.listed.get i) := by
    intro i
    have e : s.listed.isItem = s.isItem := rfl
    simp only [NdSpecA.get, NdSpec.get, e]
    by_cases hi : s.isItem = true
    · rw [if_pos hi, if_pos hi]
      rfl
    · rw [if_neg hi, if_neg hi]
      exact index_asLists s.data i
  refine ⟨rfl, hg, ?_⟩
  simp only [NdSpecA.toList, NdSpec.toList]
  have e : s.listed.isItem = s.isItem := rfl
  rw [e]
  by_cases hi : s.isItem = true
  · rw [if_pos hi, if_pos hi]
    rfl
  · rw [if_neg hi, if_neg hi]
    exact sequence_outcome fun i _ => hg _

/-- Targets of length zero are the exception: a list of three items is replaced by an empty array, an array of three
entries is refused. -/
theorem C102_zero_target : (∃ s, NdSpec.ofItem [0] (.seq [.leaf (1 : Int), .leaf 2, .leaf 3]) = .ok s) ∧
    NdSpecA.ofItem [0] (.arr false (Tensor.vec [(1 : Int), 2, 3])) = .error .value ∧
    NdSpecA.ofItem [0] (.arr true (Tensor.vec [(1 : Int), 2, 3])) = .error .runtime :=
  ⟨⟨⟨.seq [], [0], 0⟩, by simp [NdSpec.ofItem, getRagged, getRaggedList, sameLength, levelShapes, expandRagged, zeroLengthBad, recExpand, recExpandList]⟩, rfl, rfl⟩

/-- Arrays without entries are another exception: an array of sizes 0, 3 keeps them, the list `[]` has shape `(0,)`. -/
theorem C102_empty_array : (getRaggedA true (.arr false (⟨[0, 3], [], rfl⟩ : Tensor Int))).2 = [0, 3] ∧
    (getRagged true (asLists (.arr false (⟨[0, 3], [], rfl⟩ : Tensor Int)))).2 = [0] := by
  constructor
  · simp [getRaggedA]
  · simp [asLists, nested, getRagged]

end

namespace ArraysExample

/-- the widths ((1, 2), (3, 4)) as a list of a tensor and a list -/
def mixed : PyA Int := .seq [.arr true (Tensor.vec [1, 2]), .seq [.leaf 3, .leaf 4]]

/-- C102: the hypotheses hold -/
example : SameOutcome NdSpecA.listed (NdSpecA.ofItem [2] mixed) (NdSpec.ofItem [2] (.seq [.seq [.leaf 1, .leaf 2], .seq [.leaf 3, .leaf 4]])) :=
  C102_spec (a := mixed) (by simp [mixed, NonEmpty, NonEmptyAll, Tensor.vec]) (by simp)

/-- C102: a column of widths is broadcast to pairs, as an array or as a nested list -/
example : (∃ s, NdSpecA.ofItem [2] (.arr false (⟨[3, 1], [5, 6, 7], rfl⟩ : Tensor Int)) = .ok s ∧ s.shape = [3, 2] ∧ s.indexPos = 1) :=
  ⟨⟨.arr false ⟨[3, 2], [5, 5, 6, 6, 7, 7], rfl⟩, [3, 2], 1⟩, rfl, rfl, rfl⟩

end ArraysExample
end TI
