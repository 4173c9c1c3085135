import Verif.Props.NdSpec
import Verif.Model.Pool

/-!
# Specifications: rejected lengths, index shapes and index axes (C72, C73)
-/

namespace TI
open Spec

variable {α : Type}

/-- **C72**: counted from the last axis, an axis of length zero cannot be expanded to a positive length, whatever the data. -/
theorem C72_zero_length (data : Py α) {old new : List Int} {i : Nat} {a b : Int} (ha : old.reverse[i]? = some a) (hb : new.reverse[i]? = some b)
    (h0 : a = 0) (hpos : 0 < b) : expandRagged data old new = .error .value := by
  have hne : old ≠ new := by
    rintro rfl
    rw [ha] at hb
    cases hb
    omega
  have hbad : zeroLengthBad old new = true := by
    rw [zeroLengthBad, List.any_eq_true]
    refine ⟨(a, b), List.mem_iff_getElem?.2 ⟨i, ?_⟩, by simp [h0, hpos]⟩
    rw [List.getElem?_zip_eq_some]
    exact ⟨ha, hb⟩
  rw [expandRagged, if_neg hne, if_pos hbad]

/-- **C72**: an empty list stays as it is if its length is not prescribed. -/
theorem C72_empty : expandRagged (.seq [] : Py α) [0] [-1] = .ok (.seq [], [0]) := by
  simp [expandRagged, zeroLengthBad, recExpand]

theorem indexShapeOK_spec : ∀ {index shape : List Int}, index.length ≤ shape.length →
    NdSpec.indexShapeOK shape index = .ok (decide (∀ i < index.length, index.getD i 0 = -1 ∨ shape.getD i 0 = index.getD i 0))
  | [], shape, _ => by simp [NdSpec.indexShapeOK]
  | l :: ls, [], h => by simp at h
  | l :: ls, s :: shape, h => by
    have ih := indexShapeOK_spec (index := ls) (shape := shape) (by simpa using h)
    have key : (∀ i < (l :: ls).length, (l :: ls).getD i 0 = -1 ∨ (s :: shape).getD i 0 = (l :: ls).getD i 0) ↔
        (l = -1 ∨ s = l) ∧ ∀ i < ls.length, ls.getD i 0 = -1 ∨ shape.getD i 0 = ls.getD i 0 := by
      constructor
      · exact fun h => ⟨h 0 (by simp), fun i hi => h (i + 1) (by simpa using hi)⟩
      · rintro ⟨h1, h2⟩ i hi
        cases i with
        | zero => exact h1
        | succ i => exact h2 i (by simpa using hi)
    rw [NdSpec.indexShapeOK]
    by_cases hl : l = -1
    · rw [if_pos hl, List.drop_one, List.tail_cons, ih]
      congr 1
      rw [decide_eq_decide, key]
      simp [hl]
    · rw [if_neg hl]
      by_cases hs : s = l
      · simp only [if_pos hs]
        rw [ih]
        congr 1
        rw [decide_eq_decide, key]
        simp [hs]
      · simp only [if_neg hs]
        congr 1
        symm
        rw [decide_eq_false_iff_not, key]
        rintro ⟨h1, _⟩
        exact h1.elim hl hs

/-- **C73**: an index shape is accepted exactly if it agrees with the leading lengths of the data, where `-1` agrees with every length; it then has that
many index axes, and the data is kept. -/
theorem C73_index_shape (data : Py α) {index : List Int} (h : index.length ≤ (getRagged true data).2.length) :
    NdSpec.ofIndex index data = if ∀ i < index.length, index.getD i 0 = -1 ∨ (getRagged true data).2.getD i 0 = index.getD i 0
      then .ok ⟨(getRagged true data).1, (getRagged true data).2, index.length⟩ else .error .value := by
  rw [NdSpec.ofIndex, indexShapeOK_spec h]
  split_ifs with h1
  · rw [decide_eq_true h1]
  · rw [decide_eq_false h1]

/-- **C73**: more than one index axis is rejected, whatever the other specifications are. -/
theorem C73_index_axes {shapes : List (List Int)} {s : List Int} (hs : s ∈ shapes) (h2 : 2 ≤ s.length) :
    NdSpec.aggIndexLen shapes = .error .assertion := by
  rw [NdSpec.aggIndexLen, if_neg]
  intro h
  have := List.all_eq_true.1 h s hs
  simp only [decide_eq_true_eq] at this
  omega

/-- **C73**: otherwise there is one aggregate length: that of the lists, or zero if there are only items. -/
theorem C73_agg_len {shapes : List (List Int)} (hne : shapes ≠ []) {m : Int} (h : ∀ s ∈ shapes, s = [] ∨ s = [m]) :
    NdSpec.aggIndexLen shapes = .ok (if ∀ s ∈ shapes, s = [] then 0 else m) := by
  have e : (if shapes.all (· == []) then 0 else m) = if ∀ s ∈ shapes, s = [] then 0 else m := by
    congr 1
    simp [List.all_eq_true]
  rw [aggIndexLen_two hne h, e]

/-- **C73** for pooling and padding: a nested list in any of the parameters is rejected. -/
theorem C73_nested_rejected (kernel : NdSpec α) (stride : NdSpec (Option Int)) (pw : NdSpec Int) (mode : NdSpec (Mode α)) (cv ev : NdSpec α)
    (sl : NdSpec (Option Int)) :
    (2 ≤ kernel.indexShape.length ∨ 2 ≤ stride.indexShape.length → SepPool.alignParams kernel stride = .error .assertion) ∧
    (2 ≤ pw.indexShape.length ∨ 2 ≤ mode.indexShape.length ∨ 2 ≤ cv.indexShape.length ∨ 2 ≤ ev.indexShape.length ∨ 2 ≤ sl.indexShape.length →
      Padder.alignParams pw mode cv ev sl = .error .assertion) := by
  constructor
  · rintro (h | h)
    · exact C73_index_axes (by simp) h
    · exact C73_index_axes (s := stride.indexShape) (by simp) h
  · rintro (h | h | h | h | h)
    · exact C73_index_axes (s := pw.indexShape) (by simp) h
    · exact C73_index_axes (s := mode.indexShape) (by simp) h
    · exact C73_index_axes (s := cv.indexShape) (by simp) h
    · exact C73_index_axes (s := ev.indexShape) (by simp) h
    · exact C73_index_axes (s := sl.indexShape) (by simp) h

/-! ## examples -/

/-- `expand_ragged_ndarray([], (0,), (2,))` and with a leading axis -/
example : expandRagged (.seq [] : Py Int) [0] [2] = .error .value ∧ expandRagged (.seq [] : Py Int) [0] [3, 1] = .error .value :=
  ⟨C72_zero_length _ (i := 0) rfl rfl rfl (by decide), C72_zero_length _ (i := 0) rfl rfl rfl (by decide)⟩

/-- three rows of two numbers: index shapes `(3,)`, `(-1, 2)`, but not `(2,)` or `(-1, 3)` -/
example : (NdSpec.ofIndex [3] (.seq [.seq [.leaf (1 : Int), .leaf 2], .seq [.leaf 3, .leaf 4], .seq [.leaf 5, .leaf 6]])).toOption.map (·.indexPos) = some 1 ∧
    (NdSpec.ofIndex [-1, 2] (.seq [.seq [.leaf (1 : Int), .leaf 2], .seq [.leaf 3, .leaf 4], .seq [.leaf 5, .leaf 6]])).toOption.map (·.indexPos) = some 2 ∧
    (NdSpec.ofIndex [2] (.seq [.seq [.leaf (1 : Int), .leaf 2], .seq [.leaf 3, .leaf 4], .seq [.leaf 5, .leaf 6]])).toOption.map (·.indexPos) = none ∧
    (NdSpec.ofIndex [-1, 3] (.seq [.seq [.leaf (1 : Int), .leaf 2], .seq [.leaf 3, .leaf 4], .seq [.leaf 5, .leaf 6]])).toOption.map (·.indexPos) = none := by
  decide +kernel

example : NdSpec.aggIndexLen [[], [2, 3]] = .error .assertion ∧ NdSpec.aggIndexLen [[], [4], []] = .ok 4 ∧ NdSpec.aggIndexLen [[], []] = .ok 0 := by decide

end TI
