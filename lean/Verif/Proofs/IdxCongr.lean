import Verif.Proofs.PadNd

/-!
# The padding functions only see what an index tuple selects

`pad_axis` builds its index tuple with full slices where `forward` uses explicit bounds.  The 1-d padding
functions cannot tell the difference.
-/

namespace TI
open Tensor Spec

set_option linter.unusedSectionVars false

variable {α : Type}

theorem getSlice_congr [Zero α] {x : Tensor α} {sl sl' : List PySlice}
    (h : resolveAll sl x.shape = resolveAll sl' x.shape) : x.getSlice sl = x.getSlice sl' := by
  simp only [getSlice, h]

theorem setSlice_congr [Zero α] {x v : Tensor α} {sl sl' : List PySlice}
    (h : resolveAll sl x.shape = resolveAll sl' x.shape) : x.setSlice sl v = x.setSlice sl' v := by
  simp only [setSlice, h]

theorem setSlice_shape [Zero α] {x v y : Tensor α} {sl : List PySlice} (h : x.setSlice sl v = .ok y) :
    y.shape = x.shape := by
  simp only [setSlice] at h
  split_ifs at h
  cases h
  rfl

/-- selecting the same regions of tensors of shape `S` -/
def SameF (S : List Nat) (f f' : PySlice → List PySlice) : Prop :=
  ∀ s, resolveAll (f s) S = resolveAll (f' s) S

/-- index tuples that are equivalent for a padding function working on axis `d` -/
structure SameIdx (S : List Nat) (d : Nat) (idx idx' : List PySlice) : Prop where
  bnd : bounds idx d = bounds idx' d
  mod : SameF S (fun s => modifyIdx s idx d) (fun s => modifyIdx s idx' d)
  whole : resolveAll idx S = resolveAll idx' S

section Zero
variable [Zero α] {S : List Nat} {f f' : PySlice → List PySlice}

theorem circularBefore_congr (hf : SameF S f f') (tail length : Int) :
    ∀ fuel (x : Tensor α) curr, x.shape = S →
      circularBefore f tail length fuel x curr = circularBefore f' tail length fuel x curr := by
  intro fuel
  induction fuel with
  | zero => intro x curr _; unfold circularBefore; rfl
  | succ fuel ih =>
    intro x curr hx
    subst hx
    unfold circularBefore
    split_ifs
    · simp only [bind, Except.bind]
      rw [getSlice_congr (hf _), setSlice_congr (hf _)]
      cases h : x.setSlice (f' (PySlice.between (curr - min curr length) curr))
          (x.getSlice (f' (PySlice.between (tail - min curr length) tail))) with
      | error e => rfl
      | ok y => exact ih y _ (setSlice_shape h)
    · rfl

theorem circularAfter_congr (hf : SameF S f f') (d : Nat) (head length : Int) :
    ∀ fuel (x : Tensor α) curr, x.shape = S →
      circularAfter f d head length fuel x curr = circularAfter f' d head length fuel x curr := by
  intro fuel
  induction fuel with
  | zero => intro x curr _; unfold circularAfter; rfl
  | succ fuel ih =>
    intro x curr hx
    subst hx
    unfold circularAfter
    split_ifs
    · simp only [bind, Except.bind]
      rw [getSlice_congr (hf _), setSlice_congr (hf _)]
      generalize hv : x.getSlice _ = v
      cases h : x.setSlice (f' (PySlice.between curr (curr + min (↑(x.shape.getD d 0) - curr) length))) v with
      | error e => rfl
      | ok y => exact ih y _ (setSlice_shape h)
    · rfl

theorem circularBefore_shape (tail length : Int) :
    ∀ fuel (x y : Tensor α) curr, circularBefore f tail length fuel x curr = .ok y → y.shape = x.shape := by
  intro fuel
  induction fuel with
  | zero =>
    intro x y curr h
    unfold circularBefore at h
    split_ifs at h
    cases h; rfl
  | succ fuel ih =>
    intro x y curr h
    unfold circularBefore at h
    split_ifs at h
    · simp only [bind, Except.bind] at h
      split at h
      · cases h
      · rename_i z hz
        rw [ih _ _ _ h, setSlice_shape hz]
    · cases h; rfl

theorem replicate1d_congr {d : Nat} {idx idx' : List PySlice} (h : SameIdx S d idx idx') {x : Tensor α}
    (hx : x.shape = S) : replicate1d x idx d = replicate1d x idx' d := by
  subst hx
  simp only [replicate1d, h.bnd, bind, Except.bind]
  cases bounds idx' d with
  | error e => rfl
  | ok b =>
    obtain ⟨head, tail⟩ := b
    simp only
    rw [getSlice_congr (h.mod _), setSlice_congr (h.mod _)]
    split_ifs
    · generalize hv : x.getSlice _ = v
      cases hs : x.setSlice (modifyIdx (PySlice.upto head) idx' d) v with
      | error e => rfl
      | ok y =>
        have hy := setSlice_shape hs
        have hm : SameF y.shape (fun s => modifyIdx s idx d) (fun s => modifyIdx s idx' d) := by rw [hy]; exact h.mod
        simp only
        rw [getSlice_congr (hm _), setSlice_congr (hm _)]
    · simp only [pure, Except.pure]
      rw [getSlice_congr (h.mod _), setSlice_congr (h.mod _)]

theorem circular1d_congr {d : Nat} {idx idx' : List PySlice} (h : SameIdx S d idx idx') {x : Tensor α}
    (hx : x.shape = S) (fuel : Nat) : circular1d fuel x idx d = circular1d fuel x idx' d := by
  simp only [circular1d, h.bnd, bind, Except.bind, replicate1d_congr h hx]
  cases bounds idx' d with
  | error e => rfl
  | ok b =>
    obtain ⟨head, tail⟩ := b
    simp only
    rw [circularBefore_congr h.mod _ _ _ _ _ hx]
    cases hs : circularBefore (fun s => modifyIdx s idx' d) tail (tail - head) fuel x head with
    | error e => rfl
    | ok y =>
      simp only
      rw [circularAfter_congr h.mod _ _ _ _ _ _ ((circularBefore_shape _ _ _ _ _ _ hs).trans hx)]

theorem SameIdx.modify {d : Nat} {idx idx' : List PySlice} (h : SameIdx S d idx idx') (hl : d < idx.length)
    (hl' : d < idx'.length) (s : PySlice) : SameIdx S d (modifyIdx s idx d) (modifyIdx s idx' d) where
  bnd := by simp [bounds, modifyIdx, hl, hl']
  mod := by
    intro t
    simp only [modifyIdx, List.set_set]
    exact h.mod t
  whole := h.mod s

theorem bounds_lt {idx : List PySlice} {d : Nat} {b} (h : bounds idx d = .ok b) : d < idx.length := by
  simp only [bounds] at h
  split at h
  · cases h
  · rename_i hs
    exact (List.getElem?_eq_some_iff.1 hs).1
  · cases h

theorem periodize1d_congr {d : Nat} {idx idx' : List PySlice} (h : SameIdx S d idx idx') {x : Tensor α}
    (hx : x.shape = S) (fuel : Nat) : periodize1d fuel x idx d = periodize1d fuel x idx' d := by
  simp only [periodize1d, h.bnd, bind, Except.bind, circular1d_congr h hx]
  cases hb : bounds idx' d with
  | error e => rfl
  | ok b =>
    obtain ⟨head, tail⟩ := b
    simp only
    split_ifs
    · rfl
    · subst hx
      rw [getSlice_congr (h.mod _), setSlice_congr (h.mod _)]
      generalize hv : x.getSlice _ = v
      cases hs : x.setSlice (modifyIdx (PySlice.between tail (tail + 1)) idx' d) v with
      | error e => rfl
      | ok y =>
        exact circular1d_congr (h.modify (bounds_lt (h.bnd.trans hb)) (bounds_lt hb) _) (setSlice_shape hs) fuel

end Zero

section Ring
variable [Ring α] {S : List Nat} {f f' : PySlice → List PySlice}

theorem mirrorBefore_congr (hf : SameF S f f') (g : PySlice → List PySlice) (η : Tensor α → Tensor α) (d : Nat)
    (cache : Option (Tensor α)) (o tail length lf : Int) :
    ∀ fuel (x : Tensor α) curr flip, x.shape = S →
      mirrorBefore f g η d cache o tail length lf fuel x curr flip =
        mirrorBefore f' g η d cache o tail length lf fuel x curr flip := by
  intro fuel
  induction fuel with
  | zero => intro x curr flip _; unfold mirrorBefore; rfl
  | succ fuel ih =>
    intro x curr flip hx
    subst hx
    unfold mirrorBefore
    by_cases hc : curr > 0
    · rw [if_pos hc, if_pos hc]
      simp only [bind, Except.bind]
      simp only [getSlice_congr (hf _), setSlice_congr (hf _)]
      split
      · rfl
      · rename_i y hy
        exact ih y _ _ (setSlice_shape hy)
    · rw [if_neg hc, if_neg hc]

theorem mirrorAfter_congr (hf : SameF S f f') (g : PySlice → List PySlice) (η : Tensor α → Tensor α) (d : Nat)
    (cache : Option (Tensor α)) (o tail length lf : Int) :
    ∀ fuel (x : Tensor α) curr flip, x.shape = S →
      mirrorAfter f g η d cache o tail length lf fuel x curr flip =
        mirrorAfter f' g η d cache o tail length lf fuel x curr flip := by
  intro fuel
  induction fuel with
  | zero => intro x curr flip _; unfold mirrorAfter; rfl
  | succ fuel ih =>
    intro x curr flip hx
    subst hx
    unfold mirrorAfter
    by_cases hc : curr < (x.shape.getD d 0 : Int)
    · rw [if_pos hc, if_pos hc]
      simp only [bind, Except.bind]
      simp only [getSlice_congr (hf _), setSlice_congr (hf _)]
      split
      · rfl
      · rename_i y hy
        exact ih y _ _ (setSlice_shape hy)
    · rw [if_neg hc, if_neg hc]

theorem mirrorBefore_shape (g : PySlice → List PySlice) (η : Tensor α → Tensor α) (d : Nat)
    (cache : Option (Tensor α)) (o tail length lf : Int) :
    ∀ fuel (x y : Tensor α) curr flip,
      mirrorBefore f g η d cache o tail length lf fuel x curr flip = .ok y → y.shape = x.shape := by
  intro fuel
  induction fuel with
  | zero =>
    intro x y curr flip h
    unfold mirrorBefore at h
    split_ifs at h
    cases h; rfl
  | succ fuel ih =>
    intro x y curr flip h
    unfold mirrorBefore at h
    by_cases hc : curr > 0
    · rw [if_pos hc] at h
      simp only [bind, Except.bind] at h
      split at h
      · cases h
      · rename_i z hz
        rw [ih _ _ _ _ h, setSlice_shape hz]
    · rw [if_neg hc] at h; cases h; rfl

theorem symmetric1d_congr {d : Nat} {idx idx' : List PySlice} (h : SameIdx S d idx idx') {x : Tensor α}
    (hx : x.shape = S) (np : Bool) (fuel : Nat) (neg : Bool) :
    symmetric1d np fuel neg x idx d = symmetric1d np fuel neg x idx' d := by
  have hw : x.getSlice idx = x.getSlice idx' := getSlice_congr (by rw [hx]; exact h.whole)
  simp only [symmetric1d, h.bnd, bind, Except.bind, replicate1d_congr h hx, hw]
  cases bounds idx' d with
  | error e => rfl
  | ok b =>
    obtain ⟨head, tail⟩ := b
    simp only
    by_cases hc : tail - head = 1 ∧ neg = false
    · rw [if_pos hc, if_pos hc]
    · rw [if_neg hc, if_neg hc]
      cases lengthDiv np (x.shape.getD d 0) (tail - head) with
      | error e => rfl
      | ok q =>
        simp only
        rw [mirrorBefore_congr h.mod _ _ _ _ _ _ _ _ _ _ _ _ hx]
        split
        · rfl
        · rename_i y hy
          rw [mirrorAfter_congr h.mod _ _ _ _ _ _ _ _ _ _ _ _
            ((mirrorBefore_shape _ _ _ _ _ _ _ _ _ _ _ _ _ hy).trans hx)]

theorem reflect1d_congr {d : Nat} {idx idx' : List PySlice} (h : SameIdx S d idx idx') {x : Tensor α}
    (hx : x.shape = S) (np : Bool) (fuel : Nat) : reflect1d np fuel x idx d = reflect1d np fuel x idx' d := by
  have hw : ∀ s, x.getSlice (modifyIdx s idx d) = x.getSlice (modifyIdx s idx' d) :=
    fun s => getSlice_congr (by rw [hx]; exact h.mod s)
  simp only [reflect1d, h.bnd, bind, Except.bind, replicate1d_congr h hx, circular1d_congr h hx, hw]
  cases bounds idx' d with
  | error e => rfl
  | ok b =>
    obtain ⟨head, tail⟩ := b
    simp only
    split_ifs
    · rfl
    · rfl
    · cases lengthDiv np (x.shape.getD d 0) (tail - head) with
      | error e => rfl
      | ok q =>
        simp only
        rw [mirrorBefore_congr h.mod _ _ _ _ _ _ _ _ _ _ _ _ hx]
        split
        · rfl
        · rename_i y hy
          rw [mirrorAfter_congr h.mod _ _ _ _ _ _ _ _ _ _ _ _
            ((mirrorBefore_shape _ _ _ _ _ _ _ _ _ _ _ _ _ hy).trans hx)]

theorem oddBefore_congr (hf : SameF S f f') (d : Nat) (o length : Int) :
    ∀ fuel (x : Tensor α) curr, x.shape = S →
      oddBefore f d o length fuel x curr = oddBefore f' d o length fuel x curr := by
  intro fuel
  induction fuel with
  | zero => intro x curr _; unfold oddBefore; rfl
  | succ fuel ih =>
    intro x curr hx
    subst hx
    unfold oddBefore
    split_ifs
    · simp only [bind, Except.bind]
      simp only [getSlice_congr (hf _), setSlice_congr (hf _)]
      split
      · rfl
      · split
        · rfl
        · rename_i y hy
          exact ih y _ (setSlice_shape hy)
    · rfl

theorem oddAfter_congr (hf : SameF S f f') (d : Nat) (o length : Int) :
    ∀ fuel (x : Tensor α) curr, x.shape = S →
      oddAfter f d o length fuel x curr = oddAfter f' d o length fuel x curr := by
  intro fuel
  induction fuel with
  | zero => intro x curr _; unfold oddAfter; rfl
  | succ fuel ih =>
    intro x curr hx
    subst hx
    unfold oddAfter
    split_ifs
    · simp only [bind, Except.bind]
      simp only [getSlice_congr (hf _), setSlice_congr (hf _)]
      split
      · rfl
      · split
        · rfl
        · rename_i y hy
          exact ih y _ (setSlice_shape hy)
    · rfl

theorem oddBefore_shape (d : Nat) (o length : Int) :
    ∀ fuel (x y : Tensor α) curr, oddBefore f d o length fuel x curr = .ok y → y.shape = x.shape := by
  intro fuel
  induction fuel with
  | zero =>
    intro x y curr h
    unfold oddBefore at h
    split_ifs at h
    cases h; rfl
  | succ fuel ih =>
    intro x y curr h
    unfold oddBefore at h
    split_ifs at h
    · simp only [bind, Except.bind] at h
      split at h
      · cases h
      · split at h
        · cases h
        · rename_i z hz
          rw [ih _ _ _ h, setSlice_shape hz]
    · cases h; rfl

theorem oddSymmetric1d_congr {d : Nat} {idx idx' : List PySlice} (h : SameIdx S d idx idx') {x : Tensor α}
    (hx : x.shape = S) (fuel : Nat) : oddSymmetric1d fuel x idx d = oddSymmetric1d fuel x idx' d := by
  simp only [oddSymmetric1d, h.bnd, bind, Except.bind]
  cases bounds idx' d with
  | error e => rfl
  | ok b =>
    obtain ⟨head, tail⟩ := b
    simp only
    rw [oddBefore_congr h.mod _ _ _ _ _ _ hx]
    split
    · rfl
    · rename_i y hy
      rw [oddAfter_congr h.mod _ _ _ _ _ _ ((oddBefore_shape _ _ _ _ _ _ _ hy).trans hx)]

theorem oddReflect1d_congr {d : Nat} {idx idx' : List PySlice} (h : SameIdx S d idx idx') {x : Tensor α}
    (hx : x.shape = S) (fuel : Nat) : oddReflect1d fuel x idx d = oddReflect1d fuel x idx' d := by
  simp only [oddReflect1d, h.bnd, bind, Except.bind, replicate1d_congr h hx]
  cases bounds idx' d with
  | error e => rfl
  | ok b =>
    obtain ⟨head, tail⟩ := b
    simp only
    split_ifs
    · rfl
    · rw [oddBefore_congr h.mod _ _ _ _ _ _ hx]
      split
      · rfl
      · rename_i y hy
        rw [oddAfter_congr h.mod _ _ _ _ _ _ ((oddBefore_shape _ _ _ _ _ _ _ hy).trans hx)]

theorem smooth1d_congr {d : Nat} {idx idx' : List PySlice} (h : SameIdx S d idx idx') {x : Tensor α}
    (hx : x.shape = S) : smooth1d x idx d = smooth1d x idx' d := by
  simp only [smooth1d, h.bnd, bind, Except.bind, replicate1d_congr h hx]
  cases bounds idx' d with
  | error e => rfl
  | ok b =>
    obtain ⟨head, tail⟩ := b
    simp only
    split_ifs with h1 h2
    · rfl
    · subst hx
      simp only [getSlice_congr (h.mod _), setSlice_congr (h.mod _)]
      cases bop (· - ·) (x.getSlice (modifyIdx (PySlice.between (head + 1) (head + 2)) idx' d))
        (x.getSlice (modifyIdx (PySlice.between head (head + 1)) idx' d)) with
      | error e => rfl
      | ok a =>
        simp only
        cases bop (· * ·) (column (arangeDown head) (x.ndim - d - 1)) a with
        | error e => rfl
        | ok b =>
          simp only
          cases bop (· - ·) (x.getSlice (modifyIdx (PySlice.between head (head + 1)) idx' d)) b with
          | error e => rfl
          | ok c =>
            simp only
            cases hs : x.setSlice (modifyIdx (PySlice.upto head) idx' d) c with
            | error e => rfl
            | ok y =>
              have hm : SameF y.shape (fun s => modifyIdx s idx d) (fun s => modifyIdx s idx' d) := by rw [setSlice_shape hs]; exact h.mod
              simp only [getSlice_congr (hm _), setSlice_congr (hm _)]
    · subst hx
      simp only [pure, Except.pure, getSlice_congr (h.mod _), setSlice_congr (h.mod _)]

theorem constant1d_congr (vb va : α) {d : Nat} {idx idx' : List PySlice} (h : SameIdx S d idx idx') {x : Tensor α}
    (hx : x.shape = S) : constant1d vb va x idx d = constant1d vb va x idx' d := by
  simp only [constant1d, h.bnd, bind, Except.bind]
  cases bounds idx' d with
  | error e => rfl
  | ok b =>
    obtain ⟨head, tail⟩ := b
    subst hx
    simp only [setSlice_congr (h.mod _)]
    split_ifs
    · split
      · rfl
      · rename_i y hy
        have hm : SameF y.shape (fun s => modifyIdx s idx d) (fun s => modifyIdx s idx' d) := by rw [setSlice_shape hy]; exact h.mod
        simp only [setSlice_congr (hm _)]
    · simp only [pure, Except.pure, setSlice_congr (h.mod _)]

end Ring

section Field
variable [Field α] {S : List Nat}

theorem linearRamp1d_congr (vb va : α) {d : Nat} {idx idx' : List PySlice} (h : SameIdx S d idx idx')
    {x : Tensor α} (hx : x.shape = S) : linearRamp1d vb va x idx d = linearRamp1d vb va x idx' d := by
  simp only [linearRamp1d, h.bnd, bind, Except.bind]
  cases bounds idx' d with
  | error e => rfl
  | ok b =>
    obtain ⟨head, tail⟩ := b
    subst hx
    simp only [getSlice_congr (h.mod _), setSlice_congr (h.mod _)]
    split_ifs
    · split
      · rfl
      · rename_i y hy
        split at hy
        · cases hy
        · have hm : SameF y.shape (fun s => modifyIdx s idx d) (fun s => modifyIdx s idx' d) := by rw [setSlice_shape hy]; exact h.mod
          simp only [getSlice_congr (hm _), setSlice_congr (hm _)]
    · simp only [pure, Except.pure, getSlice_congr (h.mod _), setSlice_congr (h.mod _)]

variable [LinearOrder α]

theorem stat1d_congr (s : Stat) (b a : Option Int) {d : Nat} {idx idx' : List PySlice} (h : SameIdx S d idx idx')
    {x : Tensor α} (hx : x.shape = S) : stat1d s b a x idx d = stat1d s b a x idx' d := by
  have hB : ∀ (z : Tensor α) head tail, z.shape = S →
      statBoth s z (fun s => modifyIdx s idx d) head tail d = statBoth s z (fun s => modifyIdx s idx' d) head tail d := by
    intro z head tail hz
    subst hz
    simp only [statBoth, bind, Except.bind, getSlice_congr (h.mod _), setSlice_congr (h.mod _)]
    split
    · rfl
    · split
      · rfl
      · rename_i y hy
        have hm : SameF y.shape (fun s => modifyIdx s idx d) (fun s => modifyIdx s idx' d) := by rw [setSlice_shape hy]; exact h.mod
        simp only [setSlice_congr (hm _)]
  have hB' : ∀ (z y : Tensor α) f head tail, statBoth s z f head tail d = .ok y → y.shape = z.shape := by
    intro z y f head tail hy
    simp only [statBoth, bind, Except.bind] at hy
    split at hy
    · cases hy
    · split at hy
      · cases hy
      · rename_i w hw
        rw [setSlice_shape hy, setSlice_shape hw]
  have h1 : ∀ (z : Tensor α) head tail, z.shape = S →
      statBefore s b z (fun s => modifyIdx s idx d) head tail d = statBefore s b z (fun s => modifyIdx s idx' d) head tail d := by
    intro z head tail hz
    subst hz
    cases b <;> simp only [statBefore, bind, Except.bind, getSlice_congr (h.mod _), setSlice_congr (h.mod _)]
  have h1' : ∀ (z y : Tensor α) f head tail, statBefore s b z f head tail d = .ok y → y.shape = z.shape := by
    intro z y f head tail hy
    cases b <;> simp only [statBefore, bind, Except.bind] at hy <;> split at hy
    · cases hy
    · exact setSlice_shape hy
    · cases hy
    · exact setSlice_shape hy
  have h2 : ∀ (z : Tensor α) head tail, z.shape = S →
      statAfter s a z (fun s => modifyIdx s idx d) head tail d = statAfter s a z (fun s => modifyIdx s idx' d) head tail d := by
    intro z head tail hz
    subst hz
    cases a <;> simp only [statAfter, bind, Except.bind, getSlice_congr (h.mod _), setSlice_congr (h.mod _)]
  simp only [stat1d, h.bnd, bind, Except.bind]
  cases bounds idx' d with
  | error e => rfl
  | ok bb =>
    obtain ⟨head, tail⟩ := bb
    simp only [hB x head tail hx]
    generalize hA : (if (head > 0 ∧ tail < (x.shape.getD d 0 : Int)) ∧ b = none ∧ a = none then
      statBoth s x (fun s => modifyIdx s idx' d) head tail d else pure x) = A
    cases A with
    | error e => rfl
    | ok y =>
      have hy : y.shape = S := by
        split_ifs at hA
        · rw [hB' _ _ _ _ _ hA, hx]
        · cases hA; exact hx
      simp only [h1 y head tail hy]
      generalize hC : (if head > 0 then statBefore s b y (fun s => modifyIdx s idx' d) head tail d else pure y) = C
      cases C with
      | error e => rfl
      | ok z =>
        have hz : z.shape = S := by
          split_ifs at hC
          · rw [h1' _ _ _ _ _ hC, hy]
          · cases hC; exact hy
        simp only [h2 z head tail hz]

theorem runMode_congr (p : Padder α) (np : Bool) (i : Int) {m : Mode α} (hm : ∀ f, m ≠ .custom f) {d : Nat}
    {idx idx' : List PySlice} (h : SameIdx S d idx idx') {x : Tensor α} (hx : x.shape = S) :
    p.runMode np i m x idx d = p.runMode np i m x idx' d := by
  cases m <;> simp only [Padder.runMode]
  · exact replicate1d_congr h hx
  · exact smooth1d_congr h hx
  · exact circular1d_congr h hx _
  · exact periodize1d_congr h hx _
  · exact symmetric1d_congr h hx _ _ _
  · exact reflect1d_congr h hx _ _
  · exact symmetric1d_congr h hx _ _ _
  · exact oddReflect1d_congr h hx _
  · exact oddSymmetric1d_congr h hx _
  · simp only [stat1d_congr _ _ _ h hx]
  · simp only [constant1d_congr _ _ h hx]
  · simp only [linearRamp1d_congr _ _ h hx]
  · rename_i f; exact absurd rfl (hm f)

end Field

/-! ### the tuple of `pad_axis` -/

theorem resolveAll_makeIdx {S : List Nat} {d : Nat} (hd : d < S.length) (s : PySlice) :
    resolveAll (makeIdx s d S.length) S = (S.map fun n => toRng (0, n)).set d (s.resolve (S.getD d 0)) := by
  have hfull : ∀ (k : Nat) (S : List Nat), S.length ≤ k →
      resolveAll (List.replicate k PySlice.full) S = S.map fun n => toRng (0, n) := by
    intro k
    induction k with
    | zero => intro S h; cases S with
      | nil => rfl
      | cons a S => simp at h
    | succ k ih => intro S h; cases S with
      | nil => rfl
      | cons a S => rw [List.replicate_succ, resolveAll, ih S (by simpa using h), resolve_full, List.map_cons]
  induction S generalizing d with
  | nil => simp at hd
  | cons n S ih =>
    cases d with
    | zero =>
      simp only [makeIdx, List.replicate_zero, List.nil_append, List.length_cons, Nat.sub_zero, resolveAll,
        List.map_cons, List.set_cons_zero, List.getD_cons_zero]
      rw [hfull _ _ (by omega)]
    | succ d =>
      have := ih (d := d) (by simpa using hd)
      simp only [makeIdx, List.length_cons] at this ⊢
      rw [List.replicate_succ, List.cons_append, resolveAll, resolve_full,
        show S.length + 1 - (d + 1) - 1 = S.length - d - 1 by omega, this]
      simp

theorem makeIdx_modify {S : List Nat} {d : Nat} (s t : PySlice) :
    modifyIdx t (makeIdx s d S.length) d = makeIdx t d S.length := by
  simp [modifyIdx, makeIdx]

/-- `make_idx(lo, hi, dim=d)` and the tuple of explicit bounds -/
theorem sameIdx_makeIdx {S : List Nat} {d lo hi : Nat} (hd : d < S.length) (hl : lo ≤ hi) (hh : hi ≤ S.getD d 0) :
    SameIdx S d (makeIdx (.between lo hi) d S.length) (idxOf ((S.map fun n => (0, n)).set d (lo, hi))) := by
  have hW0 : WinOK (S.map fun n => (0, n)) S := by
    rw [WinOK, List.forall₂_map_left_iff]
    exact List.forall₂_same.2 (fun n _ => ⟨Nat.zero_le _, le_refl _⟩)
  have hW : WinOK ((S.map fun n => (0, n)).set d (lo, hi)) S := hW0.set hl hh
  have hbase : ∀ t : PySlice, resolveAll (makeIdx t d S.length) S =
      resolveAll (modifyIdx t (idxOf ((S.map fun n => (0, n)).set d (lo, hi))) d) S := by
    intro t
    rw [resolveAll_makeIdx hd, modifyIdx, resolveAll_set (by simp [idxOf]), resolveAll_idxOf hW]
    simp [List.map_set]
    rfl
  refine ⟨?_, ?_, ?_⟩
  · have h1 : (makeIdx (.between lo hi) d S.length)[d]? = some (.between lo hi) := by
      simp [makeIdx]
    have h2 : (idxOf ((S.map fun n => (0, n)).set d (lo, hi)))[d]? = some (.between lo hi) := by
      simp [idxOf, hd]
    simp only [bounds, h1, h2]
  · intro t
    simp only
    rw [makeIdx_modify]
    exact hbase t
  · rw [hbase]
    congr 1
    simp only [modifyIdx, idxOf, List.map_set, List.set_set]

end TI
