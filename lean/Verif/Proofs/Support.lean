import Verif.Proofs.FltRun

/-!
# Which entries of an image an entry of the pooled image is made of

The code is run on sets of labels in the place of numbers: a sum, a difference or a product is made of everything its terms are made of.
-/

set_option linter.unusedSectionVars false

namespace TI
open Tensor Spec

section
variable {α : Type} [Field α] [LinearOrder α] [IsStrictOrderedRing α]
variable {β : Type} [Zero β] [Add β] [Sub β] [Neg β] [Mul β] [IntCast β] [OfNat β 2] {num : α → β} {R : β → Flt α → Prop}

/-- `linearRampFlt` -/
def genRamp (num : α → β) (before after : α) (x : Tensor β) (idx : List PySlice) (dim : Nat) : Except Err (Tensor β) := do
  let (head, tail) ← bounds idx dim
  let f := fun s => modifyIdx s idx dim
  let x ← (if head > 0 then do
      let dist := Tensor.column (((linspace (0 : α) 1 (head.toNat + 1)).dropLast).map num) (x.ndim - dim - 1)
      let d := (x.getSlice (f (.between head (head + 1)))).map (· - num before)
      let p ← Tensor.bop (· * ·) dist d
      x.setSlice (f (.upto head)) (p.map (num before + ·))
    else pure x)
  if tail < x.shape.getD dim 0 then do
    let dist := Tensor.column (((linspace (1 : α) 0 ((x.shape.getD dim 0 - tail).toNat + 1)).tail).map num) (x.ndim - dim - 1)
    let d := (x.getSlice (f (.between (tail - 1) tail))).map (num after - ·)
    let p ← Tensor.bop (· * ·) dist d
    x.setSlice (f (.from tail)) (p.map (num after - ·))
  else pure x

/-- `runModeFlt` without statistics -/
def genMode (num : α → β) (p : Padder α) (i : Int) (mode : Mode α) (y : Tensor β) (idx : List PySlice) (axis : Nat) : Except Err (Tensor β) :=
  let fuel := y.shape.getD axis 0
  match mode with
  | .replicate => replicate1d y idx axis
  | .smooth => smooth1d y idx axis
  | .circular => circular1d fuel y idx axis
  | .periodize => periodize1d fuel y idx axis
  | .symmetric => symmetric1d true fuel false y idx axis
  | .reflect => reflect1d true fuel y idx axis
  | .antisymmetric => symmetric1d true fuel true y idx axis
  | .oddReflect => oddReflect1d fuel y idx axis
  | .oddSymmetric => oddSymmetric1d fuel y idx axis
  | .stat _ => .error .type
  | .constant => do
    let cv ← Padder.pairAt p.constantValues i
    constant1d (num cv.1) (num cv.2) y idx axis
  | .linearRamp => do
    let ev ← Padder.pairAt p.endValues i
    genRamp num ev.1 ev.2 y idx axis
  | .zeros => .ok y
  | .empty => .ok y
  | .unknown => .error .value
  | .custom _ => .error .type

/-- `padFlt` -/
def genPad (num : α → β) (pool : SepPool α) (padder : Option (Padder α)) (junk : List Nat → β) (x : Tensor β) (axes : Axes) : Except Err (Tensor β) :=
  match checkAxes x.ndim axes with
  | .error e => .error e
  | .ok axes =>
    match padder with
    | none => .ok x
    | some p =>
      match NdSpec.sequence (axes.map fun a => pyIndex x.shape a) with
      | .error e => .error e
      | .ok sizes =>
        match NdSpec.ofItem [] (.seq (sizes.map fun (n : Nat) => Py.leaf (some (n : Int)))) with
        | .error e => .error e
        | .ok inShape =>
          match p.toSame pool.kernelSize pool.stride inShape with
          | (_, .error e) => .error e
          | (p', .ok _) => Padder.forwardWith (genMode num p') p' junk x (.seq axes)

/-- only the settings of the padder count -/
theorem genPad_indep (num : α → β) (pool : SepPool α) {p q : Padder α} (h : SameSettings p q) (junk : List Nat → β) (x : Tensor β) (axes : Axes) :
    genPad num pool (some p) junk x axes = genPad num pool (some q) junk x axes := by
  simp only [genPad]
  split
  · rfl
  · split
    · rfl
    · split
      · rfl
      · rename_i inShape _
        obtain ⟨e1, e2⟩ := toSame_indep h pool.kernelSize pool.stride inShape
        rcases hp : p.toSame pool.kernelSize pool.stride inShape with ⟨p', rp⟩
        rcases hq : q.toSame pool.kernelSize pool.stride inShape with ⟨q', rq⟩
        rw [hp, hq] at e1 e2
        simp only at e1 e2
        subst e1
        cases rp with
        | error e => simp
        | ok u =>
          have := e2 rfl
          subst this
          simp

/-- `poolStepFlt` -/
def genStep (num : α → β) (pool : SepPool α) (i : Nat) (axis : Int) (x : Tensor β) : Except Err (Tensor β) := do
  let k ← pool.kernelSize.get (i : Int)
  let k ← SepPool.asSize k
  if k = 0 then return x
  let s ← pool.stride.get (i : Int)
  let s ← SepPool.asSize s
  let a ← convDim x.ndim axis
  let y ← x.unfold a k s
  let w ← pool.kernel.get (i : Int)
  let w ← SepPool.asVec w
  y.matvec (w.map num)

/-- `poolLoopFlt` -/
def genLoop (num : α → β) (pool : SepPool α) : Nat → List Int → Tensor β → Except Err (Tensor β)
  | _, [], x => .ok x
  | i, a :: as, x => do
    let x ← genStep num pool i a x
    genLoop num pool (i + 1) as x

/-- `forwardFlt` -/
def genForward (num : α → β) (pool : SepPool α) (padder : Option (Padder α)) (junk : List Nat → β) (x : Tensor β) (axes : Axes) : Except Err (Tensor β) :=
  match checkAxes x.ndim axes with
  | .error e => .error e
  | .ok axes =>
    if pool.ndim = 0 ∨ pool.ndim = (axes.length : Int) then (genPad num pool padder junk x (.seq axes)).bind fun y => genLoop num pool 0 axes y
    else .error .assertion

theorem genForward_indep (num : α → β) (pool : SepPool α) {p q : Padder α} (h : SameSettings p q) (junk : List Nat → β) (x : Tensor β) (axes : Axes) :
    genForward num pool (some p) junk x axes = genForward num pool (some q) junk x axes := by
  simp only [genForward, genPad_indep num pool h]

theorem gen_map_num (h0 : R 0 0) (hn : ∀ a, R (num a) (.num a)) (l : List α) (n : Nat) : R ((l.map num).getD n 0) ((l.map Flt.num).getD n 0) := by
  simp only [List.getD_eq_getElem?_getD, List.getElem?_map]
  cases l[n]? with
  | none => exact h0
  | some k => exact hn k

theorem rel_genRamp (hR : RingRel R) (hn : ∀ a, R (num a) (.num a)) (before after : α) {x : Tensor β} {y : Tensor (Flt α)} (h : x.Rel R y)
    (idx : List PySlice) (dim : Nat) : ExRel (Tensor.Rel R) (genRamp num before after x idx dim) (linearRampFlt before after y idx dim) := by
  have h0 := hR.zero
  have hcol : ∀ (l : List α) (k : Nat), (column (l.map num) k).Rel R (column (l.map Flt.num) k) := fun l k =>
    rel_column (by simp) (gen_map_num h0 hn l) k
  unfold genRamp linearRampFlt
  refine .bind_same _ fun ⟨head, tail⟩ _ => ?_
  refine .bind (P := Tensor.Rel R) (.ite Iff.rfl (fun _ => ?_) fun _ => .ok h) fun x y h => ?_
  · rw [h.ndim]
    refine .bind (Tensor.Rel.bop h0 (hcol _ _) ((h.getSlice h0 _).map h0 fun a b hab => hR.sub hab (hn _)) fun a b a' b' h1 h2 => hR.mul h1 h2) fun q q' hq => ?_
    exact h.setSlice h0 (hq.map h0 fun a b hab => hR.add (hn _) hab) _
  · refine .ite (by rw [h.shape]) (fun _ => ?_) fun _ => .ok h
    rw [h.ndim, h.shape]
    refine .bind (Tensor.Rel.bop h0 (hcol _ _) ((h.getSlice h0 _).map h0 fun a b hab => hR.sub (hn _) hab) fun a b a' b' h1 h2 => hR.mul h1 h2) fun q q' hq => ?_
    exact h.setSlice h0 (hq.map h0 fun a b hab => hR.sub (hn _) hab) _

theorem rel_genMode (hR : RingRel R) (hn : ∀ a, R (num a) (.num a)) (p : Padder α) (i : Int) {m : Mode α} (hm : callable m = false) (hs : isStat m = false)
    {y : Tensor β} {y' : Tensor (Flt α)} (h : y.Rel R y')
    (idx : List PySlice) (axis : Nat) : ExRel (Tensor.Rel R) (genMode num p i m y idx axis) (p.runModeFlt true i m y' idx axis) := by
  have h0 := hR.zero
  unfold genMode Padder.runModeFlt
  rw [h.shape]
  cases m
  case replicate => exact rel_replicate1d h0 h _ _
  case smooth => exact rel_smooth1d hR h _ _
  case circular => exact rel_circular1d h0 _ h _ _
  case periodize => exact rel_periodize1d h0 _ h _ _
  case symmetric => exact rel_symmetric1d h0 _ _ _ (fun _ _ _ h => hR.neg h) h _ _
  case reflect => exact rel_reflect1d h0 _ _ h _ _
  case antisymmetric => exact rel_symmetric1d h0 _ _ _ (fun _ _ _ h => hR.neg h) h _ _
  case oddReflect => exact rel_oddReflect1d hR _ h _ _
  case oddSymmetric => exact rel_oddSymmetric1d hR _ h _ _
  case stat s => simp [isStat] at hs
  case zeros => exact .ok h
  case constant =>
    refine .bind_same _ fun cv hcv => ?_
    exact rel_constant1d h0 (hn _) (hn _) h _ _
  case linearRamp =>
    refine .bind_same _ fun ev _ => ?_
    exact rel_genRamp hR hn _ _ h _ _
  case empty => exact .ok h
  case unknown => exact .error _
  case custom f => simp [callable] at hm

variable {junk : List Nat → β} {junk' : List Nat → Flt α} {x : Tensor β} {X : Tensor (Flt α)} {padder : Option (Padder α)}

theorem rel_genPad (hR : RingRel R) (hn : ∀ a, R (num a) (.num a)) (pool : SepPool α) (hm : ∀ p, padder = some p → PlainModes p) (hj : ∀ ix, R (junk ix) (junk' ix))
    (h : x.Rel R X) (ax : Axes) : ExRel (Tensor.Rel R) (genPad num pool padder junk x ax) (pool.padFlt padder junk' X ax).2 := by
  unfold genPad SepPool.padFlt
  rw [h.ndim, h.shape]
  cases checkAxes X.ndim ax with
  | error e => exact .error e
  | ok axes =>
    cases padder with
    | none => exact .ok h
    | some p =>
      simp only
      cases NdSpec.sequence (axes.map fun a => pyIndex X.shape a) with
      | error e => exact .error e
      | ok sizes =>
        simp only
        cases NdSpec.ofItem [] (.seq (sizes.map fun (n : Nat) => Py.leaf (some (n : Int)))) with
        | error e => exact .error e
        | ok inShape =>
          simp only
          have hs := toSame_settings p pool.kernelSize pool.stride inShape
          generalize p.toSame pool.kernelSize pool.stride inShape = ts at hs ⊢
          obtain ⟨p', r⟩ := ts
          cases r with
          | error e => exact .error e
          | ok _ =>
            refine rel_forwardWith hR.zero rfl rfl hj h _ fun axes _ i _ => ⟨rfl, fun m hi y y' hy idx axis => ?_⟩
            obtain ⟨h1, h2⟩ := hm p rfl i m (by rw [← hs.modeAt]; exact hi)
            exact rel_genMode hR hn p' i h1 h2 hy idx axis

theorem rel_genStep (hR : RingRel R) (hn : ∀ a, R (num a) (.num a)) (pool : SepPool α) (i : Nat) (axis : Int) (h : x.Rel R X) :
    ExRel (Tensor.Rel R) (genStep num pool i axis x) (pool.poolStepFlt i axis X) := by
  unfold genStep SepPool.poolStepFlt
  rw [h.ndim]
  refine .bind_same _ fun k _ => .bind_same _ fun k _ => ?_
  by_cases hk : k = 0
  · simp only [if_pos hk]
    exact .ok h
  simp only [if_neg hk]
  refine .bind_same _ fun s _ => .bind_same _ fun s _ => .bind_same _ fun a _ => ?_
  refine .bind (rel_unfold hR.zero h a k s) fun y y' hy => .bind_same _ fun w _ => .bind_same _ fun w _ => ?_
  exact rel_matvec hR hy (by simp) (gen_map_num hR.zero hn w)

theorem rel_genLoop (hR : RingRel R) (hn : ∀ a, R (num a) (.num a)) (pool : SepPool α) : ∀ (axes : List Int) (i : Nat) {x : Tensor β} {X : Tensor (Flt α)}, x.Rel R X →
    ExRel (Tensor.Rel R) (genLoop num pool i axes x) (pool.poolLoopFlt i axes X)
  | [], _, _, _, h => .ok h
  | a :: as, i, _, _, h => by
    unfold genLoop SepPool.poolLoopFlt
    exact .bind (rel_genStep hR hn pool i a h) fun y y' hy => rel_genLoop hR hn pool as (i + 1) hy

theorem rel_genForward (hR : RingRel R) (hn : ∀ a, R (num a) (.num a)) (pool : SepPool α) (hm : ∀ p, padder = some p → PlainModes p)
    (hj : ∀ ix, R (junk ix) (junk' ix)) (h : x.Rel R X) (ax : Axes) : ExRel (Tensor.Rel R) (genForward num pool padder junk x ax) (pool.forwardFlt padder junk' X ax).2 := by
  unfold genForward SepPool.forwardFlt
  rw [h.ndim]
  cases checkAxes X.ndim ax with
  | error e => exact .error e
  | ok axes =>
    simp only
    split_ifs
    · have h2 := rel_genPad hR hn pool hm hj h (.seq axes)
      generalize genPad num pool padder junk x (.seq axes) = r at h2 ⊢
      generalize pool.padFlt padder junk' X (.seq axes) = r' at h2 ⊢
      obtain ⟨q', r'⟩ := r'
      cases h2 with
      | error e => exact .error e
      | ok hy => exact rel_genLoop hR hn pool axes 0 hy
    · exact .error _

end

/-- what a number is made of: entries of the image (`inl`) and of the uninitialized memory (`inr`) -/
structure Uses where
  uses : List Nat ⊕ List Nat → Prop

namespace Uses

instance : Zero Uses := ⟨⟨fun _ => False⟩⟩
instance : OfNat Uses 2 := ⟨⟨fun _ => False⟩⟩
instance : IntCast Uses := ⟨fun _ => ⟨fun _ => False⟩⟩
instance : Neg Uses := ⟨id⟩
instance : Add Uses := ⟨fun a b => ⟨fun j => a.uses j ∨ b.uses j⟩⟩
instance : Sub Uses := ⟨fun a b => ⟨fun j => a.uses j ∨ b.uses j⟩⟩
instance : Mul Uses := ⟨fun a b => ⟨fun j => a.uses j ∨ b.uses j⟩⟩

end Uses

section
variable {α : Type} [Field α] [LinearOrder α] [IsStrictOrderedRing α]

/-- everything used is finite -/
def Sound (X : Tensor (Flt α)) (junk : List Nat → Flt α) (j : List Nat ⊕ List Nat) : Prop := IsFinite (j.elim X.get junk)

/-- finite iff everything used is -/
def UsesRel (X : Tensor (Flt α)) (junk : List Nat → Flt α) (a : Uses) (b : Flt α) : Prop := IsFinite b ↔ ∀ j, a.uses j → Sound X junk j

theorem usesRel_ring (X : Tensor (Flt α)) (junk : List Nat → Flt α) : RingRel (UsesRel X junk) := by
  have hnum : ∀ (c : α) (a : Uses), (∀ j, ¬ a.uses j) → UsesRel X junk a (.num c) := fun c a h =>
    iff_of_true ⟨c, rfl⟩ fun j hj => absurd hj (h j)
  have hor : ∀ {a a' : Uses} {b b' c : Flt α}, UsesRel X junk a b → UsesRel X junk a' b' → (IsFinite c ↔ IsFinite b ∧ IsFinite b') →
      UsesRel X junk ⟨fun j => a.uses j ∨ a'.uses j⟩ c := by
    intro a a' b b' c h h' hc
    rw [UsesRel, hc, show IsFinite b ↔ _ from h, show IsFinite b' ↔ _ from h']
    exact ⟨fun ⟨h1, h2⟩ j hj => hj.elim (h1 j) (h2 j), fun h => ⟨fun j hj => h j (Or.inl hj), fun j hj => h j (Or.inr hj)⟩⟩
  exact {
    zero := hnum 0 0 fun _ h => h
    two := fun h => hor (hnum 2 2 fun _ h => h) h Flt.finite_mul
    int := fun n => hnum n n fun _ h => h
    neg := fun {a b} h => by
      have e : IsFinite (-b) ↔ IsFinite b := ⟨fun ⟨c, hc⟩ => by obtain ⟨d, hd, _⟩ := Flt.neg_eq_num hc; exact ⟨d, hd⟩, fun ⟨c, hc⟩ => ⟨-c, by rw [hc]; rfl⟩⟩
      exact e.trans h
    add := fun h h' => hor h h' Flt.finite_add
    sub := fun h h' => hor h h' Flt.finite_sub
    mul := fun h h' => hor h h' Flt.finite_mul }

/-- the entries used by an entry of the pooled image are the same for all images of one shape -/
theorem forwardFlt_uses (pool : SepPool α) {padder : Option (Padder α)} (hm : ∀ p, padder = some p → PlainModes p) (shape : List Nat) (ax : Axes) :
    ∃ S : List Nat → Uses, ∀ (X : Tensor (Flt α)) (junk : List Nat → Flt α) (Z : Tensor (Flt α)), X.shape = shape → (pool.forwardFlt padder junk X ax).2 = .ok Z →
      ∀ ix, UsesRel X junk (S ix) (Z.get ix) := by
  let T : Tensor Uses := ofFn shape fun ix => ⟨fun j => j = .inl ix⟩
  let u : List Nat → Uses := fun ix => ⟨fun j => j = .inr ix⟩
  have key : ∀ (X : Tensor (Flt α)) (junk : List Nat → Flt α), X.shape = shape →
      ExRel (Tensor.Rel (UsesRel X junk)) (genForward (fun _ : α => (0 : Uses)) pool padder u T ax) (pool.forwardFlt padder junk X ax).2 := by
    intro X junk hX
    refine rel_genForward (usesRel_ring X junk) (fun a => iff_of_true ⟨a, rfl⟩ fun j hj => absurd hj id) pool hm (fun ix => ?_) ?_ ax
    · exact ⟨fun h j hj => by rw [show j = .inr ix from hj]; exact h, fun h => h (.inr ix) rfl⟩
    · refine rel_of_get (usesRel_ring X junk).zero hX.symm fun ix hix => ?_
      rw [get_ofFn (show InB shape ix from hix)]
      exact ⟨fun h j hj => by rw [show j = .inl ix from hj]; exact h, fun h => h (.inl ix) rfl⟩
  cases hg : genForward (fun _ : α => (0 : Uses)) pool padder u T ax with
  | error e =>
    refine ⟨fun _ => 0, fun X junk Z hX hZ => ?_⟩
    have := key X junk hX
    rw [hg, hZ] at this
    cases this
  | ok t =>
    refine ⟨t.get, fun X junk Z hX hZ ix => ?_⟩
    have := key X junk hX
    rw [hg, hZ] at this
    cases this with
    | ok h => exact h.get ix

theorem eq_eq_ring : RingRel (fun a b : Flt α => a = b) where
  zero := rfl
  two := fun h => by rw [h]
  int := fun _ => rfl
  neg := fun h => by rw [h]
  add := fun h h' => by rw [h, h']
  sub := fun h h' => by rw [h, h']
  mul := fun h h' => by rw [h, h']

theorem eq_of_rel_eq {x y : Tensor (Flt α)} (h : x.Rel (fun a b => a = b) y) : x = y := ext_get h.shape fun ix _ => h.get ix

/-- only the settings of the padder count -/
theorem forwardFlt_indep (pool : SepPool α) {p q : Padder α} (hm : PlainModes p) (h : SameSettings p q) (junk : List Nat → Flt α) (X : Tensor (Flt α)) (ax : Axes) :
    (pool.forwardFlt (some p) junk X ax).2 = (pool.forwardFlt (some q) junk X ax).2 := by
  have hq : PlainModes q := fun i m hi => hm i m (by rw [h.modeAt]; exact hi)
  have h1 := rel_genForward (num := Flt.num) (junk := junk) (junk' := junk) eq_eq_ring (fun _ => rfl) pool (padder := some p) (fun p' e => by cases e; exact hm) (fun _ => rfl)
    (rel_of_get rfl rfl fun _ _ => rfl : X.Rel (fun a b => a = b) X) ax
  have h2 := rel_genForward (num := Flt.num) (junk := junk) (junk' := junk) eq_eq_ring (fun _ => rfl) pool (padder := some q) (fun p' e => by cases e; exact hq) (fun _ => rfl)
    (rel_of_get rfl rfl fun _ _ => rfl : X.Rel (fun a b => a = b) X) ax
  rw [genForward_indep Flt.num pool h] at h1
  rcases h1.cases with ⟨e, e1, e2⟩ | ⟨z, Z, e1, e2, e3⟩ <;> rcases h2.cases with ⟨e', f1, f2⟩ | ⟨z', Z', f1, f2, f3⟩
  · rw [e2, f2]
    rw [e1] at f1
    cases f1
    rfl
  · rw [e1] at f1
    cases f1
  · rw [e1] at f1
    cases f1
  · rw [e2, f2, ← eq_of_rel_eq e3, ← eq_of_rel_eq f3]
    rw [e1] at f1
    cases f1
    rfl

end

end TI
