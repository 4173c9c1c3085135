import Verif.Proofs.IdxCongr
import Verif.Model.Alias

/-!
# The 1-d padding functions write into the tensor and keep its shape, whatever they are called with
-/

namespace TI
open Tensor

set_option linter.unusedSectionVars false
variable {α : Type}

/-- a returned tensor has the shape `S` -/
def Keeps (S : List Nat) (r : Except Err (Tensor α)) : Prop := ∀ y, r = .ok y → y.shape = S

section
variable {S : List Nat}

theorem keeps_ok {x : Tensor α} (h : x.shape = S) : Keeps S (.ok x) := by
  intro y hy; cases hy; exact h

theorem keeps_pure {x : Tensor α} (h : x.shape = S) : Keeps S (pure x) := keeps_ok h

theorem keeps_error (e : Err) : Keeps S (.error e : Except Err (Tensor α)) := by
  intro y hy; cases hy

theorem keeps_set [Zero α] {x v : Tensor α} {sl : List PySlice} (h : x.shape = S) : Keeps S (x.setSlice sl v) := by
  intro y hy; rw [setSlice_shape hy, h]

theorem keeps_bind {r : Except Err (Tensor α)} {k : Tensor α → Except Err (Tensor α)} (h : Keeps S r)
    (hk : ∀ y, y.shape = S → Keeps S (k y)) : Keeps S (r >>= k) := by
  cases r with
  | error e => exact keeps_error e
  | ok x => exact hk x (h x rfl)

theorem keeps_any {β : Type} {r : Except Err β} {k : β → Except Err (Tensor α)} (hk : ∀ b, Keeps S (k b)) : Keeps S (r >>= k) := by
  cases r with
  | error e => exact keeps_error e
  | ok b => exact hk b

theorem keeps_ite {c : Prop} [Decidable c] {r s : Except Err (Tensor α)} (h1 : Keeps S r) (h2 : Keeps S s) : Keeps S (if c then r else s) := by
  split_ifs <;> assumption

end

section Zero
variable [Zero α] {S : List Nat} {f : PySlice → List PySlice}

theorem replicate1d_keeps {x : Tensor α} (h : x.shape = S) (idx : List PySlice) (d : Nat) : Keeps S (replicate1d x idx d) :=
  keeps_any fun _ => keeps_bind (keeps_ite (keeps_set h) (keeps_pure h)) fun _ hy => keeps_ite (keeps_set hy) (keeps_pure hy)

theorem circularBefore_keeps (tail length : Int) : ∀ fuel (x : Tensor α) curr, x.shape = S →
    Keeps S (circularBefore f tail length fuel x curr)
  | 0, x, curr, h => by unfold circularBefore; exact keeps_ite (keeps_error _) (keeps_ok h)
  | fuel + 1, x, curr, h => by
    unfold circularBefore
    exact keeps_ite (keeps_bind (keeps_set h) fun y hy => circularBefore_keeps tail length fuel y _ hy) (keeps_ok h)

theorem circularAfter_keeps (d : Nat) (head length : Int) : ∀ fuel (x : Tensor α) curr, x.shape = S →
    Keeps S (circularAfter f d head length fuel x curr)
  | 0, x, curr, h => by unfold circularAfter; exact keeps_ite (keeps_error _) (keeps_ok h)
  | fuel + 1, x, curr, h => by
    unfold circularAfter
    exact keeps_ite (keeps_bind (keeps_set h) fun y hy => circularAfter_keeps d head length fuel y _ hy) (keeps_ok h)

theorem circular1d_keeps (fuel : Nat) {x : Tensor α} (h : x.shape = S) (idx : List PySlice) (d : Nat) : Keeps S (circular1d fuel x idx d) :=
  keeps_any fun _ => keeps_ite (replicate1d_keeps h idx d)
    (keeps_bind (circularBefore_keeps _ _ _ _ _ h) fun _ hy => circularAfter_keeps _ _ _ _ _ _ hy)

theorem periodize1d_keeps (fuel : Nat) {x : Tensor α} (h : x.shape = S) (idx : List PySlice) (d : Nat) : Keeps S (periodize1d fuel x idx d) :=
  keeps_any fun _ => keeps_ite (circular1d_keeps fuel h idx d) (keeps_bind (keeps_set h) fun _ hy => circular1d_keeps fuel hy _ d)

end Zero

section Ring
variable [Ring α] {S : List Nat} {f g : PySlice → List PySlice} {h : Tensor α → Tensor α}

theorem mirrorBefore_keeps (d : Nat) (cache : Option (Tensor α)) (o tail length lenFlip : Int) : ∀ fuel (x : Tensor α) curr flip, x.shape = S →
    Keeps S (mirrorBefore f g h d cache o tail length lenFlip fuel x curr flip)
  | 0, x, curr, fl, hx => by unfold mirrorBefore; exact keeps_ite (keeps_error _) (keeps_ok hx)
  | fuel + 1, x, curr, fl, hx => by
    unfold mirrorBefore
    exact keeps_ite (keeps_bind (keeps_set hx) fun y hy => mirrorBefore_keeps d cache o tail length lenFlip fuel y _ _ hy) (keeps_ok hx)

theorem mirrorAfter_keeps (d : Nat) (cache : Option (Tensor α)) (o head length lenFlip : Int) : ∀ fuel (x : Tensor α) curr flip, x.shape = S →
    Keeps S (mirrorAfter f g h d cache o head length lenFlip fuel x curr flip)
  | 0, x, curr, fl, hx => by unfold mirrorAfter; exact keeps_ite (keeps_error _) (keeps_ok hx)
  | fuel + 1, x, curr, fl, hx => by
    unfold mirrorAfter
    exact keeps_ite (keeps_bind (keeps_set hx) fun y hy => mirrorAfter_keeps d cache o head length lenFlip fuel y _ _ hy) (keeps_ok hx)

theorem symmetric1d_keeps (np : Bool) (fuel : Nat) (negate : Bool) {x : Tensor α} (hx : x.shape = S) (idx : List PySlice) (d : Nat) :
    Keeps S (symmetric1d np fuel negate x idx d) :=
  keeps_any fun _ => keeps_ite (replicate1d_keeps hx idx d) (keeps_any fun _ =>
    keeps_bind (mirrorBefore_keeps _ _ _ _ _ _ _ _ _ _ hx) fun _ hy => mirrorAfter_keeps _ _ _ _ _ _ _ _ _ _ hy)

theorem reflect1d_keeps (np : Bool) (fuel : Nat) {x : Tensor α} (hx : x.shape = S) (idx : List PySlice) (d : Nat) :
    Keeps S (reflect1d np fuel x idx d) :=
  keeps_any fun _ => keeps_ite (replicate1d_keeps hx idx d) (keeps_ite (circular1d_keeps fuel hx idx d) (keeps_any fun _ =>
    keeps_bind (mirrorBefore_keeps _ _ _ _ _ _ _ _ _ _ hx) fun _ hy => mirrorAfter_keeps _ _ _ _ _ _ _ _ _ _ hy))

theorem oddBefore_keeps (d : Nat) (o length : Int) : ∀ fuel (x : Tensor α) curr, x.shape = S →
    Keeps S (oddBefore f d o length fuel x curr)
  | 0, x, curr, hx => by unfold oddBefore; exact keeps_ite (keeps_error _) (keeps_ok hx)
  | fuel + 1, x, curr, hx => by
    unfold oddBefore
    exact keeps_ite (keeps_any fun _ => keeps_bind (keeps_set hx) fun y hy => oddBefore_keeps d o length fuel y _ hy) (keeps_ok hx)

theorem oddAfter_keeps (d : Nat) (o length : Int) : ∀ fuel (x : Tensor α) curr, x.shape = S →
    Keeps S (oddAfter f d o length fuel x curr)
  | 0, x, curr, hx => by unfold oddAfter; exact keeps_ite (keeps_error _) (keeps_ok hx)
  | fuel + 1, x, curr, hx => by
    unfold oddAfter
    exact keeps_ite (keeps_any fun _ => keeps_bind (keeps_set hx) fun y hy => oddAfter_keeps d o length fuel y _ hy) (keeps_ok hx)

theorem oddSymmetric1d_keeps (fuel : Nat) {x : Tensor α} (hx : x.shape = S) (idx : List PySlice) (d : Nat) :
    Keeps S (oddSymmetric1d fuel x idx d) :=
  keeps_any fun _ => keeps_bind (oddBefore_keeps _ _ _ _ _ _ hx) fun _ hy => oddAfter_keeps _ _ _ _ _ _ hy

theorem oddReflect1d_keeps (fuel : Nat) {x : Tensor α} (hx : x.shape = S) (idx : List PySlice) (d : Nat) :
    Keeps S (oddReflect1d fuel x idx d) :=
  keeps_any fun _ => keeps_ite (replicate1d_keeps hx idx d)
    (keeps_bind (oddBefore_keeps _ _ _ _ _ _ hx) fun _ hy => oddAfter_keeps _ _ _ _ _ _ hy)

theorem smooth1d_keeps {x : Tensor α} (hx : x.shape = S) (idx : List PySlice) (d : Nat) : Keeps S (smooth1d x idx d) :=
  keeps_any fun _ => keeps_ite (replicate1d_keeps hx idx d)
    (keeps_bind (keeps_ite (keeps_any fun _ => keeps_any fun _ => keeps_any fun _ => keeps_set hx) (keeps_pure hx)) fun _ hy =>
      keeps_ite (keeps_any fun _ => keeps_any fun _ => keeps_any fun _ => keeps_set hy) (keeps_pure hy))

theorem constant1d_keeps (b a : α) {x : Tensor α} (hx : x.shape = S) (idx : List PySlice) (d : Nat) : Keeps S (constant1d b a x idx d) :=
  keeps_any fun _ => keeps_bind (keeps_ite (keeps_set hx) (keeps_pure hx)) fun _ hy => keeps_ite (keeps_set hy) (keeps_pure hy)

end Ring

section Field
variable [Field α] [LinearOrder α] {S : List Nat}

theorem linearRamp1d_keeps (b a : α) {x : Tensor α} (hx : x.shape = S) (idx : List PySlice) (d : Nat) :
    Keeps S (linearRamp1d b a x idx d) :=
  keeps_any fun _ => keeps_bind (keeps_ite (keeps_any fun _ => keeps_set hx) (keeps_pure hx)) fun _ hy =>
    keeps_ite (keeps_any fun _ => keeps_set hy) (keeps_pure hy)

theorem stat1d_keeps (s : Stat) (b a : Option Int) {x : Tensor α} (hx : x.shape = S) (idx : List PySlice) (d : Nat) :
    Keeps S (stat1d s b a x idx d) := by
  refine keeps_any fun _ => keeps_bind (keeps_ite ?_ (keeps_pure hx)) fun _ hy => keeps_bind (keeps_ite ?_ (keeps_pure hy)) fun _ hz =>
    keeps_ite ?_ (keeps_pure hz)
  · exact keeps_any fun _ => keeps_bind (keeps_set hx) fun _ h => keeps_set h
  · cases b <;> exact keeps_any fun _ => keeps_set hy
  · cases a <;> exact keeps_any fun _ => keeps_set hz

/-- the modes of a padder other than functions given by the user -/
def Mode.named : Mode α → Bool
  | .custom _ => false
  | _ => true

theorem runMode_keeps (p : Padder α) (np : Bool) (i : Int) {mode : Mode α} (hm : mode.named = true) {y : Tensor α} (hy : y.shape = S)
    (idx : List PySlice) (d : Nat) : Keeps S (p.runMode np i mode y idx d) := by
  cases mode with
  | replicate => exact replicate1d_keeps hy idx d
  | smooth => exact smooth1d_keeps hy idx d
  | circular => exact circular1d_keeps _ hy idx d
  | periodize => exact periodize1d_keeps _ hy idx d
  | symmetric => exact symmetric1d_keeps np _ _ hy idx d
  | reflect => exact reflect1d_keeps np _ hy idx d
  | antisymmetric => exact symmetric1d_keeps np _ _ hy idx d
  | oddReflect => exact oddReflect1d_keeps _ hy idx d
  | oddSymmetric => exact oddSymmetric1d_keeps _ hy idx d
  | stat s => exact keeps_any fun _ => stat1d_keeps s _ _ hy idx d
  | constant => exact keeps_any fun _ => constant1d_keeps _ _ hy idx d
  | linearRamp => exact keeps_any fun _ => linearRamp1d_keeps _ _ hy idx d
  | zeros => exact keeps_ok hy
  | empty => exact keeps_ok hy
  | unknown => exact keeps_error _
  | custom f => cases hm

/-- no function given by the user is called -/
def Padder.Named (p : Padder α) : Prop := ∀ i mode, p.modeAt i = .ok mode → mode.named = true

theorem fillTail_keeps {p : Padder α} (np : Bool) {mode : Mode α} (hm : mode.named = true) {y : Tensor α} (hy : y.shape = S) (i axis : Int)
    (pw : Int × Int) (idx : List PySlice) {r : Tensor α × Option (List PySlice)}
    (h : (do
      let a ← Padder.axisNat y.ndim axis
      let z ← p.runMode np i mode y idx a
      let w ← Padder.widen mode pw idx a
      return (z, some w) : Except Err (Tensor α × Option (List PySlice))) = .ok r) : r.1.shape = S := by
  cases e3 : Padder.axisNat y.ndim axis with
  | error e => simp [e3, bind, Except.bind] at h
  | ok a =>
    cases e4 : p.runMode np i mode y idx a with
    | error e => simp [e3, e4, bind, Except.bind] at h
    | ok z =>
      cases e5 : Padder.widen mode pw idx a with
      | error e => simp [e3, e4, e5, bind, Except.bind] at h
      | ok w =>
        simp only [e3, e4, e5, bind, Except.bind, pure, Except.pure] at h
        cases h
        exact runMode_keeps p np i hm hy idx a z e4

theorem fillValue1d_keeps {p : Padder α} (hp : p.Named) (np : Bool) {y : Tensor α} (hy : y.shape = S) (i axis : Int) (idx : Option (List PySlice))
    {r : Tensor α × Option (List PySlice)} (h : p.fillValue1d np y i axis idx = .ok r) : r.1.shape = S := by
  rw [Padder.fillValue1d] at h
  cases e1 : Padder.pairAt p.padWidth i with
  | error e => simp [e1, bind, Except.bind] at h
  | ok pw =>
    rw [e1, show ∀ (f : Int × Int → Except Err (Tensor α × Option (List PySlice))), ((.ok pw : Except Err (Int × Int)) >>= f) = f pw from fun _ => rfl] at h
    by_cases h0 : pw.1 = 0 ∧ pw.2 = 0
    · rw [if_pos h0] at h
      cases h; exact hy
    · rw [if_neg h0] at h
      cases e2 : p.modeAt i with
      | error e => simp [e2, bind, Except.bind] at h
      | ok mode =>
        have hm := hp i mode e2
        rw [e2, show ∀ (f : Mode α → Except Err (Tensor α × Option (List PySlice))), ((.ok mode : Except Err (Mode α)) >>= f) = f mode from fun _ => rfl] at h
        cases idx with
        | none => cases mode <;> cases h <;> exact hy
        | some idx =>
          cases mode with
          | empty => cases h; exact hy
          | zeros => cases h; exact hy
          | unknown => cases h
          | _ => exact fillTail_keeps np hm hy i axis pw idx h

theorem fillLoop_keeps {p : Padder α} (hp : p.Named) (axes : List Int) : ∀ (is : List Int) (y : Tensor α) (idx : Option (List PySlice)),
    y.shape = S → Keeps S (p.fillLoop axes is y idx)
  | [], y, idx, hy => keeps_ok hy
  | i :: is, y, idx, hy => by
    rw [Padder.fillLoop]
    refine keeps_any fun a => ?_
    intro z hz
    cases e : p.fillValue1d true y i a idx with
    | error e' => simp [e, bind, Except.bind] at hz
    | ok r =>
      simp only [e, bind, Except.bind] at hz
      exact fillLoop_keeps hp axes is r.1 r.2 (fillValue1d_keeps hp true hy i a idx e) z hz

/-- what a successful `forward` has computed: the argument itself, or a tensor of the widened shape -/
theorem forward_shape_any {p : Padder α} (hp : p.Named) {junk : List Nat → α} {x y : Tensor α} {ax : Axes} (h : p.forward junk x ax = .ok y) :
    p.returnsArg x ax = true ∧ y = x ∨ p.returnsArg x ax = false ∧ y.shape ≠ x.shape := by
  by_cases h0 : x.ndim = 0
  · simp [Padder.forward, h0, bind, Except.bind] at h
  simp only [Padder.forward, Padder.returnsArg, if_neg h0] at h ⊢
  cases e1 : checkAxes x.ndim ax with
  | error e => simp [e1, bind, Except.bind] at h
  | ok axes =>
    simp only [e1, bind, Except.bind, pure, Except.pure] at h ⊢
    by_cases h1 : axes = []
    · simp only [if_pos h1] at h ⊢
      cases h; exact Or.inl ⟨trivial, rfl⟩
    · simp only [if_neg h1] at h ⊢
      cases e2 : p.accLoop x.shape axes (Padder.negRange (p.nPadded axes)) (x.shape.map fun _ => (0 : Int), x.shape.map fun _ => (0 : Int)) with
      | error e => simp only [e2] at h; cases h
      | ok v =>
        obtain ⟨hv, av⟩ := v
        simp only [e2] at h ⊢
        split_ifs at h with h2 h3
        · cases h
          exact Or.inl ⟨decide_eq_true h2, rfl⟩
        · right
          refine ⟨decide_eq_false h2, ?_⟩
          generalize List.zipWith (fun (t a : Int) => t + a) (List.zipWith (fun (h : Int) (n : Nat) => h + (n : Int)) hv x.shape) av = V at *
          cases e3 : (Tensor.empty junk (V.map Int.toNat)).setSlice
              (List.zipWith PySlice.between hv (List.zipWith (fun (h : Int) (n : Nat) => h + (n : Int)) hv x.shape)) x with
          | error e => simp [e3] at h
          | ok z =>
            simp only [e3] at h
            have hz := setSlice_shape e3
            have hy := fillLoop_keeps hp axes _ z _ rfl y h
            rw [hy, hz]
            intro hc
            apply h2
            have hc' : V.map Int.toNat = x.shape := hc
            rw [← hc', List.map_map]
            have h3' : ∀ v ∈ V, ¬ v < 0 := by simpa using h3
            symm
            conv_rhs => rw [← List.map_id V]
            apply List.map_congr_left
            intro v hv
            have := h3' v hv
            simp only [Function.comp, id]
            omega

end Field

end TI
