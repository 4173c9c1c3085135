import Verif.Proofs.Reduce
import Verif.Proofs.PoolBuilt

/-!
# Computations with a padder, and the symmetry of SSIM
-/

set_option linter.unusedSectionVars false

namespace TI
open Tensor Spec

/-! ## running computations -/

namespace Run
variable {α β γ : Type}

theorem bind_ok {m : Run α β} {f : β → Run α γ} {p p' : Option (Padder α)} {b : β} (h : m p = (p', .ok b)) :
    (m >>= f) p = f b p' := by
  simp only [bind, h]

theorem bind_error {m : Run α β} {f : β → Run α γ} {p p' : Option (Padder α)} {e : Err} (h : m p = (p', .error e)) :
    (m >>= f) p = (p', .error e) := by
  simp only [bind, h]

theorem bind_inv {m : Run α β} {f : β → Run α γ} {p q : Option (Padder α)} {c : γ} (h : (m >>= f) p = (q, .ok c)) :
    ∃ p' b, m p = (p', .ok b) ∧ f b p' = (q, .ok c) := by
  rcases hm : m p with ⟨p', r⟩
  cases r with
  | error e => rw [bind_error hm] at h; cases h
  | ok b => exact ⟨p', b, rfl, (bind_ok (f := f) hm).symm.trans h⟩

theorem lift_bind (b : β) (f : β → Run α γ) : (Run.lift (.ok b) >>= f) = f b := rfl

theorem lift_bind_error (e : Err) (f : β → Run α γ) (p : Option (Padder α)) : (Run.lift (.error e) >>= f) p = (p, .error e) := rfl

theorem lift_inv {r : Except Err β} {f : β → Run α γ} {p q : Option (Padder α)} {c : γ} (h : (Run.lift r >>= f) p = (q, .ok c)) :
    ∃ b, r = .ok b ∧ f b p = (q, .ok c) := by
  cases r with
  | error e => rw [lift_bind_error] at h; cases h
  | ok b => exact ⟨b, rfl, h⟩

theorem lift_apply (r : Except Err β) (p : Option (Padder α)) : (Run.lift r : Run α β) p = (p, r) := rfl

theorem pure_apply (b : β) (p : Option (Padder α)) : (pure b : Run α β) p = (p, .ok b) := rfl

theorem pure_inv {b c : β} {p q : Option (Padder α)} (h : (pure b : Run α β) p = (q, .ok c)) : p = q ∧ b = c := by
  rw [pure_apply] at h
  simpa using h

theorem lift_apply_inv {r : Except Err β} {b : β} {p q : Option (Padder α)} (h : (Run.lift r : Run α β) p = (q, .ok b)) : p = q ∧ r = .ok b := by
  rw [lift_apply] at h
  simpa using h

end Run

/-! ## the order of operands -/

theorem zipWith_all_comm (f : Nat → Nat → Bool) (hf : ∀ a b, f a b = f b a) (s t : List Nat) :
    (List.zipWith f s t).all id = (List.zipWith f t s).all id := by
  congr 1
  exact List.zipWith_comm_of_comm hf

theorem bshape_comm (s t : List Nat) : bshape s t = bshape t s := by
  have hsym : ∀ a b : Nat, (a == b || a == 1 || b == 1) = (b == a || b == 1 || a == 1) := by
    intro a b
    rw [Bool.eq_iff_iff]
    simp only [Bool.or_eq_true, beq_iff_eq]
    constructor <;> rintro ((h | h) | h) <;> simp [h]
  have hval : ∀ u v : List Nat, (List.zipWith (fun a b : Nat => a == b || a == 1 || b == 1) u v).all id = true →
      List.zipWith (fun a b : Nat => if a = 1 then b else a) u v = List.zipWith (fun a b : Nat => if a = 1 then b else a) v u := by
    intro u
    induction u with
    | nil => intro v _; simp
    | cons a u ih =>
      intro v h
      cases v with
      | nil => simp
      | cons b v =>
        rw [List.zipWith_cons_cons, List.all_cons, Bool.and_eq_true] at h
        rw [List.zipWith_cons_cons, List.zipWith_cons_cons, ih v h.2]
        have h1 : a = b ∨ a = 1 ∨ b = 1 := by
          have := h.1
          simp only [id_eq, Bool.or_eq_true, beq_iff_eq] at this
          tauto
        congr 1
        split_ifs <;> omega
  simp only [bshape, Nat.max_comm t.length s.length]
  rw [zipWith_all_comm _ hsym (padOnes _ s) (padOnes _ t)]
  split_ifs with h
  · rw [hval _ _ h]
  · rfl

theorem bop_comm {α β γ : Type} [Zero α] [Zero β] {f : α → β → γ} {f' : β → α → γ} (h : ∀ a b, f a b = f' b a) (x : Tensor α) (y : Tensor β) :
    bop f x y = bop f' y x := by
  simp only [bop, bshape_comm x.shape y.shape]
  cases bshape y.shape x.shape with
  | none => rfl
  | some s => simp only [h]

/-! ## the blur depends on the settings of its padder only -/

variable {α : Type} [Field α] [LinearOrder α] [IsStrictOrderedRing α]

/-- both without padder, or padders with the same settings -/
def Alike : Option (Padder α) → Option (Padder α) → Prop
  | none, none => True
  | some p, some q => SameSettings p q
  | _, _ => False

theorem Alike.refl : ∀ p : Option (Padder α), Alike p p
  | none => trivial
  | some _ => ⟨rfl, rfl, rfl, rfl⟩

theorem Alike.symm : ∀ {p q : Option (Padder α)}, Alike p q → Alike q p
  | none, none, _ => trivial
  | some _, some _, h => SameSettings.symm h
  | none, some _, h => h.elim
  | some _, none, h => h.elim

theorem Alike.trans : ∀ {p q r : Option (Padder α)}, Alike p q → Alike q r → Alike p r
  | none, none, none, _, _ => trivial
  | some _, some _, some _, h, h' => SameSettings.trans h h'
  | none, some _, _, h, _ => h.elim
  | some _, none, _, h, _ => h.elim
  | none, none, some _, _, h => h.elim
  | some _, some _, none, _, h => h.elim

theorem pad_none_state (pool : SepPool α) (junk : List Nat → α) (x : Tensor α) (axes : Axes) :
    (SepPool.pad pool none junk x axes).1 = none := by
  rw [SepPool.pad]
  split <;> rfl

theorem forward_none_state (pool : SepPool α) (junk : List Nat → α) (x : Tensor α) (axes : Axes) :
    (SepPool.forward pool none junk x axes).1 = none := by
  rw [SepPool.forward]
  split
  · rfl
  · rename_i axes _
    split_ifs
    · have := pad_none_state pool junk x (.seq axes)
      split
      · rename_i hs; rw [hs] at this; exact this
      · rename_i hs; rw [hs] at this; exact this
    · rfl

theorem exclude_none_state (pool : SepPool α) (junk : List Nat → α) (x : Tensor α) (axes : Axes) :
    (SepPool.avgForwardExclude pool none junk x axes).1 = none := by
  rw [SepPool.avgForwardExclude]
  split
  · rfl
  · rename_i axes _
    simp only
    split
    · rfl
    · split_ifs
      · have := forward_none_state pool junk x (.seq axes)
        split
        · rename_i hs; rw [hs] at this; exact this
        · rename_i hs; rw [hs] at this; exact this
      · rfl

theorem exclude_state (pool : SepPool α) {p q : Padder α} (h : SameSettings p q) (junk : List Nat → α) (x : Tensor α) (axes : Axes) :
    ∀ y, (SepPool.avgForwardExclude pool (some p) junk x axes).2 = .ok y →
      (SepPool.avgForwardExclude pool (some p) junk x axes).1 = (SepPool.avgForwardExclude pool (some q) junk x axes).1 := by
  simp only [SepPool.avgForwardExclude]
  split
  · simp
  · rename_i axes _
    split
    · simp
    · split_ifs
      · obtain ⟨e1, e2⟩ := forward_indep pool h junk x (.seq axes)
        rcases hp : SepPool.forward pool (some p) junk x (.seq axes) with ⟨p', rp⟩
        rcases hq : SepPool.forward pool (some q) junk x (.seq axes) with ⟨q', rq⟩
        rw [hp, hq] at e1 e2
        simp only at e1 e2
        subst e1
        cases rp with
        | error e => simp
        | ok u =>
          have := e2 u rfl
          subst this
          intro y _
          rfl
      · simp

variable {s : SSIM α} {junk : List Nat → α} {axes : List Int} {p q : Option (Padder α)} {x y y1 y2 : Tensor α}

theorem blur_alike (s : SSIM α) (junk : List Nat → α) (x : Tensor α) (axes : List Int) (p : Option (Padder α)) :
    Alike (s.blur junk x axes p).1 p := by
  simp only [SSIM.blur]
  cases p with
  | none =>
    split_ifs
    · rw [exclude_none_state]; trivial
    · rw [forward_none_state]; trivial
  | some p =>
    split_ifs
    · obtain ⟨p', e, h⟩ := exclude_settings s.pool p junk x (.seq axes)
      rw [e]; exact h
    · obtain ⟨p', e, h⟩ := forward_settings s.pool p junk x (.seq axes)
      rw [e]; exact h

/-- if the blur returns, it returns the same with any padder of the same settings, and leaves the same padder -/
theorem blur_indep (h : Alike p q) {r : Option (Padder α)} (hb : s.blur junk x axes p = (r, .ok y)) : s.blur junk x axes q = (r, .ok y) := by
  cases p with
  | none =>
    cases q with
    | none => exact hb
    | some q => exact h.elim
  | some p =>
    cases q with
    | none => exact h.elim
    | some q =>
      have h : SameSettings p q := h
      simp only [SSIM.blur] at hb ⊢
      split_ifs at hb ⊢
      · have h1 := exclude_indep s.pool h junk x (.seq axes)
        have h2 := exclude_state s.pool h junk x (.seq axes) y (by rw [hb])
        rw [hb] at h1 h2
        exact Prod.ext h2.symm h1.symm
      · obtain ⟨h1, h2⟩ := forward_indep s.pool h junk x (.seq axes)
        have h2 := h2 y (by rw [hb])
        rw [hb] at h1 h2
        exact Prod.ext h2.symm h1.symm

theorem blur_move {r r' : Option (Padder α)} (h : Alike r p) (hb : s.blur junk x axes r = (r', .ok y)) (hq : Alike q p) :
    s.blur junk x axes q = (r', .ok y) ∧ Alike r' p := by
  have h1 := blur_indep (h.trans hq.symm) hb
  refine ⟨h1, ?_⟩
  have := blur_alike s junk x axes q
  rw [h1] at this
  exact this.trans hq

namespace SSIM

/-- the moments with the images exchanged -/
def Moments.swap (m : Moments α) : Moments α := ⟨m.mu2Sq, m.mu1Sq, m.mu12, m.sigma2Sq, m.sigma1Sq, m.sigma12⟩

theorem muSigma_swap {m : Moments α} (h : s.muSigma junk y1 y2 axes p = (q, .ok m)) :
    s.muSigma junk y2 y1 axes p = (q, .ok m.swap) := by
  simp only [muSigma] at h ⊢
  obtain ⟨p1, mu1, e1, h⟩ := Run.bind_inv h
  obtain ⟨p2, mu2, e2, h⟩ := Run.bind_inv h
  obtain ⟨mu12, e3, h⟩ := Run.lift_inv h
  obtain ⟨y11, e4, h⟩ := Run.lift_inv h
  obtain ⟨p3, b1, e5, h⟩ := Run.bind_inv h
  obtain ⟨s1, e6, h⟩ := Run.lift_inv h
  obtain ⟨y22, e7, h⟩ := Run.lift_inv h
  obtain ⟨p4, b2, e8, h⟩ := Run.bind_inv h
  obtain ⟨s2, e9, h⟩ := Run.lift_inv h
  obtain ⟨y12, e10, h⟩ := Run.lift_inv h
  obtain ⟨p5, b12, e11, h⟩ := Run.bind_inv h
  obtain ⟨s12, e12, h⟩ := Run.lift_inv h
  obtain ⟨c, e13, h⟩ := Run.lift_inv h
  obtain ⟨rfl, rfl⟩ := Run.pure_inv h
  have a0 := Alike.refl p
  obtain ⟨-, a1⟩ := blur_move a0 e1 a0
  obtain ⟨f2, a2⟩ := blur_move a1 e2 a0
  obtain ⟨f1, a1'⟩ := blur_move a0 e1 a2
  obtain ⟨-, a3⟩ := blur_move a2 e5 a0
  obtain ⟨f8, a4⟩ := blur_move a3 e8 a1'
  obtain ⟨f5, a5⟩ := blur_move a2 e5 a4
  obtain ⟨f11, -⟩ := blur_move a4 e11 a5
  rw [bop_comm (f' := fun a b : α => a * b) (fun a b => mul_comm a b) y1 y2] at e10
  rw [bop_comm (f' := fun a b : α => a * b) (fun a b => mul_comm a b) mu1 mu2] at e3
  rw [Run.bind_ok f2, Run.bind_ok f1, e3, Run.lift_bind, e7, Run.lift_bind, Run.bind_ok f8, e9, Run.lift_bind, e4, Run.lift_bind,
    Run.bind_ok f5, e6, Run.lift_bind, e10, Run.lift_bind, Run.bind_ok f11, e12, Run.lift_bind, e13, Run.lift_bind]
  rfl

theorem addPlus_comm (a b : Tensor α) (c : α) : addPlus a b c = addPlus b a c := by
  rw [addPlus, addPlus, bop_comm (f' := fun a b : α => a + b) (fun a b => add_comm a b) a b]

theorem combine_swap (s : SSIM α) (m : Moments α) : s.combine m.swap = s.combine m := by
  simp only [combine, Moments.swap, addPlus_comm m.mu2Sq, addPlus_comm m.sigma2Sq]

theorem ssimFull_swap {f : Tensor α} (h : s.ssimFull junk y1 y2 axes p = (q, .ok f)) : s.ssimFull junk y2 y1 axes p = (q, .ok f) := by
  simp only [ssimFull] at h ⊢
  obtain ⟨p1, m, e1, h⟩ := Run.bind_inv h
  obtain ⟨rfl, e2⟩ := Run.lift_apply_inv h
  rw [Run.bind_ok (muSigma_swap e1), combine_swap, e2]
  rfl

theorem csFull_swap {f : Tensor α} (h : s.csFull junk y1 y2 axes p = (q, .ok f)) : s.csFull junk y2 y1 axes p = (q, .ok f) := by
  simp only [csFull] at h ⊢
  obtain ⟨p1, m, e1, h⟩ := Run.bind_inv h
  obtain ⟨d, e2, h⟩ := Run.lift_inv h
  obtain ⟨rfl, e3⟩ := Run.lift_apply_inv h
  rw [Run.bind_ok (muSigma_swap e1)]
  simp only [Moments.swap]
  rw [addPlus_comm, e2, Run.lift_bind, e3]
  rfl

end SSIM

end TI
