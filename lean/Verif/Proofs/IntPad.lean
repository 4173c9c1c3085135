import Verif.Model.IntPad
import Verif.Proofs.TensorLemmas
import Mathlib.Tactic.Ring

/-!
# Two runs of the padding functions on related buffers

`Tensor.Rel R` relates tensors of the same shape with `R`-related entries.  The padding functions that copy entries keep every such
relation, those that add, subtract and multiply keep every relation compatible with these operations.
-/

namespace TI
open Tensor

variable {α β γ δ α' β' γ' : Type}

/-- same exception, or related results -/
inductive ExRel (P : γ → δ → Prop) : Except Err γ → Except Err δ → Prop
  | ok {a : γ} {b : δ} (h : P a b) : ExRel P (.ok a) (.ok b)
  | error (e : Err) : ExRel P (.error e) (.error e)

theorem ExRel.bind {γ' δ' : Type} {P : γ → δ → Prop} {Q : γ' → δ' → Prop} {a : Except Err γ} {b : Except Err δ} {f : γ → Except Err γ'} {g : δ → Except Err δ'}
    (h : ExRel P a b) (hf : ∀ x y, P x y → ExRel Q (f x) (g y)) : ExRel Q (a >>= f) (b >>= g) := by
  cases h with
  | ok h => exact hf _ _ h
  | error e => exact .error e

theorem ExRel.bind_same {γ' δ' : Type} {Q : γ' → δ' → Prop} (a : Except Err γ) {f : γ → Except Err γ'} {g : γ → Except Err δ'}
    (hf : ∀ x, a = .ok x → ExRel Q (f x) (g x)) : ExRel Q (a >>= f) (a >>= g) := by
  cases a with
  | ok x => exact hf x rfl
  | error e => exact .error e

theorem ExRel.ite {P : γ → δ → Prop} {c c' : Prop} [Decidable c] [Decidable c'] {a a' : Except Err γ} {b b' : Except Err δ} (hc : c ↔ c')
    (h : c → ExRel P a b) (h' : ¬ c → ExRel P a' b') : ExRel P (if c then a else a') (if c' then b else b') := by
  by_cases hh : c
  · rw [if_pos hh, if_pos (hc.1 hh)]; exact h hh
  · rw [if_neg hh, if_neg (mt hc.2 hh)]; exact h' hh

theorem ExRel.cases {P : γ → δ → Prop} {a : Except Err γ} {b : Except Err δ} (h : ExRel P a b) :
    (∃ e, a = .error e ∧ b = .error e) ∨ ∃ x y, a = .ok x ∧ b = .ok y ∧ P x y := by
  cases h with
  | ok h => exact Or.inr ⟨_, _, rfl, rfl, h⟩
  | error e => exact Or.inl ⟨e, rfl, rfl⟩

theorem ExRel.imp {P Q : γ → δ → Prop} {a : Except Err γ} {b : Except Err δ} (h : ExRel P a b) (hi : ∀ x y, P x y → Q x y) : ExRel Q a b := by
  cases h with
  | ok h => exact .ok (hi _ _ h)
  | error e => exact .error e

section
variable [Zero α] [Zero β]

/-- same shape, related entries -/
structure Tensor.Rel (R : α → β → Prop) (x : Tensor α) (y : Tensor β) : Prop where
  shape : x.shape = y.shape
  entry : ∀ n, R (x.data.getD n 0) (y.data.getD n 0)

variable {R : α → β → Prop}

theorem Tensor.Rel.get {x : Tensor α} {y : Tensor β} (h : x.Rel R y) (ix : List Nat) : R (x.get ix) (y.get ix) := by
  rw [Tensor.get, Tensor.get, h.shape]; exact h.entry _

theorem Tensor.Rel.ndim {x : Tensor α} {y : Tensor β} (h : x.Rel R y) : x.ndim = y.ndim := by rw [Tensor.ndim, Tensor.ndim, h.shape]

theorem rel_ofFn (h0 : R 0 0) {s s' : List Nat} (hs : s = s') {f : List Nat → α} {g : List Nat → β} (h : ∀ ix, InB s ix → R (f ix) (g ix)) :
    (ofFn s f).Rel R (ofFn s' g) := by
  subst hs
  refine ⟨rfl, fun n => ?_⟩
  simp only [ofFn, List.getD_eq_getElem?_getD, List.getElem?_map]
  cases hn : (indices s)[n]? with
  | none => exact h0
  | some ix => exact h ix (mem_indices.1 (List.mem_of_getElem? hn))

theorem rel_of_get (h0 : R 0 0) {x : Tensor α} {y : Tensor β} (hs : x.shape = y.shape) (h : ∀ ix, InB x.shape ix → R (x.get ix) (y.get ix)) : x.Rel R y := by
  rw [eq_ofFn_get x, eq_ofFn_get y]
  exact rel_ofFn h0 hs h

theorem rel_scalar (h0 : R 0 0) {a : α} {b : β} (h : R a b) : (scalar a).Rel R (scalar b) :=
  rel_of_get h0 rfl fun ix _ => by simpa using h

theorem Tensor.Rel.map [Zero α'] [Zero β'] {R' : α' → β' → Prop} (h0 : R' 0 0) {x : Tensor α} {y : Tensor β} (h : x.Rel R y) {f : α → α'} {g : β → β'}
    (hf : ∀ a b, R a b → R' (f a) (g b)) : (x.map f).Rel R' (y.map g) := by
  refine rel_of_get h0 h.shape fun ix hix => ?_
  have hix : InB x.shape ix := hix
  rw [get_map _ _ hix, get_map _ _ (h.shape ▸ hix)]
  exact hf _ _ (h.get ix)

theorem Tensor.Rel.getSlice (h0 : R 0 0) {x : Tensor α} {y : Tensor β} (h : x.Rel R y) (sl : List PySlice) : (x.getSlice sl).Rel R (y.getSlice sl) := by
  simp only [Tensor.getSlice, h.shape]
  exact rel_ofFn h0 rfl fun ix _ => h.get _

theorem Tensor.Rel.flip (h0 : R 0 0) {x : Tensor α} {y : Tensor β} (h : x.Rel R y) (d : Nat) : (x.flip d).Rel R (y.flip d) := by
  simp only [Tensor.flip, h.shape]
  exact rel_ofFn h0 rfl fun ix _ => h.get _

theorem Tensor.Rel.setSlice (h0 : R 0 0) {x v : Tensor α} {y w : Tensor β} (h : x.Rel R y) (hv : v.Rel R w) (sl : List PySlice) :
    ExRel (Tensor.Rel R) (x.setSlice sl v) (y.setSlice sl w) := by
  simp only [Tensor.setSlice, h.shape, hv.shape]
  refine .ite Iff.rfl (fun _ => .ok (rel_ofFn h0 rfl fun ix _ => ?_)) fun _ => .error _
  cases rngInv (resolveAll sl y.shape) ix with
  | none => exact h.get _
  | some jx => exact hv.get _

theorem Tensor.Rel.bop [Zero α'] [Zero β'] [Zero γ] [Zero γ'] {R' : α' → β' → Prop} {S : γ → γ' → Prop} (h0 : S 0 0) {x : Tensor α} {y : Tensor β} {x' : Tensor α'} {y' : Tensor β'}
    (h : x.Rel R y) (h' : x'.Rel R' y') {f : α → α' → γ} {g : β → β' → γ'} (hf : ∀ a b a' b', R a b → R' a' b' → S (f a a') (g b b')) :
    ExRel (Tensor.Rel S) (Tensor.bop f x x') (Tensor.bop g y y') := by
  simp only [Tensor.bop, h.shape, h'.shape]
  cases bshape y.shape y'.shape with
  | none => exact .error _
  | some s => exact .ok (rel_ofFn h0 rfl fun ix _ => hf _ _ _ _ (h.get _) (h'.get _))

theorem rel_column {l : List α} {m : List β} (hl : l.length = m.length) (h : ∀ n, R (l.getD n 0) (m.getD n 0)) (k : Nat) : (column l k).Rel R (column m k) :=
  ⟨by simp [column, hl], h⟩

/-! ### copying modes -/

theorem rel_replicate1d (h0 : R 0 0) {x : Tensor α} {y : Tensor β} (h : x.Rel R y) (idx : List PySlice) (dim : Nat) :
    ExRel (Tensor.Rel R) (replicate1d x idx dim) (replicate1d y idx dim) := by
  unfold replicate1d
  refine .bind_same _ fun ⟨head, tail⟩ _ => ?_
  refine .bind (P := Tensor.Rel R) (.ite Iff.rfl (fun _ => h.setSlice h0 (h.getSlice h0 _) _) fun _ => .ok h) fun x y h => ?_
  exact .ite (by rw [h.shape]) (fun _ => h.setSlice h0 (h.getSlice h0 _) _) fun _ => .ok h

theorem rel_circularBefore (h0 : R 0 0) (f : PySlice → List PySlice) (tail length : Int) : ∀ (fuel : Nat) {x : Tensor α} {y : Tensor β} (curr : Int), x.Rel R y →
    ExRel (Tensor.Rel R) (circularBefore f tail length fuel x curr) (circularBefore f tail length fuel y curr)
  | 0, x, y, curr, h => by
    unfold circularBefore
    exact .ite Iff.rfl (fun _ => .error _) fun _ => .ok h
  | fuel + 1, x, y, curr, h => by
    unfold circularBefore
    refine .ite Iff.rfl (fun _ => ?_) fun _ => .ok h
    exact .bind (h.setSlice h0 (h.getSlice h0 _) _) fun x y h => rel_circularBefore h0 f tail length fuel _ h

theorem rel_circularAfter (h0 : R 0 0) (f : PySlice → List PySlice) (dim : Nat) (head length : Int) : ∀ (fuel : Nat) {x : Tensor α} {y : Tensor β} (curr : Int), x.Rel R y →
    ExRel (Tensor.Rel R) (circularAfter f dim head length fuel x curr) (circularAfter f dim head length fuel y curr)
  | 0, x, y, curr, h => by
    unfold circularAfter
    exact .ite (by rw [h.shape]) (fun _ => .error _) fun _ => .ok h
  | fuel + 1, x, y, curr, h => by
    unfold circularAfter
    refine .ite (by rw [h.shape]) (fun _ => ?_) fun _ => .ok h
    simp only [h.shape]
    exact .bind (h.setSlice h0 (h.getSlice h0 _) _) fun x y h => rel_circularAfter h0 f dim head length fuel _ h

theorem rel_circular1d (h0 : R 0 0) (fuel : Nat) {x : Tensor α} {y : Tensor β} (h : x.Rel R y) (idx : List PySlice) (dim : Nat) :
    ExRel (Tensor.Rel R) (circular1d fuel x idx dim) (circular1d fuel y idx dim) := by
  unfold circular1d
  refine .bind_same _ fun ⟨head, tail⟩ _ => ?_
  refine .ite Iff.rfl (fun _ => rel_replicate1d h0 h _ _) fun _ => ?_
  exact .bind (rel_circularBefore h0 _ _ _ _ _ h) fun x y h => rel_circularAfter h0 _ _ _ _ _ _ h

theorem rel_periodize1d (h0 : R 0 0) (fuel : Nat) {x : Tensor α} {y : Tensor β} (h : x.Rel R y) (idx : List PySlice) (dim : Nat) :
    ExRel (Tensor.Rel R) (periodize1d fuel x idx dim) (periodize1d fuel y idx dim) := by
  unfold periodize1d
  refine .bind_same _ fun ⟨head, tail⟩ _ => ?_
  refine .ite Iff.rfl (fun _ => rel_circular1d h0 _ h _ _) fun _ => ?_
  exact .bind (h.setSlice h0 (h.getSlice h0 _) _) fun x y h => rel_circular1d h0 _ h _ _

end

section
variable [Zero α] [Zero β] {R : α → β → Prop}

/-- related caches -/
def OptRel (P : γ → δ → Prop) : Option γ → Option δ → Prop
  | none, none => True
  | some a, some b => P a b
  | _, _ => False

theorem rel_cachedOr (h0 : R 0 0) {c : Option (Tensor α)} {c' : Option (Tensor β)} (hc : OptRel (Tensor.Rel R) c c') (sl : List PySlice) {x : Tensor α} {y : Tensor β}
    (h : x.Rel R y) : (cachedOr c sl x).Rel R (cachedOr c' sl y) := by
  cases c with
  | none => cases c' with
    | none => exact h
    | some _ => exact hc.elim
  | some a => cases c' with
    | none => exact hc.elim
    | some b => exact Tensor.Rel.getSlice h0 hc sl

theorem rel_mirrorBefore (h0 : R 0 0) (f g : PySlice → List PySlice) {k : Tensor α → Tensor α} {k' : Tensor β → Tensor β} (hk : ∀ x y, x.Rel R y → (k x).Rel R (k' y)) (dim : Nat)
    {c : Option (Tensor α)} {c' : Option (Tensor β)} (hc : OptRel (Tensor.Rel R) c c') (o tail length lenFlip : Int) :
    ∀ (fuel : Nat) {x : Tensor α} {y : Tensor β} (curr : Int) (fl : Bool), x.Rel R y →
    ExRel (Tensor.Rel R) (mirrorBefore f g k dim c o tail length lenFlip fuel x curr fl) (mirrorBefore f g k' dim c' o tail length lenFlip fuel y curr fl)
  | 0, x, y, curr, fl, h => by
    unfold mirrorBefore
    exact .ite Iff.rfl (fun _ => .error _) fun _ => .ok h
  | fuel + 1, x, y, curr, fl, h => by
    unfold mirrorBefore
    refine .ite Iff.rfl (fun _ => ?_) fun _ => .ok h
    refine .bind (h.setSlice h0 ?_ _) fun x y h => rel_mirrorBefore h0 f g hk dim hc o tail length lenFlip fuel _ _ h
    cases fl with
    | true => exact rel_cachedOr h0 hc _ (hk _ _ ((h.getSlice h0 _).flip h0 _))
    | false => exact h.getSlice h0 _

theorem rel_mirrorAfter (h0 : R 0 0) (f g : PySlice → List PySlice) {k : Tensor α → Tensor α} {k' : Tensor β → Tensor β} (hk : ∀ x y, x.Rel R y → (k x).Rel R (k' y)) (dim : Nat)
    {c : Option (Tensor α)} {c' : Option (Tensor β)} (hc : OptRel (Tensor.Rel R) c c') (o head length lenFlip : Int) :
    ∀ (fuel : Nat) {x : Tensor α} {y : Tensor β} (curr : Int) (fl : Bool), x.Rel R y →
    ExRel (Tensor.Rel R) (mirrorAfter f g k dim c o head length lenFlip fuel x curr fl) (mirrorAfter f g k' dim c' o head length lenFlip fuel y curr fl)
  | 0, x, y, curr, fl, h => by
    unfold mirrorAfter
    exact .ite (by rw [h.shape]) (fun _ => .error _) fun _ => .ok h
  | fuel + 1, x, y, curr, fl, h => by
    unfold mirrorAfter
    refine .ite (by rw [h.shape]) (fun _ => ?_) fun _ => .ok h
    simp only [h.shape]
    refine .bind (h.setSlice h0 ?_ _) fun x y h => rel_mirrorAfter h0 f g hk dim hc o head length lenFlip fuel _ _ h
    cases fl with
    | true => exact rel_cachedOr h0 hc _ (hk _ _ ((h.getSlice h0 _).flip h0 _))
    | false => exact h.getSlice h0 _

theorem rel_symmetric1d [Neg α] [Neg β] (h0 : R 0 0) (np : Bool) (fuel : Nat) (negate : Bool) (hneg : negate = true → ∀ a b, R a b → R (-a) (-b)) {x : Tensor α} {y : Tensor β}
    (h : x.Rel R y) (idx : List PySlice) (dim : Nat) :
    ExRel (Tensor.Rel R) (symmetric1d np fuel negate x idx dim) (symmetric1d np fuel negate y idx dim) := by
  unfold symmetric1d
  refine .bind_same _ fun ⟨head, tail⟩ _ => ?_
  refine .ite Iff.rfl (fun _ => rel_replicate1d h0 h _ _) fun _ => ?_
  simp only [h.shape, h.ndim]
  refine .bind_same _ fun q _ => ?_
  have hk : ∀ (x : Tensor α) (y : Tensor β), x.Rel R y →
      (if negate = true then x.map (- ·) else x).Rel R (if negate = true then y.map (- ·) else y) := by
    intro x y h
    split_ifs with hn
    · exact h.map h0 (hneg hn)
    · exact h
  have hc : OptRel (Tensor.Rel R)
      (if q ≥ 2 then some (if negate = true then ((x.getSlice idx).flip dim).map (- ·) else (x.getSlice idx).flip dim) else none)
      (if q ≥ 2 then some (if negate = true then ((y.getSlice idx).flip dim).map (- ·) else (y.getSlice idx).flip dim) else none) := by
    split_ifs with hq hn
    · exact ((h.getSlice h0 _).flip h0 _).map h0 (hneg hn)
    · exact (h.getSlice h0 _).flip h0 _
    · trivial
  exact .bind (rel_mirrorBefore h0 _ _ hk _ hc _ _ _ _ _ _ _ h) fun x y h => rel_mirrorAfter h0 _ _ hk _ hc _ _ _ _ _ _ _ h

theorem rel_reflect1d (h0 : R 0 0) (np : Bool) (fuel : Nat) {x : Tensor α} {y : Tensor β} (h : x.Rel R y) (idx : List PySlice) (dim : Nat) :
    ExRel (Tensor.Rel R) (reflect1d np fuel x idx dim) (reflect1d np fuel y idx dim) := by
  unfold reflect1d
  refine .bind_same _ fun ⟨head, tail⟩ _ => ?_
  refine .ite Iff.rfl (fun _ => rel_replicate1d h0 h _ _) fun _ => ?_
  refine .ite Iff.rfl (fun _ => rel_circular1d h0 _ h _ _) fun _ => ?_
  simp only [h.shape, h.ndim]
  refine .bind_same _ fun q _ => ?_
  have hk : ∀ (x : Tensor α) (y : Tensor β), x.Rel R y → (id x).Rel R (id y) := fun _ _ h => h
  have hc : OptRel (Tensor.Rel R)
      (if q ≥ 2 then some ((x.getSlice (modifyIdx (.between (head + 1) (tail - 1)) idx dim)).flip dim) else none)
      (if q ≥ 2 then some ((y.getSlice (modifyIdx (.between (head + 1) (tail - 1)) idx dim)).flip dim) else none) := by
    split_ifs
    · exact (h.getSlice h0 _).flip h0 _
    · trivial
  exact .bind (rel_mirrorBefore h0 _ _ hk _ hc _ _ _ _ _ _ _ h) fun x y h => rel_mirrorAfter h0 _ _ hk _ hc _ _ _ _ _ _ _ h

theorem rel_constant1d (h0 : R 0 0) {b a : α} {b' a' : β} (hb : R b b') (ha : R a a') {x : Tensor α} {y : Tensor β} (h : x.Rel R y) (idx : List PySlice) (dim : Nat) :
    ExRel (Tensor.Rel R) (constant1d b a x idx dim) (constant1d b' a' y idx dim) := by
  unfold constant1d
  refine .bind_same _ fun ⟨head, tail⟩ _ => ?_
  refine .bind (P := Tensor.Rel R) (.ite Iff.rfl (fun _ => h.setSlice h0 (rel_scalar h0 hb) _) fun _ => .ok h) fun x y h => ?_
  exact .ite (by rw [h.shape]) (fun _ => h.setSlice h0 (rel_scalar h0 ha) _) fun _ => .ok h


end

/-! ### modes with arithmetic -/

section
variable [Zero α] [Add α] [Sub α] [Neg α] [Mul α] [IntCast α] [OfNat α 2] [Zero β] [Add β] [Sub β] [Neg β] [Mul β] [IntCast β] [OfNat β 2]
variable {R : α → β → Prop}

/-- a relation compatible with the operations of numbers -/
structure RingRel (R : α → β → Prop) : Prop where
  zero : R 0 0
  two : ∀ {a b}, R a b → R (2 * a) (2 * b)
  int : ∀ n : ℤ, R n n
  neg : ∀ {a b}, R a b → R (-a) (-b)
  add : ∀ {a b a' b'}, R a b → R a' b' → R (a + a') (b + b')
  sub : ∀ {a b a' b'}, R a b → R a' b' → R (a - a') (b - b')
  mul : ∀ {a b a' b'}, R a b → R a' b' → R (a * a') (b * b')

theorem rel_oddBefore (hR : RingRel R) (f : PySlice → List PySlice) (dim : Nat) (o length : Int) : ∀ (fuel : Nat) {x : Tensor α} {y : Tensor β} (curr : Int), x.Rel R y →
    ExRel (Tensor.Rel R) (oddBefore f dim o length fuel x curr) (oddBefore f dim o length fuel y curr)
  | 0, x, y, curr, h => by
    unfold oddBefore
    exact .ite Iff.rfl (fun _ => .error _) fun _ => .ok h
  | fuel + 1, x, y, curr, h => by
    unfold oddBefore
    refine .ite Iff.rfl (fun _ => ?_) fun _ => .ok h
    refine .bind (Tensor.Rel.bop hR.zero ((h.getSlice hR.zero _).map hR.zero fun a b hab => hR.two hab) ((h.getSlice hR.zero _).flip hR.zero _)
      fun a b a' b' h1 h2 => hR.sub h1 h2) fun v w hv => ?_
    exact .bind (h.setSlice hR.zero hv _) fun x y h => rel_oddBefore hR f dim o length fuel _ h

theorem rel_oddAfter (hR : RingRel R) (f : PySlice → List PySlice) (dim : Nat) (o length : Int) : ∀ (fuel : Nat) {x : Tensor α} {y : Tensor β} (curr : Int), x.Rel R y →
    ExRel (Tensor.Rel R) (oddAfter f dim o length fuel x curr) (oddAfter f dim o length fuel y curr)
  | 0, x, y, curr, h => by
    unfold oddAfter
    exact .ite (by rw [h.shape]) (fun _ => .error _) fun _ => .ok h
  | fuel + 1, x, y, curr, h => by
    unfold oddAfter
    refine .ite (by rw [h.shape]) (fun _ => ?_) fun _ => .ok h
    simp only [h.shape]
    refine .bind (Tensor.Rel.bop hR.zero ((h.getSlice hR.zero _).map hR.zero fun a b hab => hR.two hab) ((h.getSlice hR.zero _).flip hR.zero _)
      fun a b a' b' h1 h2 => hR.sub h1 h2) fun v w hv => ?_
    exact .bind (h.setSlice hR.zero hv _) fun x y h => rel_oddAfter hR f dim o length fuel _ h

theorem rel_oddSymmetric1d (hR : RingRel R) (fuel : Nat) {x : Tensor α} {y : Tensor β} (h : x.Rel R y) (idx : List PySlice) (dim : Nat) :
    ExRel (Tensor.Rel R) (oddSymmetric1d fuel x idx dim) (oddSymmetric1d fuel y idx dim) := by
  unfold oddSymmetric1d
  refine .bind_same _ fun ⟨head, tail⟩ _ => ?_
  exact .bind (rel_oddBefore hR _ _ _ _ _ _ h) fun x y h => rel_oddAfter hR _ _ _ _ _ _ h

theorem rel_oddReflect1d (hR : RingRel R) (fuel : Nat) {x : Tensor α} {y : Tensor β} (h : x.Rel R y) (idx : List PySlice) (dim : Nat) :
    ExRel (Tensor.Rel R) (oddReflect1d fuel x idx dim) (oddReflect1d fuel y idx dim) := by
  unfold oddReflect1d
  refine .bind_same _ fun ⟨head, tail⟩ _ => ?_
  refine .ite Iff.rfl (fun _ => rel_replicate1d hR.zero h _ _) fun _ => ?_
  exact .bind (rel_oddBefore hR _ _ _ _ _ _ h) fun x y h => rel_oddAfter hR _ _ _ _ _ _ h

theorem rel_map_ints (hR : RingRel R) (l : List ℤ) (n : Nat) : R ((l.map fun k : ℤ => (k : α)).getD n 0) ((l.map fun k : ℤ => (k : β)).getD n 0) := by
  simp only [List.getD_eq_getElem?_getD, List.getElem?_map]
  cases l[n]? with
  | none => exact hR.zero
  | some k => exact hR.int k

theorem rel_smooth1d (hR : RingRel R) {x : Tensor α} {y : Tensor β} (h : x.Rel R y) (idx : List PySlice) (dim : Nat) :
    ExRel (Tensor.Rel R) (smooth1d x idx dim) (smooth1d y idx dim) := by
  have h0 := hR.zero
  have hdown : ∀ (head : Int) (k : Nat), (column (arangeDown (α := α) head) k).Rel R (column (arangeDown (α := β) head) k) := by
    intro head k
    refine rel_column (by simp [arangeDown]) (fun n => ?_) k
    have := rel_map_ints (R := R) hR ((List.range head.toNat).map fun (k : Nat) => head - k) n
    simpa only [arangeDown, List.map_map, Function.comp_def] using this
  have hup : ∀ (head : Int) (k : Nat), (column (arangeUp (α := α) head) k).Rel R (column (arangeUp (α := β) head) k) := by
    intro head k
    refine rel_column (by simp [arangeUp]) (fun n => ?_) k
    have := rel_map_ints (R := R) hR ((List.range head.toNat).map fun (k : Nat) => 1 + (k : ℤ)) n
    simpa only [arangeUp, List.map_map, Function.comp_def] using this
  unfold smooth1d
  refine .bind_same _ fun ⟨head, tail⟩ _ => ?_
  refine .ite Iff.rfl (fun _ => rel_replicate1d h0 h _ _) fun _ => ?_
  refine .bind (P := Tensor.Rel R) (.ite Iff.rfl (fun _ => ?_) fun _ => .ok h) fun x y h => ?_
  · rw [h.ndim]
    refine .bind (Tensor.Rel.bop h0 (h.getSlice h0 _) (h.getSlice h0 _) fun a b a' b' h1 h2 => hR.sub h1 h2) fun d d' hd => ?_
    refine .bind (Tensor.Rel.bop h0 (hdown _ _) hd fun a b a' b' h1 h2 => hR.mul h1 h2) fun q q' hq => ?_
    refine .bind (Tensor.Rel.bop h0 (h.getSlice h0 _) hq fun a b a' b' h1 h2 => hR.sub h1 h2) fun v v' hv => ?_
    exact h.setSlice h0 hv _
  · refine .ite (by rw [h.shape]) (fun _ => ?_) fun _ => .ok h
    rw [h.ndim, h.shape]
    refine .bind (Tensor.Rel.bop h0 (h.getSlice h0 _) (h.getSlice h0 _) fun a b a' b' h1 h2 => hR.sub h1 h2) fun d d' hd => ?_
    refine .bind (Tensor.Rel.bop h0 (hup _ _) hd fun a b a' b' h1 h2 => hR.mul h1 h2) fun q q' hq => ?_
    refine .bind (Tensor.Rel.bop h0 (h.getSlice h0 _) hq fun a b a' b' h1 h2 => hR.add h1 h2) fun v v' hv => ?_
    exact h.setSlice h0 hv _

end

section
variable [Ring α] [Ring β] {R : α → β → Prop}

theorem RingRel.of_ring (int : ∀ n : ℤ, R n n) (add : ∀ {a b a' b'}, R a b → R a' b' → R (a + a') (b + b'))
    (sub : ∀ {a b a' b'}, R a b → R a' b' → R (a - a') (b - b')) (mul : ∀ {a b a' b'}, R a b → R a' b' → R (a * a') (b * b')) : RingRel R := by
  have h0 : R 0 0 := by simpa using int 0
  exact ⟨h0, fun h => by simpa using mul (int 2) h, int, fun h => by simpa using sub h0 h, add, sub, mul⟩

/-- integers on both sides -/
def SameInt (a : α) (b : β) : Prop := ∃ n : ℤ, a = n ∧ b = n

theorem sameInt_ringRel : RingRel (SameInt (α := α) (β := β)) :=
  .of_ring (fun n => ⟨n, rfl, rfl⟩) (by rintro _ _ _ _ ⟨n, rfl, rfl⟩ ⟨m, rfl, rfl⟩; exact ⟨n + m, by simp, by simp⟩)
    (by rintro _ _ _ _ ⟨n, rfl, rfl⟩ ⟨m, rfl, rfl⟩; exact ⟨n - m, by simp, by simp⟩)
    (by rintro _ _ _ _ ⟨n, rfl, rfl⟩ ⟨m, rfl, rfl⟩; exact ⟨n * m, by simp, by simp⟩)

end

/-! ### statistics -/

theorem stat1d_with [Field α] [LinearOrder α] (s : Stat) (before after : Option Int) (x : Tensor α) (idx : List PySlice) (dim : Nat) :
    stat1d s before after x idx dim = stat1dWith s.reduce before after x idx dim := by
  unfold stat1d stat1dWith statBoth statBefore statAfter
  cases before <;> cases after <;> rfl

theorem rel_stat1dWith [Zero α] [Zero β] {R : α → β → Prop} (h0 : R 0 0) {red : Tensor α → Nat → Except Err (Tensor α)} {red' : Tensor β → Nat → Except Err (Tensor β)}
    (hr : ∀ x y, x.Rel R y → ∀ d, ExRel (Tensor.Rel R) (red x d) (red' y d)) (before after : Option Int) {x : Tensor α} {y : Tensor β} (h : x.Rel R y)
    (idx : List PySlice) (dim : Nat) : ExRel (Tensor.Rel R) (stat1dWith red before after x idx dim) (stat1dWith red' before after y idx dim) := by
  unfold stat1dWith
  refine .bind_same _ fun ⟨head, tail⟩ _ => ?_
  refine .bind (P := Tensor.Rel R) (.ite (by rw [h.shape]) (fun _ => ?_) fun _ => .ok h) fun x y h => ?_
  · refine .bind (hr _ _ (h.getSlice h0 _) _) fun r r' hrr => ?_
    exact .bind (h.setSlice h0 hrr _) fun x y h => h.setSlice h0 hrr _
  refine .bind (P := Tensor.Rel R) (.ite Iff.rfl (fun _ => ?_) fun _ => .ok h) fun x y h => ?_
  · exact .bind (hr _ _ (h.getSlice h0 _) _) fun r r' hrr => h.setSlice h0 hrr _
  refine .ite (by rw [h.shape]) (fun _ => ?_) fun _ => .ok h
  exact .bind (hr _ _ (h.getSlice h0 _) _) fun r r' hrr => h.setSlice h0 hrr _

/-! ### `forward` -/

section
variable {run : Int → Mode γ → Tensor α → List PySlice → Nat → Except Err (Tensor α)} {run' : Int → Mode γ → Tensor β → List PySlice → Nat → Except Err (Tensor β)}
variable [Zero α] [Zero β] {R : α → β → Prop} {p p' : Padder γ}

/-- at index `i` the padders prescribe the same mode, and it runs alike -/
structure RunAlike (R : α → β → Prop) (run : Int → Mode γ → Tensor α → List PySlice → Nat → Except Err (Tensor α))
    (run' : Int → Mode γ → Tensor β → List PySlice → Nat → Except Err (Tensor β)) (p p' : Padder γ) (i : Int) : Prop where
  mode : p.modeAt i = p'.modeAt i
  alike : ∀ m, p.modeAt i = .ok m → ∀ (y : Tensor α) (y' : Tensor β), y.Rel R y' → ∀ idx axis, ExRel (Tensor.Rel R) (run i m y idx axis) (run' i m y' idx axis)

theorem rel_fillValueWith (hw : p.padWidth = p'.padWidth) {i : Int} (hi : RunAlike R run run' p p' i) {y : Tensor α} {y' : Tensor β} (h : y.Rel R y') (axis : Int)
    (idx : Option (List PySlice)) :
    ExRel (fun a b => a.1.Rel R b.1 ∧ a.2 = b.2) (Padder.fillValueWith run p y i axis idx) (Padder.fillValueWith run' p' y' i axis idx) := by
  unfold Padder.fillValueWith
  rw [hw]
  refine .bind_same _ fun pw _ => ?_
  by_cases hz : pw.1 = 0 ∧ pw.2 = 0
  · simp only [if_pos hz]
    exact .ok ⟨h, rfl⟩
  · simp only [if_neg hz, ← hi.mode, h.ndim]
    refine .bind_same (f := fun m => _) (g := fun m => _) (p.modeAt i) fun m hm => ?_
    have main : ∀ idx : List PySlice, ExRel (fun a b => a.1.Rel R b.1 ∧ a.2 = b.2)
        (do
          let axis ← Padder.axisNat y'.ndim axis
          let y ← run i m y idx axis
          let idx ← Padder.widen m pw idx axis
          return (y, some idx))
        (do
          let axis ← Padder.axisNat y'.ndim axis
          let y ← run' i m y' idx axis
          let idx ← Padder.widen m pw idx axis
          return (y, some idx)) := by
      intro idx
      refine .bind_same _ fun a _ => ?_
      refine .bind (hi.alike m hm _ _ h _ _) fun y y' h => ?_
      exact .bind_same _ fun w _ => .ok ⟨h, rfl⟩
    cases m
    case empty => exact .ok ⟨h, rfl⟩
    case zeros => exact .ok ⟨h, rfl⟩
    case unknown => exact .error _
    all_goals
      cases idx with
      | none => exact .error _
      | some idx => exact main idx

theorem rel_fillLoopWith (hw : p.padWidth = p'.padWidth) (axes : List Int) : ∀ (is : List Int), (∀ i ∈ is, RunAlike R run run' p p' i) →
    ∀ {y : Tensor α} {y' : Tensor β}, y.Rel R y' → ∀ idx, ExRel (Tensor.Rel R) (Padder.fillLoopWith run p axes is y idx) (Padder.fillLoopWith run' p' axes is y' idx)
  | [], _, _, _, h, _ => .ok h
  | i :: is, hi, y, y', h, idx => by
    have hm := hi i (by simp)
    unfold Padder.fillLoopWith
    refine .bind_same _ fun a _ => ?_
    refine .bind (rel_fillValueWith hw hm h a idx) fun ⟨u, w⟩ ⟨u', w'⟩ ⟨hu, hw'⟩ => ?_
    cases hw'
    exact rel_fillLoopWith hw axes is (fun i hi' => hi i (by simp [hi'])) hu _

theorem accLoop_alike (hw : p.padWidth = p'.padWidth) (shape : List Nat) (axes : List Int) : ∀ (is : List Int), (∀ i ∈ is, RunAlike R run run' p p' i) →
    ∀ acc, p.accLoop shape axes is acc = p'.accLoop shape axes is acc
  | [], _, _ => rfl
  | i :: is, hi, acc => by
    have hm := hi i (by simp)
    have e : p.accStep shape axes i acc = p'.accStep shape axes i acc := by
      unfold Padder.accStep
      rw [hw, hm.mode]
    unfold Padder.accLoop
    rw [e]
    simp only [accLoop_alike hw shape axes is fun i hi' => hi i (by simp [hi'])]

/-- `forward` on related images -/
theorem rel_forwardWith (h0 : R 0 0) (hw : p.padWidth = p'.padWidth) (hn : p.ndim = p'.ndim) {junk : List Nat → α} {junk' : List Nat → β} (hj : ∀ ix, R (junk ix) (junk' ix))
    {x : Tensor α} {x' : Tensor β} (h : x.Rel R x') (ax : Axes)
    (hi : ∀ axes, checkAxes x.ndim ax = .ok axes → ∀ i ∈ Padder.negRange (p.nPadded axes), RunAlike R run run' p p' i) :
    ExRel (Tensor.Rel R) (Padder.forwardWith run p junk x ax) (Padder.forwardWith run' p' junk' x' ax) := by
  have hnp : ∀ axes, p'.nPadded axes = p.nPadded axes := fun axes => by rw [Padder.nPadded, Padder.nPadded, hn]
  unfold Padder.forwardWith
  rw [← h.ndim, ← h.shape]
  by_cases hz : x.ndim = 0
  · simp only [if_pos hz]
    exact .error _
  simp only [if_neg hz]
  refine .bind_same _ fun axes hax => ?_
  by_cases ha : axes = []
  · simp only [if_pos ha]
    exact .ok h
  simp only [if_neg ha, hnp, ← accLoop_alike hw x.shape axes _ (hi axes hax)]
  refine .bind_same _ fun ⟨hv, av⟩ _ => ?_
  simp only
  split_ifs
  · exact .ok h
  · exact .error _
  · refine .bind (Tensor.Rel.setSlice h0 (rel_ofFn h0 rfl fun ix _ => hj ix) h _) fun y y' h => ?_
    exact rel_fillLoopWith hw axes _ (hi axes hax) h _

end

theorem forward_with [Field α] [LinearOrder α] (p : Padder α) (junk : List Nat → α) (x : Tensor α) (ax : Axes) :
    p.forward junk x ax = Padder.forwardWith (p.runMode true) p junk x ax := by
  have e1 : ∀ y i axis idx, p.fillValue1d true y i axis idx = Padder.fillValueWith (p.runMode true) p y i axis idx := fun _ _ _ _ => rfl
  have e2 : ∀ axes is y idx, p.fillLoop axes is y idx = Padder.fillLoopWith (p.runMode true) p axes is y idx := by
    intro axes is
    induction is with
    | nil => intro y idx; rfl
    | cons i is ih =>
      intro y idx
      simp only [Padder.fillLoop, Padder.fillLoopWith, e1, ih]
  unfold Padder.forward Padder.forwardWith
  simp only [e2]

end TI
