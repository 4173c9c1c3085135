import Verif.Props.Flt
import Verif.Props.IntMse

/-!
# Edges, sharpening and squared errors of images with entries that are not finite: C139
-/

set_option linter.unusedSectionVars false

namespace TI
open Tensor Spec

section
variable {α : Type} [Field α] [LinearOrder α] [IsStrictOrderedRing α]
variable {x y : Tensor α} {X Y : Tensor (Flt α)} {padder q : Option (Padder α)} {ax : Axes} {axes : List Nat} {junk : List Nat → α} {junk' : List Nat → Flt α} {a : Nat}

theorem dropRel_agrees : DropRel (Flt.Agrees (α := α)) := by
  intro c a b h d hd
  cases b with
  | num v =>
    rw [h v rfl]
    by_cases hc : |v| < c
    · simp only [Flt.absLt, hc, decide_true, if_true] at hd ⊢
      exact Flt.num.inj hd
    · simp only [Flt.absLt, hc, decide_false, Bool.false_eq_true, if_false] at hd ⊢
      exact Flt.num.inj hd
  | inf s => simp [Flt.absLt] at hd
  | nan => simp [Flt.absLt] at hd

/-- **C139.** Sharpening an image in which some entries are infinite or NaN: the exceptions, the padder left behind and the finite entries of the result are the same for all
numbers in their place. -/
theorem C139_sharpen (u : UnsharpMask α) (hp : ∀ p, padder = some p → PlainModes p) (hx : FillsIn x X) (hj : ∀ ix a, junk' ix = .num a → junk ix = a) (ax : Axes) :
    (u.forward padder junk x ax).1 = (u.forwardFlt padder junk' X ax).1 ∧ AlikeOutcome (u.forward padder junk x ax).2 (u.forwardFlt padder junk' X ax).2 := by
  obtain ⟨h1, h2⟩ := rel_unsharpFlt Flt.agrees_ringRel Flt.agrees_num dropRel_agrees u padder (fun p e => (hp p e).alike) hj (fillsIn_iff.1 hx) ax
  exact ⟨h1, alikeOutcome_of h2⟩

theorem finite_drop {c : α} {b : Flt α} : IsFinite (if b.absLt c then 0 else b) ↔ IsFinite b := by
  split_ifs with h
  · cases b with
    | num v => exact iff_of_true ⟨0, rfl⟩ ⟨v, rfl⟩
    | inf s => simp [Flt.absLt] at h
    | nan => simp [Flt.absLt] at h
  · rfl

/-- **C139.** An entry of the sharpened image is finite exactly if the entry itself and the blurred one are, for all amounts (also for zero) and thresholds. -/
theorem C139_sharpen_finite (u : UnsharpMask α) (hax : axesOf X.ndim ax = some axes) (hB : u.blur.forwardFlt padder junk' X (.seq (castV axes)) = (q, .ok Y)) (hs : Y.shape = X.shape) :
    ∃ Z, u.forwardFlt padder junk' X ax = (q, .ok Z) ∧ Z.shape = X.shape ∧ ∀ ix, InB X.shape ix → (IsFinite (Z.get ix) ↔ IsFinite (X.get ix) ∧ IsFinite (Y.get ix)) := by
  obtain ⟨hca, _⟩ := checkAxes_spec hax
  simp only [UnsharpMask.forwardFlt, hca, hB, bop_same hs.symm, ok_bind]
  have key : ∀ D : Tensor (Flt α), D.shape = X.shape → (∀ ix, InB X.shape ix → (IsFinite (D.get ix) ↔ IsFinite (X.get ix) ∧ IsFinite (Y.get ix))) →
      ∃ Z, (q, bop (· + ·) X (D.map fun v => Flt.num u.amount * v)) = (q, Except.ok (ε := Err) Z) ∧ Z.shape = X.shape ∧
        ∀ ix, InB X.shape ix → (IsFinite (Z.get ix) ↔ IsFinite (X.get ix) ∧ IsFinite (Y.get ix)) := by
    intro D hD hf
    refine ⟨ofFn X.shape fun ix => X.get ix + (D.map fun v => Flt.num u.amount * v).get ix, by rw [bop_same (by exact hD.symm)], rfl, fun ix hix => ?_⟩
    rw [get_ofFn hix, get_map _ _ (hD ▸ hix), Flt.finite_add, Flt.finite_mul, hf ix hix]
    exact ⟨fun h => h.2.2, fun h => ⟨h.1, ⟨_, rfl⟩, h⟩⟩
  split_ifs
  · refine key _ rfl fun ix hix => ?_
    rw [get_map _ _ (show InB (ofFn X.shape _).shape ix from hix), finite_drop, get_ofFn hix, Flt.finite_sub]
  · refine key _ rfl fun ix hix => ?_
    rw [get_ofFn hix, Flt.finite_sub]

/-- **C139.** Squared errors: the exceptions and the finite entries are the same for all numbers in the place of those that are not finite. -/
theorem C139_mse (r : Reduction) (hx : FillsIn x X) (hy : FillsIn y Y) (ax : Axes) : AlikeOutcome (mse r x y ax) (mseFlt r X Y ax) :=
  alikeOutcome_of (rel_mseFlt Flt.agrees_ringRel Flt.agrees_num (by intro c h; cases h) r (fillsIn_iff.1 hx) (fillsIn_iff.1 hy) ax)

theorem reduce_dropFlt (F : List (Flt α) → Flt α) {S : List Nat} (f : List Nat → Flt α) (h : ∀ a ∈ axes, a < S.length) (hnd : axes.Nodup) :
    (ofFn S f).reduce F (castV axes) false = .ok (ofFn (onKept (reducedAxes S.length axes) S) fun jx => F ((collected S (reducedAxes S.length axes) jx).map f)) := by
  simp only [Tensor.reduce, reduceDims_eq (n := (ofFn S f).ndim) h hnd, ok_bind, Bool.false_eq_true, if_false, collapse_none]
  congr 1
  apply ofFn_congr
  intro jx _
  congr 1
  exact List.map_congr_left fun ix hix => get_ofFn (mem_collected.1 hix).1

theorem mseFlt_run (h : X.shape = Y.shape) (hax : axesOf X.ndim ax = some axes) (r : Reduction) :
    mseFlt r X Y ax = match r with
      | .mean => (ofFn X.shape fun ix => (X.get ix - Y.get ix) * (X.get ix - Y.get ix)).reduce (fun l => if l = [] then .nan else l.sum * .num (1 / (l.length : α))) (castV axes) false
      | .sum => (ofFn X.shape fun ix => (X.get ix - Y.get ix) * (X.get ix - Y.get ix)).reduce (fun l => l.sum) (castV axes) false
      | .none => .ok (ofFn X.shape fun ix => (X.get ix - Y.get ix) * (X.get ix - Y.get ix))
      | .unknown => .error .value := by
  unfold mseFlt
  rw [if_neg (not_not.2 h), (checkAxes_spec hax).1, ok_bind, bop_same h, ok_bind]
  simp only [map_ofFn]
  cases r <;> rfl

/-- **C139.** Without reduction an entry is finite exactly if both given entries are. -/
theorem C139_mse_none (h : X.shape = Y.shape) (hax : axesOf X.ndim ax = some axes) :
    ∃ Z, mseFlt .none X Y ax = .ok Z ∧ Z.shape = X.shape ∧ ∀ ix, InB X.shape ix → (IsFinite (Z.get ix) ↔ IsFinite (X.get ix) ∧ IsFinite (Y.get ix)) := by
  refine ⟨_, mseFlt_run h hax .none, rfl, fun ix hix => ?_⟩
  rw [get_ofFn hix, Flt.finite_mul, Flt.finite_sub, and_self]

/-- **C139.** A sum of squared errors is finite exactly if all entries that it covers are, in both images. -/
theorem C139_mse_sum (h : X.shape = Y.shape) (hax : axesOf X.ndim ax = some axes) (hnd : axes.Nodup) :
    ∃ Z, mseFlt .sum X Y ax = .ok Z ∧ Z.shape = onKept (reducedAxes X.ndim axes) X.shape ∧
      ∀ jx, InB Z.shape jx → (IsFinite (Z.get jx) ↔ ∀ ix ∈ collected X.shape (reducedAxes X.ndim axes) jx, IsFinite (X.get ix) ∧ IsFinite (Y.get ix)) := by
  obtain ⟨_, hlt⟩ := checkAxes_spec hax
  refine ⟨_, (mseFlt_run h hax .sum).trans (reduce_dropFlt _ _ hlt hnd), rfl, fun jx hjx => ?_⟩
  rw [get_ofFn (show InB (onKept (reducedAxes X.shape.length axes) X.shape) jx from hjx), Flt.finite_sum, List.forall_mem_map]
  refine forall₂_congr fun ix hix => ?_
  rw [Flt.finite_mul, Flt.finite_sub, and_self]

/-- **C139.** A mean of squared errors is finite exactly if all entries that it covers are, in both images, and there are some. -/
theorem C139_mse_mean (h : X.shape = Y.shape) (hax : axesOf X.ndim ax = some axes) (hnd : axes.Nodup) :
    ∃ Z, mseFlt .mean X Y ax = .ok Z ∧ Z.shape = onKept (reducedAxes X.ndim axes) X.shape ∧
      ∀ jx, InB Z.shape jx → (IsFinite (Z.get jx) ↔ collected X.shape (reducedAxes X.ndim axes) jx ≠ [] ∧
        ∀ ix ∈ collected X.shape (reducedAxes X.ndim axes) jx, IsFinite (X.get ix) ∧ IsFinite (Y.get ix)) := by
  obtain ⟨_, hlt⟩ := checkAxes_spec hax
  refine ⟨_, (mseFlt_run h hax .mean).trans (reduce_dropFlt _ _ hlt hnd), rfl, fun jx hjx => ?_⟩
  rw [get_ofFn (show InB (onKept (reducedAxes X.shape.length axes) X.shape) jx from hjx)]
  change IsFinite (if (collected X.shape (reducedAxes X.ndim axes) jx).map _ = [] then _ else _) ↔ _
  by_cases he : collected X.shape (reducedAxes X.ndim axes) jx = []
  · have : ¬ IsFinite (Flt.nan : Flt α) := fun ⟨_, h⟩ => by cases h
    simpa [he] using this
  rw [if_neg (by simpa using he), Flt.finite_mul, Flt.finite_sum, List.forall_mem_map]
  simp only [ne_eq, he, not_false_eq_true, true_and, Flt.finite_num, and_true]
  refine forall₂_congr fun ix hix => ?_
  rw [Flt.finite_mul, Flt.finite_sub, and_self]

theorem sq_not_neg (b : Flt α) : b * b ≠ .inf true := by
  cases b with
  | nan => intro h; cases h
  | num v => intro h; cases h
  | inf s => cases s <;> (intro h; cases h)

/-- the squares -/
theorem sq_eq_inf (b : Flt α) (s : Bool) : b * b = .inf s ↔ s = false ∧ ∃ r, b = .inf r := by
  cases b with
  | nan => exact iff_of_false (by intro h; cases h) (by simp)
  | num v => exact iff_of_false (by intro h; cases h) (by simp)
  | inf r =>
    have e : (Flt.inf r * Flt.inf r : Flt α) = .inf false := by cases r <;> rfl
    rw [e]
    cases s <;> simp

theorem sum_sq_ne (l : List (Flt α)) (h : ∀ b ∈ l, ∃ c, b = c * c) : l.sum ≠ .inf true := by
  intro e
  obtain ⟨c, hc⟩ := h _ (Flt.sum_eq_inf.1 e).1
  exact sq_not_neg c hc.symm

/-- **C139.** Squared errors, their sums and their means are never negative infinity; without reduction an error is infinite exactly if the difference is, whatever its sign. -/
theorem C139_mse_sign (h : X.shape = Y.shape) (hax : axesOf X.ndim ax = some axes) (hnd : axes.Nodup) {r : Reduction} {Z : Tensor (Flt α)} (hZ : mseFlt r X Y ax = .ok Z) :
    (∀ ix, InB Z.shape ix → Z.get ix ≠ .inf true) ∧ (r = .none → ∀ ix, InB Z.shape ix → (Z.get ix = .inf false ↔ ∃ s, X.get ix - Y.get ix = .inf s)) := by
  obtain ⟨_, hlt⟩ := checkAxes_spec hax
  have hsq : ∀ jx, ∀ b ∈ (collected X.shape (reducedAxes X.shape.length axes) jx).map (fun ix => (X.get ix - Y.get ix) * (X.get ix - Y.get ix)), ∃ c, b = c * c := by
    intro jx b hb
    obtain ⟨ix, _, rfl⟩ := List.mem_map.1 hb
    exact ⟨_, rfl⟩
  rw [mseFlt_run h hax] at hZ
  cases r with
  | none =>
    cases hZ
    refine ⟨fun ix hix => ?_, fun _ ix hix => ?_⟩
    · rw [get_ofFn (show InB X.shape ix from hix)]
      exact sq_not_neg _
    · rw [get_ofFn (show InB X.shape ix from hix), sq_eq_inf]
      simp
  | sum =>
    simp only [reduce_dropFlt _ _ hlt hnd] at hZ
    cases hZ
    refine ⟨fun jx hjx => ?_, fun e => by cases e⟩
    rw [get_ofFn (show InB (onKept (reducedAxes X.shape.length axes) X.shape) jx from hjx)]
    exact sum_sq_ne _ (hsq jx)
  | mean =>
    simp only [reduce_dropFlt _ _ hlt hnd] at hZ
    cases hZ
    refine ⟨fun jx hjx => ?_, fun e => by cases e⟩
    rw [get_ofFn (show InB (onKept (reducedAxes X.shape.length axes) X.shape) jx from hjx)]
    split_ifs with he
    · intro e; cases e
    · rw [← Flt.mul_num_comm, ne_eq, Flt.num_mul_eq_inf]
      rintro (⟨_, e⟩ | ⟨e, _⟩)
      · exact sum_sq_ne _ (hsq jx) e
      · have hp : (0 : α) ≤ 1 / ((((collected X.shape (reducedAxes X.shape.length axes) jx).map fun ix => (X.get ix - Y.get ix) * (X.get ix - Y.get ix)).length : Nat) : α) := by
          rw [one_div, inv_nonneg]
          exact Nat.cast_nonneg _
        exact absurd e (not_lt.2 hp)
  | unknown => cases hZ

theorem diff_index (ha : a < X.ndim) {ix : List Nat} (hix : InB (X.shape.set a (X.shape.getD a 0 - 2)) ix) : 2 < X.shape.getD a 0 := by
  have ha' : a < X.shape.length := ha
  have := hix.lt (k := a) (by simpa using ha')
  rw [getD_set_self _ _ _ _ ha'] at this
  omega

/-- the first differences -/
theorem firstDiffFlt (ha : a < X.ndim) : ∃ Z, EdgeFilter.firstDiff X (a : Int) = .ok Z ∧ Z.shape = X.shape.set a (X.shape.getD a 0 - 2) ∧
    ∀ ix, InB Z.shape ix → (IsFinite (Z.get ix) ↔ IsFinite (X.get ix) ∧ IsFinite (X.get (ix.set a (ix.getD a 0 + 2)))) := by
  rw [EdgeFilter.firstDiff, sliceAt_eq ha (resolve_from_two _), sliceAt_eq ha (resolve_upto_two _)]
  simp only [ok_bind]
  rw [bop_same (by simp)]
  refine ⟨_, rfl, rfl, fun ix hix => ?_⟩
  have hix' : InB (X.shape.set a (X.shape.getD a 0 - 2)) ix := hix
  have h2 := diff_index ha hix'
  rw [get_ofFn (show InB (ofFn (X.shape.set a (X.shape.getD a 0 - 2)) _).shape ix from hix'), get_ofFn hix', get_ofFn hix', Flt.finite_sub, Nat.min_eq_left h2.le, Nat.zero_add, Nat.add_comm 2, set_getD_self, and_comm]

/-- the second differences -/
theorem secondDiffFlt (ha : a < X.ndim) : ∃ Z, EdgeFilter.secondDiff X (a : Int) = .ok Z ∧ Z.shape = X.shape.set a (X.shape.getD a 0 - 2) ∧
    ∀ ix, InB Z.shape ix → (IsFinite (Z.get ix) ↔ IsFinite (X.get ix) ∧ IsFinite (X.get (ix.set a (ix.getD a 0 + 1))) ∧ IsFinite (X.get (ix.set a (ix.getD a 0 + 2)))) := by
  rw [EdgeFilter.secondDiff, sliceAt_eq ha (resolve_from_two _), sliceAt_eq ha (resolve_upto_two _)]
  simp only [ok_bind]
  rw [bop_same (by simp), ok_bind, sliceAt_eq ha (resolve_inner _), ok_bind, bop_same (by simp)]
  refine ⟨_, rfl, rfl, fun ix hix => ?_⟩
  have hix' : InB (X.shape.set a (X.shape.getD a 0 - 2)) ix := hix
  have h2 := diff_index ha hix'
  rw [get_ofFn (show InB (ofFn (ofFn (X.shape.set a (X.shape.getD a 0 - 2)) _).shape _).shape ix from hix'),
    get_ofFn (show InB (ofFn (X.shape.set a (X.shape.getD a 0 - 2)) _).shape ix from hix'), get_ofFn hix', get_ofFn hix', get_map _ _ (show InB _ ix from hix'), get_ofFn hix', Flt.finite_sub, Flt.finite_add, Flt.finite_mul,
    Nat.min_eq_left h2.le, Nat.min_eq_left (by omega : 1 ≤ _), Nat.zero_add, Nat.add_comm 2, Nat.add_comm 1, set_getD_self]
  have : IsFinite (2 : Flt α) := ⟨2, rfl⟩
  tauto

end

section
variable {α : Type} [Field α] [LinearOrder α] [IsStrictOrderedRing α] [FloorRing α] {f : EdgeFilter α} {ps : EdgePadders α} {q : Option (Padder α)}
variable {x : Tensor α} {X Y : Tensor (Flt α)} {junk : List Nat → α} {junk' : List Nat → Flt α} {a : Nat}

/-- **C139.** Components of edge filters: the exceptions, the padders left behind and the finite entries are the same for all numbers in the place of those that are not finite. -/
theorem C139_component (f : EdgeFilter α) (hp : ∀ p, ps.edge = some p ∨ ps.smooth = some p → PlainModes p) (hx : FillsIn x X) (hj : ∀ ix a, junk' ix = .num a → junk ix = a)
    (edgeAxis smoothAxes : Axes) : (f.component ps junk x edgeAxis smoothAxes).1 = (f.componentFlt ps junk' X edgeAxis smoothAxes).1 ∧
      AlikeOutcome (f.component ps junk x edgeAxis smoothAxes).2 (f.componentFlt ps junk' X edgeAxis smoothAxes).2 := by
  obtain ⟨h1, h2⟩ := rel_componentFlt Flt.agrees_ringRel Flt.agrees_num f (ps := ps) ⟨fun p e => (hp p (Or.inl e)).alike, fun p e => (hp p (Or.inr e)).alike⟩ hj (fillsIn_iff.1 hx)
    edgeAxis smoothAxes
  exact ⟨h1, alikeOutcome_of h2⟩

/-- **C139.** The difference of the two neighbours is finite exactly if they are: kernels taken for `(-1, 0, 1)` do not see the entry in the middle, unlike a pooling with a weight of zero. -/
theorem C139_first {w : List α} (hw : (f.edgeKernel.get 0).bind SepPool.asVec = .ok w) (h : w.map truncInt = [-1, 0, 1]) 
    (hY : f.edgePool.padFlt ps.edge junk' X (.int (a : Int)) = (q, .ok Y)) (ha : a < Y.ndim) :
    ∃ Z, f.convEdgeFlt ps junk' X (a : Int) = (ps.setEdge q, .ok Z) ∧ Z.shape = Y.shape.set a (Y.shape.getD a 0 - 2) ∧
      ∀ ix, InB Z.shape ix → (IsFinite (Z.get ix) ↔ IsFinite (Y.get ix) ∧ IsFinite (Y.get (ix.set a (ix.getD a 0 + 2)))) := by
  obtain ⟨Z, h1, h2⟩ := firstDiffFlt ha
  refine ⟨Z, ?_, h2⟩
  simp only [EdgeFilter.convEdgeFlt, hw, h, if_true, hY]
  exact congrArg _ h1

/-- **C139.** For kernels taken for `(1, -2, 1)` all three entries count. -/
theorem C139_second {w : List α} (hw : (f.edgeKernel.get 0).bind SepPool.asVec = .ok w) (h : w.map truncInt = [1, -2, 1]) 
    (hY : f.edgePool.padFlt ps.edge junk' X (.int (a : Int)) = (q, .ok Y)) (ha : a < Y.ndim) :
    ∃ Z, f.convEdgeFlt ps junk' X (a : Int) = (ps.setEdge q, .ok Z) ∧ Z.shape = Y.shape.set a (Y.shape.getD a 0 - 2) ∧
      ∀ ix, InB Z.shape ix → (IsFinite (Z.get ix) ↔ IsFinite (Y.get ix) ∧ IsFinite (Y.get (ix.set a (ix.getD a 0 + 1))) ∧ IsFinite (Y.get (ix.set a (ix.getD a 0 + 2)))) := by
  obtain ⟨Z, h1, h2⟩ := secondDiffFlt ha
  refine ⟨Z, ?_, h2⟩
  simp only [EdgeFilter.convEdgeFlt, hw, h, hY]
  rw [if_neg (by decide), if_pos trivial]
  exact congrArg _ h1

end

namespace FltMoreExample
open SsimExample AdjointExample EnergyExample IntPadExample FltExample

/-- an average over three samples, with a NaN: the windows of three entries -/
example (amount threshold : ℚ) (junk : List Nat → Flt ℚ) : ∃ (pool : SepPool ℚ) (q : Option (Padder ℚ)) (Y Z : Tensor (Flt ℚ)),
    SepPool.init (PoolArgs.pyKernel [1 / 3, 1 / 3, 1 / 3]) (PoolArgs.pyStride (some 1)) = .ok pool ∧
    SepPool.forwardFlt pool (some ((args .circular).padder 1)) junk (fimg [.num 1, .inf true, .num 3, .num 4, .num 5]) (.seq [0]) = (q, .ok Y) ∧
    UnsharpMask.forwardFlt ⟨pool, amount, threshold⟩ (some ((args .circular).padder 1)) junk (fimg [.num 1, .inf true, .num 3, .num 4, .num 5]) .none = (q, .ok Z) ∧
    ∀ ix, InB [5] ix → (IsFinite (Z.get ix) ↔ IsFinite ((fimg [.num 1, .inf true, .num 3, .num 4, .num 5]).get ix) ∧ IsFinite (Y.get ix)) := by
  obtain ⟨pool, e1, b1⟩ := one_built [1 / 3, 1 / 3, 1 / 3]
  obtain ⟨q, Y, h1, h2, _⟩ := C138_mask b1 (by intro h; cases h) (SameCall_seq (FltExample.call [1 / 3, 1 / 3, 1 / 3])) (holds_padder _ 1) copyModes junk
  obtain ⟨Z, h4, _, h5⟩ := C139_sharpen_finite ⟨pool, amount, threshold⟩ (ax := .none) (axes := [0]) rfl h1 (by rw [h2]; rfl)
  exact ⟨pool, q, Y, Z, e1, h1, h4, h5⟩

example : AlikeOutcome (mse .mean ⟨[3], [1, 7, 3], rfl⟩ (⟨[3], [1, 7, 3], rfl⟩ : Tensor ℚ) .none) (mseFlt .mean (fimg [.num 1, .nan, .num 3]) (fimg [.num 1, .nan, .num 3]) .none) :=
  C139_mse .mean fills fills .none

example : ∃ Z, mseFlt .mean (fimg [.num 1, .nan, .num 3]) (fimg [.num 2, .num 2, .num 3]) .none = .ok Z ∧ ¬ IsFinite (Z.get []) := by
  obtain ⟨Z, h1, h2, h3⟩ := C139_mse_mean (X := fimg [.num 1, .nan, .num 3]) (Y := fimg [.num 2, .num 2, .num 3]) (ax := .none) (axes := [0]) rfl rfl (by simp)
  refine ⟨Z, h1, fun h => ?_⟩
  obtain ⟨a, ha⟩ := (((h3 [] (by rw [h2]; trivial)).1 h).2 [1] (by decide)).1
  cases ha

/-- the Sobel filter without a padder -/
example (f : EdgeFilter ℚ) (hf : EdgeFilter.sobel false = .ok f) (junk : List Nat → Flt ℚ) : ∃ Z,
    f.convEdgeFlt (.shared none) junk (fimg [.num 1, .nan, .num 3, .num 4, .num 5]) 0 = (.shared none, .ok Z) ∧ IsFinite (Z.get [0]) ∧ ¬ IsFinite (Z.get [1]) ∧ IsFinite (Z.get [2]) := by
  have hk : (f.edgeKernel.get 0).bind SepPool.asVec = .ok [-1, 0, 1] := by
    cases hf
    rfl
  obtain ⟨Z, h1, h2, h3⟩ := C139_first (ps := .shared none) (X := fimg [.num 1, .nan, .num 3, .num 4, .num 5]) (junk' := junk) (a := 0) hk (by decide +kernel) (q := none)
    (Y := fimg [.num 1, .nan, .num 3, .num 4, .num 5]) (by rfl) (by decide)
  have hin : ∀ i, i < 3 → InB Z.shape [i] := fun i hi => by rw [h2]; exact ⟨hi, trivial⟩
  refine ⟨Z, h1, (h3 [0] (hin 0 (by omega))).2 ⟨⟨1, rfl⟩, 3, rfl⟩, fun h => ?_, (h3 [2] (hin 2 (by omega))).2 ⟨⟨3, rfl⟩, 5, rfl⟩⟩
  obtain ⟨a, ha⟩ := ((h3 [1] (hin 1 (by omega))).1 h).1
  cases ha

/-- the entries of the sharpened image -/
def runSharpen (amount threshold : ℚ) (l : List (Flt ℚ)) : Option (List (Flt ℚ)) :=
  match SepPool.init (PoolArgs.pyKernel [1 / 3, 1 / 3, 1 / 3]) (PoolArgs.pyStride (some 1)) with
  | .ok pool => match (UnsharpMask.forwardFlt ⟨pool, amount, threshold⟩ (some ((args .circular).padder 1)) (fun _ => .nan) (fimg l) .none).2 with
    | .ok z => some z.data
    | .error _ => none
  | .error _ => none

/-- the errors of two signals -/
def runMse (r : Reduction) (a b : List (Flt ℚ)) : Option (List (Flt ℚ)) :=
  match mseFlt r (fimg a) (fimg b) .none with
  | .ok z => some z.data
  | .error _ => none

/-- the response of the Sobel filter along the axis of a signal, without a padder -/
def runSobel (l : List (Flt ℚ)) : Option (List (Flt ℚ)) :=
  match EdgeFilter.sobel (α := ℚ) false with
  | .ok f => match (f.convEdgeFlt (.shared none) (fun _ => .nan) (fimg l) 0).2 with
    | .ok z => some z.data
    | .error _ => none
  | .error _ => none

end FltMoreExample

open FltMoreExample in
/-- **C139**: an amount of zero does not keep an infinity from spreading as NaN; the error between an image and itself is NaN if there is an infinity; the mean of no errors is NaN,
their sum zero; differences pass over the entry in the middle. -/
theorem C139_differ :
    runSharpen 0 0 [.num 1, .inf true, .num 3, .num 4, .num 5] = some [.nan, .nan, .nan, .num 4, .num 5] ∧
    runSharpen 3 100 [.num 1, .inf true, .num 3, .num 4, .num 5] = some [.inf false, .nan, .inf false, .num 4, .num 5] ∧
    runMse .mean [.num 1, .inf false] [.num 1, .inf false] = some [.nan] ∧
    runMse .mean [.num 1, .inf false] [.num 1, .num 2] = some [.inf false] ∧
    runMse .none [.inf true, .num 2] [.num 0, .num 5] = some [.inf false, .num 9] ∧
    runMse .mean [] [] = some [.nan] ∧ runMse .sum [] [] = some [.num 0] ∧
    runSobel [.num 1, .nan, .num 3, .num 4, .num 5] = some [.num 2, .nan, .num 2] := by
  decide +kernel

end TI
