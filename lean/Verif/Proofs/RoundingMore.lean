import Verif.Proofs.Rounding
import Verif.Proofs.EdgesMag
import Verif.Proofs.Flip
import Verif.Spec.RoundingMore
import Verif.Model.RoundedMore

/-!
# Rounding errors of sharpening and of edge filters: auxiliary lemmas
-/

set_option linter.unusedSectionVars false

namespace TI
open Tensor Spec

variable {α : Type} [Field α] [LinearOrder α] [IsStrictOrderedRing α] {u : α}

/-- `v'` is `v` up to an error of `e` on the scale `A`, which is at least as large as `v` -/
structure Near1 (e v' v A : α) : Prop where
  err : |v' - v| ≤ e * A
  le : |v| ≤ A

theorem Near1.nonneg {e v' v A : α} (h : Near1 e v' v A) : 0 ≤ A := (abs_nonneg v).trans h.le

theorem Near1.refl (v : α) : Near1 0 v v |v| := ⟨by simp, le_rfl⟩

theorem Near1.mono {e e' v' v A : α} (h : Near1 e v' v A) (he : e ≤ e') : Near1 e' v' v A :=
  ⟨h.err.trans (mul_le_mul_of_nonneg_right he h.nonneg), h.le⟩

theorem Near1.round {e v' v A r : α} (h : Near1 e v' v A) (hu : 0 ≤ u) (hr : Rounds u v' r) : Near1 ((1 + e) * (1 + u) - 1) r v A := by
  refine ⟨?_, h.le⟩
  have h1 : |r - v| ≤ |r - v'| + |v' - v| := by
    have := abs_add_le (r - v') (v' - v)
    rwa [sub_add_sub_cancel] at this
  have h2 : |v'| ≤ |v' - v| + |v| := by
    have := abs_add_le (v' - v) v
    rwa [sub_add_cancel] at this
  have h3 := h.err
  have h4 := h.le
  have hr : |r - v'| ≤ u * |v'| := hr
  have h5 : u * |v'| ≤ u * (e * A + A) := mul_le_mul_of_nonneg_left (by linarith) hu
  nlinarith

theorem Near1.add {e a' a A b' b B : α} (h : Near1 e a' a A) (h' : Near1 e b' b B) : Near1 e (a' + b') (a + b) (A + B) := by
  constructor
  · rw [show a' + b' - (a + b) = (a' - a) + (b' - b) by ring, mul_add]
    exact (abs_add_le _ _).trans (add_le_add h.err h'.err)
  · exact (abs_add_le _ _).trans (add_le_add h.le h'.le)

theorem Near1.sub {e a' a A b' b B : α} (h : Near1 e a' a A) (h' : Near1 e b' b B) : Near1 e (a' - b') (a - b) (A + B) := by
  constructor
  · rw [show a' - b' - (a - b) = (a' - a) - (b' - b) by ring, mul_add]
    exact (abs_sub _ _).trans (add_le_add h.err h'.err)
  · exact (abs_sub _ _).trans (add_le_add h.le h'.le)

theorem Near1.mul {e v' v A a c : α} (h : Near1 e v' v A) (hu : 0 ≤ u) (hc : Rounds u a c) : Near1 ((1 + e) * (1 + u) - 1) (c * v') (a * v) (|a| * A) := by
  have hc : |c - a| ≤ u * |a| := hc
  have hc' : |c| ≤ (1 + u) * |a| := by
    have := abs_sub_abs_le_abs_sub c a
    linarith
  constructor
  · rw [show c * v' - a * v = c * (v' - v) + (c - a) * v by ring]
    refine (abs_add_le _ _).trans ?_
    rw [abs_mul, abs_mul]
    have t1 : |c| * |v' - v| ≤ ((1 + u) * |a|) * (e * A) := mul_le_mul hc' h.err (abs_nonneg _) (mul_nonneg (by linarith) (abs_nonneg a))
    have t2 : |c - a| * |v| ≤ (u * |a|) * A := mul_le_mul hc h.le (abs_nonneg _) (mul_nonneg hu (abs_nonneg a))
    linarith
  · rw [abs_mul]
    exact mul_le_mul_of_nonneg_left h.le (abs_nonneg a)

theorem bound_step (u : α) (n : Nat) : (1 + roundingBound u n) * (1 + u) - 1 = roundingBound u (n + 1) := by
  rw [roundingBound, roundingBound, pow_succ]
  ring

theorem bound_zero (u : α) : roundingBound u 0 = 0 := by simp [roundingBound]

theorem bound_one (u : α) : roundingBound u 1 = u := by simp [roundingBound]

theorem bound_le (hu : 0 ≤ u) {n k : Nat} (h : n ≤ k) : roundingBound u n ≤ roundingBound u k := by
  have := bound_mono hu h
  rw [roundingBound, roundingBound]
  linarith

theorem Near.one {e : α} {y' y A : Tensor α} (h : Near e y' y A) (ix : List Nat) : Near1 e (y'.get ix) (y.get ix) (A.get ix) := ⟨(h.get ix).1, (h.get ix).2⟩

theorem data_of_get (t : Tensor α) {S : List Nat} (h : t.shape = S) (n : Nat) :
    (∃ ix, InB S ix ∧ (indices S)[n]? = some ix ∧ t.data.getD n 0 = t.get ix) ∨ ((indices S)[n]? = none ∧ t.data.getD n 0 = 0) := by
  subst h
  rw [show t.data = (ofFn t.shape t.get).data from congrArg Tensor.data (eq_ofFn_get t)]
  simp only [ofFn, List.getD_eq_getElem?_getD, List.getElem?_map]
  cases hn : (indices t.shape)[n]? with
  | none => exact Or.inr ⟨rfl, rfl⟩
  | some ix => exact Or.inl ⟨ix, mem_indices.1 (List.mem_of_getElem? hn), rfl, rfl⟩

theorem Near.of_get {e : α} {y' y A : Tensor α} (h1 : y'.shape = y.shape) (h2 : A.shape = y.shape)
    (h : ∀ ix, InB y.shape ix → Near1 e (y'.get ix) (y.get ix) (A.get ix)) : Near e y' y A := by
  have key : ∀ n, Near1 e (y'.data.getD n 0) (y.data.getD n 0) (A.data.getD n 0) := by
    intro n
    rcases data_of_get y rfl n with ⟨ix, hix, e1, e2⟩ | ⟨e1, e2⟩
    · rcases data_of_get y' h1 n with ⟨jx, -, f1, f2⟩ | ⟨f1, -⟩
      · rcases data_of_get A h2 n with ⟨kx, -, k1, k2⟩ | ⟨k1, -⟩
        · rw [e1] at f1 k1
          cases f1
          cases k1
          rw [e2, f2, k2]
          exact h ix hix
        · rw [e1] at k1; cases k1
      · rw [e1] at f1; cases f1
    · rcases data_of_get y' h1 n with ⟨jx, -, f1, -⟩ | ⟨-, f2⟩
      · rw [e1] at f1; cases f1
      · rcases data_of_get A h2 n with ⟨kx, -, k1, -⟩ | ⟨-, k2⟩
        · rw [e1] at k1; cases k1
        · rw [e2, f2, k2]
          exact ⟨by simp, by simp⟩
  exact ⟨h1, h2, fun n => (key n).err, fun n => (key n).le⟩

theorem Near.mono {e e' : α} {y' y A : Tensor α} (h : Near e y' y A) (he : e ≤ e') : Near e' y' y A :=
  Near.of_get h.shape h.scale fun ix _ => (h.one ix).mono he

/-! ## padding -/

theorem rule_near {s : AxisPad α} (hc : copies s.mode = true) {E : Ext α} (hE : s.rule? = some E) {n : Nat} (hn : 0 < n) :
    ∃ E', ({ s with cv := (|s.cv.1|, |s.cv.2|) } : AxisPad α).rule? = some E' ∧ ∀ {e : α} (_ : 0 ≤ e) (v' v A : Nat → α) (z : Int),
      (∀ j < n, Near1 e (v' j) (v j) (A j)) → Near1 e (E n v' z) (E n v z) (E' n A z) := by
  have coord : ∀ c, modeC s.mode = some c → (∀ n z, modeS s.mode n z = (1 : α)) →
      ({ s with cv := (|s.cv.1|, |s.cv.2|) } : AxisPad α).rule? = s.rule? →
      ∃ E', ({ s with cv := (|s.cv.1|, |s.cv.2|) } : AxisPad α).rule? = some E' ∧ ∀ {e : α} (_ : 0 ≤ e) (v' v A : Nat → α) (z : Int),
      (∀ j < n, Near1 e (v' j) (v j) (A j)) → Near1 e (E n v' z) (E n v z) (E' n A z) := by
    intro c hc hs he
    obtain ⟨E', h1, h2, h3⟩ := rule_coord hc hn
    rw [hE] at h1
    cases h1
    refine ⟨E, by rw [he, hE], fun _ v' v A z h => ?_⟩
    rw [h2, h2, h2, hs, one_mul, one_mul, one_mul]
    exact h _ (h3 z)
  obtain ⟨b, a, m, cv, ev, sl⟩ := s
  have const : ∀ {e c : α}, 0 ≤ e → Near1 e c c |c| := fun he => (Near1.refl _).mono he
  cases m <;> simp only [copies, reduceCtorEq] at hc
  case replicate => exact coord _ rfl (fun _ _ => rfl) rfl
  case circular => exact coord _ rfl (fun _ _ => rfl) rfl
  case periodize => exact coord _ rfl (fun _ _ => rfl) rfl
  case symmetric => exact coord _ rfl (fun _ _ => rfl) rfl
  case reflect => exact coord _ rfl (fun _ _ => rfl) rfl
  all_goals simp only [AxisPad.rule?, Option.some.injEq, reduceCtorEq] at hE
  all_goals
    subst hE
    refine ⟨_, rfl, fun he v' v A z h => ?_⟩
    simp only [Spec.constant]
    split_ifs
  all_goals first
    | exact h _ (by omega)
    | exact const he
    | simpa using const (c := 0) he

theorem Near.padStep {e : α} (he : 0 ≤ e) {y' y A : Tensor α} (h : Near e y' y A) {o : Nat × AxisPad α} (hd : o.1 < y.ndim) (hc : copies o.2.mode = true)
    (hn : ¬ (o.2.before = 0 ∧ o.2.after = 0) → o.2.rule? ≠ none ∧ 0 < y.shape.getD o.1 0) :
    Near e (padStep y' o) (padStep y o) (Spec.padStep A (absPad o)) := by
  obtain ⟨d, s⟩ := o
  by_cases hz : s.before = 0 ∧ s.after = 0
  · simpa [Spec.padStep, absPad, hz] using h
  obtain ⟨E, hE⟩ := Option.ne_none_iff_exists'.1 (hn hz).1
  obtain ⟨E', hE', key⟩ := rule_near hc hE (hn hz).2
  have e0 : (absPad (d, s)).2.total (y.shape.getD d 0) = s.total (y.shape.getD d 0) := rfl
  simp only [Spec.padStep, hE, if_neg hz, absPad, hE', h.shape, h.scale]
  rw [show (AxisPad.total { s with cv := (|s.cv.1|, |s.cv.2|) } (y.shape.getD d 0)) = s.total (y.shape.getD d 0) from rfl]
  refine Near.of_get (by simp only [extended_shape, h.shape]) (by simp only [extended_shape, h.scale]) fun ix hix => ?_
  rw [extended_get hix, extended_get (by rw [extended_shape, h.shape]; exact hix), extended_get (by rw [extended_shape, h.scale]; exact hix), h.shape, h.scale]
  exact key he _ _ _ _ fun j _ => h.one _

theorem Near.padSeq {e : α} (he : 0 ≤ e) : ∀ {ops : List (Nat × AxisPad α)} {y' y A : Tensor α}, Near e y' y A → (ops.map Prod.fst).Nodup →
    (∀ o ∈ ops, o.1 < y.ndim) → (∀ o ∈ ops, copies o.2.mode = true) →
    (∀ o ∈ ops, ¬ (o.2.before = 0 ∧ o.2.after = 0) → o.2.rule? ≠ none ∧ 0 < y.shape.getD o.1 0) →
    Near e (Spec.padSeq y' ops) (Spec.padSeq y ops) (Spec.padSeq A (ops.map absPad))
  | [], _, _, _, h, _, _, _, _ => h
  | o :: ops, y', y, A, h, hnd, hd, hc, hn => by
    rw [List.map_cons, List.nodup_cons] at hnd
    rw [List.map_cons, padSeq_cons, padSeq_cons, padSeq_cons]
    have hsh := padStep_shape (x := y) (o := o) fun hw => (hn o (by simp) hw).1
    refine Near.padSeq he (h.padStep he (hd o (by simp)) (hc o (by simp)) (hn o (by simp))) hnd.2 ?_ (fun q hq => hc q (by simp [hq])) ?_
    · intro q hq
      simpa [ndim, hsh] using hd q (by simp [hq])
    · intro q hq hz
      have hq' : q.1 ≠ o.1 := fun e => hnd.1 (List.mem_map.2 ⟨q, hq, e⟩)
      rw [hsh, getD_set_ne _ _ _ _ _ hq']
      exact hn q (by simp [hq]) hz


/-! ## filters with a same padder -/

variable {pool : SepPool α} {q : PoolArgs α} {m : Nat} {dot dot' : Nat → List Nat → List α → List α → α}

theorem PoolIs.forwardWith_same (h : PoolIs pool q m) {gp : PadArgs α} {x : Tensor α} {ax : Axes} {axes : List Nat}
    (hc : SameCall q gp x ax axes) (hm : q.isMany = true → axes.length = m) {p : Padder α} (hp : Holds p gp) (junk : List Nat → α) :
    SepPool.forwardWith dot pool (some p) junk x ax =
      (some ((gp.withWidths (q.widths x.shape axes)).padder axes.length), .ok (seqWith dot 0 (Spec.padSeq x (sameOps q gp x.shape axes)) (q.ops axes))) := by
  obtain ⟨hca, _⟩ := checkAxes_spec hc.axes_eq
  have hnd : pool.ndim = 0 ∨ pool.ndim = ((castV axes).length : Int) := by
    rw [h.ndim]
    split_ifs with hh
    · right; simp [castV, hm hh]
    · left; rfl
  simp only [SepPool.forwardWith, hca, if_pos hnd, h.pad_same hc hm hp junk]
  rw [h.loopWith_all dot (fun hh => by rw [hm hh]) hc.poolOps.fitting]

theorem bound_seq (u : α) (n k : Nat) : (1 + roundingBound u n) * (1 + u) ^ k - 1 = roundingBound u (n + k) := by
  rw [roundingBound, roundingBound, pow_add]
  ring

/-! ## the edge step -/

variable {x : Tensor α} {a : Nat} {add sub : α → α → α} {twice : α → α}

theorem diff_range (ha : a < x.ndim) {ix : List Nat} (hix : InB (x.shape.set a (x.shape.getD a 0 - 2)) ix) : 2 ≤ x.shape.getD a 0 := by
  have ha' : a < x.shape.length := ha
  have := hix.lt (k := a) (by simpa using ha')
  rw [getD_set_self _ _ _ _ ha'] at this
  omega

theorem firstDiffWith_eq (sub : α → α → α) (ha : a < x.ndim) : EdgeFilter.firstDiffWith sub x (a : Int) =
    .ok (ofFn (x.shape.set a (x.shape.getD a 0 - 2)) fun ix => sub (x.get (ix.set a (ix.getD a 0 + 2))) (x.get (ix.set a (ix.getD a 0)))) := by
  rw [EdgeFilter.firstDiffWith, sliceAt_eq ha (resolve_from_two _), sliceAt_eq ha (resolve_upto_two _)]
  simp only [ok_bind]
  rw [bop_same (by simp)]
  congr 1
  apply ofFn_congr
  intro ix hix
  have hix' : InB (x.shape.set a (x.shape.getD a 0 - 2)) ix := hix
  rw [get_ofFn hix', get_ofFn hix', Nat.min_eq_left (diff_range ha hix'), Nat.zero_add, Nat.add_comm 2]

theorem secondDiffWith_eq (add sub : α → α → α) (twice : α → α) (ha : a < x.ndim) : EdgeFilter.secondDiffWith add sub twice x (a : Int) =
    .ok (ofFn (x.shape.set a (x.shape.getD a 0 - 2)) fun ix => sub (add (x.get (ix.set a (ix.getD a 0 + 2))) (x.get (ix.set a (ix.getD a 0))))
      (twice (x.get (ix.set a (ix.getD a 0 + 1))))) := by
  rw [EdgeFilter.secondDiffWith, sliceAt_eq ha (resolve_from_two _), sliceAt_eq ha (resolve_upto_two _), sliceAt_eq ha (resolve_inner _)]
  simp only [ok_bind]
  rw [bop_same (by simp)]
  simp only [ok_bind]
  rw [bop_same (by simp)]
  congr 1
  apply ofFn_congr
  intro ix hix
  have hix' : InB (x.shape.set a (x.shape.getD a 0 - 2)) ix := hix
  have h2 := diff_range ha hix'
  rw [get_ofFn (by simpa using hix'), get_map _ _ (by simpa using hix'), get_ofFn hix', get_ofFn hix', get_ofFn hix', Nat.min_eq_left h2,
    Nat.min_eq_left (by omega), Nat.zero_add, Nat.add_comm 2, Nat.add_comm 1]

theorem firstDiffWith_near (hu : 0 ≤ u) (hs : ∀ a b, Rounds u (a - b) (sub a b)) (ha : a < x.ndim) :
    ∃ y', EdgeFilter.firstDiffWith sub x (a : Int) = .ok y' ∧ Near (roundingBound u 1) y' (slide x ⟨a, [-1, 0, 1], 1⟩) ((slide x ⟨a, [-1, 0, 1], 1⟩).map abs) := by
  refine ⟨_, firstDiffWith_eq sub ha, ?_⟩
  rw [slide_three]
  refine Near.of_get rfl rfl fun ix hix => ?_
  have hix : InB (x.shape.set a (x.shape.getD a 0 - 2)) ix := hix
  rw [get_ofFn hix, get_map _ _ hix, get_ofFn hix, show (-1 : α) * x.get (ix.set a (ix.getD a 0)) + (0 * x.get (ix.set a (ix.getD a 0 + 1)) +
    1 * x.get (ix.set a (ix.getD a 0 + 2))) = x.get (ix.set a (ix.getD a 0 + 2)) - x.get (ix.set a (ix.getD a 0)) by ring]
  have := (Near1.refl (x.get (ix.set a (ix.getD a 0 + 2)) - x.get (ix.set a (ix.getD a 0)))).round hu (hs _ _)
  rwa [← bound_zero u, bound_step] at this

theorem secondDiffWith_near (hu : 0 ≤ u) (ho : AccurateDiff u add sub twice) (ha : a < x.ndim) :
    ∃ y', EdgeFilter.secondDiffWith add sub twice x (a : Int) = .ok y' ∧ Near (roundingBound u 2) y' (slide x ⟨a, [1, -2, 1], 1⟩) (magnitudeOf x [⟨a, [1, -2, 1], 1⟩]) := by
  refine ⟨_, secondDiffWith_eq add sub twice ha, ?_⟩
  have e : magnitudeOf x [⟨a, [1, -2, 1], 1⟩] = slide (x.map abs) ⟨a, [1, 2, 1], 1⟩ := by
    simp [magnitudeOf, poolSeq, absOp]
  rw [e, slide_three, slide_three]
  refine Near.of_get rfl rfl fun ix hix => ?_
  have hix : InB (x.shape.set a (x.shape.getD a 0 - 2)) ix := hix
  have h2 := diff_range ha hix
  have hin : ∀ k ≤ 2, InB x.shape (ix.set a (ix.getD a 0 + k)) := by
    intro k hk
    have ha' : a < x.shape.length := ha
    have hl := hix.lt (k := a) (by simpa using ha')
    rw [getD_set_self _ _ _ _ ha'] at hl
    have := hix.set' (d := a) (i := ix.getD a 0 + k) (m := x.shape.getD a 0) (by omega)
    rwa [List.set_set, set_getD_self] at this
  rw [get_ofFn hix, get_ofFn hix, get_ofFn (show InB ((x.map abs).shape.set a ((x.map abs).shape.getD a 0 - 2)) ix from hix), get_map _ _ (show InB x.shape (ix.set a (ix.getD a 0)) from hin 0 (by omega)),
    get_map _ _ (hin 1 (by omega)), get_map _ _ (hin 2 (by omega))]
  generalize x.get (ix.set a (ix.getD a 0 + 2)) = p
  generalize x.get (ix.set a (ix.getD a 0 + 1)) = q
  generalize x.get (ix.set a (ix.getD a 0)) = r
  have n1 := ((Near1.refl p).add (Near1.refl r)).round hu (ho.add _ _)
  have n2 := (Near1.refl (2 * q)).round hu (ho.twice _)
  have n3 := (n1.sub n2).round hu (ho.sub _ _)
  rw [← bound_zero u, bound_step, bound_step] at n3
  refine ⟨?_, ?_⟩
  · have := n3.err
    rw [abs_mul, abs_two] at this
    rw [show 1 * r + (-2 * q + 1 * p) = p + r - 2 * q by ring, show 1 * |r| + (2 * |q| + 1 * |p|) = |p| + |r| + 2 * |q| by ring]
    exact this
  · have := n3.le
    rw [abs_mul, abs_two] at this
    rw [show 1 * r + (-2 * q + 1 * p) = p + r - 2 * q by ring, show 1 * |r| + (2 * |q| + 1 * |p|) = |p| + |r| + 2 * |q| by ring]
    exact this

section
variable [FloorRing α] {f : EdgeFilter α} {w : List α} {g : Given (List α)} {ps : EdgePadders α} {gp : PadArgs α}

theorem convEdgeWith_same (hu : 0 ≤ u) (hd : AccurateDot u dot) (ho : AccurateDiff u add sub twice) (h : EdgeIs f w g m)
    (hps : HoldsBoth ps gp) (hc : SameCall (PoolArgs.filter (.one w)) gp x (.int a) [a]) (junk : List Nat → α) :
    ∃ ps' y', f.convEdge ps junk x (a : Int) = (ps', .ok (filtered (.one (usedKernel w)) gp x [a])) ∧
      f.convEdgeWith dot add sub twice ps junk x (a : Int) = (ps', .ok y') ∧ HoldsBoth ps' gp ∧
      Near (roundingBound u (edgeRoundings w)) y' (filtered (.one (usedKernel w)) gp x [a]) (edgeScale w gp x a) := by
  obtain ⟨e, s, h1, h2, h3, h4⟩ := id hps
  have ha : a < x.ndim := (checkAxes_spec hc.axes_eq).2 a (by simp)
  have hpad := h.edge.pad_same hc (by intro h; cases h) h3 junk
  obtain ⟨ps1, e1, hps1⟩ := convEdge_same h hps hc junk
  have hfl : ∀ v : List α, v.length = w.length → filtered (.one v) gp x [a] =
      slide (Spec.padSeq x (sameOps (PoolArgs.filter (.one w)) gp x.shape [a])) ⟨a, v, 1⟩ := by
    intro v hv
    rw [filtered, sameOps_congr hv]
    rfl
  rw [hfl _ (usedKernel_length w)]
  have hps1' : ps1 = ps.setEdge (some ((gp.withWidths ((PoolArgs.filter (.one w)).widths x.shape [a])).padder [a].length)) := by
    have e2 := e1
    rw [convEdge_eq h, h1, pad_int _ _ _ _ ha, hpad] at e2
    have e3 := congrArg Prod.fst e2
    rw [h.edge.forward_same hc (by intro h; cases h) h3 junk] at e3
    split_ifs at e3 <;> exact e3.symm
  have hy := (hc.poolOps).axis
  rw [ops_single] at hy
  set Y := Spec.padSeq x (sameOps (PoolArgs.filter (.one w)) gp x.shape [a]) with hY
  by_cases t1 : TakenForFirst w
  · have hne : w ≠ [] := by rintro rfl; simp [TakenForFirst] at t1
    have hwl : w.length = 3 := by
      match w, t1 with
      | [_, _, _], _ => rfl
    obtain ⟨y', k1, k2⟩ := firstDiffWith_near (x := Y) (a := a) hu ho.sub (hy ⟨a, w, 1⟩ (by simp) hne)
    refine ⟨ps1, y', e1, ?_, hps1, ?_⟩
    · simp only [EdgeFilter.convEdgeWith, h.kernel_get, if_pos ((trunc_first w).2 t1), h1, pad_int _ _ _ _ ha, hpad]
      rw [hps1']
      simp only [Except.bind, k1]
    · rw [edgeRoundings, if_pos t1, edgeScale, if_pos t1, usedKernel, if_pos t1, hfl _ (by simp [hwl])]
      exact k2
  by_cases t2 : TakenForSecond w
  · have hne : w ≠ [] := by rintro rfl; simp [TakenForSecond] at t2
    obtain ⟨y', k1, k2⟩ := secondDiffWith_near (x := Y) (a := a) hu ho (hy ⟨a, w, 1⟩ (by simp) hne)
    refine ⟨ps1, y', e1, ?_, hps1, ?_⟩
    · simp only [EdgeFilter.convEdgeWith, h.kernel_get, if_neg (mt (trunc_first w).1 t1), if_pos ((trunc_second w).2 t2), h1, pad_int _ _ _ _ ha, hpad]
      rw [hps1']
      simp only [Except.bind, k1]
    · rw [edgeRoundings, if_neg t1, if_pos t2, edgeScale, if_neg t1, usedKernel, if_neg t1, if_pos t2]
      exact k2
  · refine ⟨ps1, seqWith dot 0 Y [⟨a, w, 1⟩], e1, ?_, hps1, ?_⟩
    · simp only [EdgeFilter.convEdgeWith, h.kernel_get, if_neg (mt (trunc_first w).1 t1), if_neg (mt (trunc_second w).1 t2), h1]
      rw [h.edge.forwardWith_same hc (by intro h; cases h) h3 junk, hps1']
      rfl
    · have := seqWith_near hu hd Y [⟨a, w, 1⟩]
      rw [edgeRoundings, if_neg t1, if_neg t2, edgeScale, if_neg t1, usedKernel, if_neg t1, if_neg t2]
      rwa [show roundings [(⟨a, w, 1⟩ : PoolOp α)] = if w = [] then 0 else w.length + 1 by simp [roundings]] at this

end

end TI
