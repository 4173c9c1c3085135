import Verif.Proofs.PoolSame
import Verif.Proofs.PadModes
import Mathlib.Algebra.Order.BigOperators.Group.List

/-!
# Laws of pooling: linearity, range, errors
-/

set_option linter.unusedSectionVars false

namespace TI
open Tensor Spec

variable {α : Type} [Field α] [LinearOrder α] [IsStrictOrderedRing α]

/-! ## sizes and errors -/

theorem ops_axis (g : PoolArgs α) (axes : List Nat) : (g.ops axes).map (·.axis) = axes := by
  rw [PoolArgs.ops, List.map_map]
  apply List.ext_getElem (by simp)
  intro i h1 h2
  simp [PoolArgs.op, h2]

theorem mem_ops {g : PoolArgs α} {axes : List Nat} {o : PoolOp α} :
    o ∈ g.ops axes ↔ ∃ i < axes.length, g.op axes i = o := by
  simp [PoolArgs.ops]

theorem given_entry_mem {β : Type} {g : Given β} {m i : Nat} (hg : g.Fits m) (hi : i < m) (d : β) : g.entry d i ∈ g.values := by
  cases g with
  | one b => simp [Given.entry, Given.values]
  | many l =>
    have : i < l.length := by have : l.length = m := hg; omega
    simp [Given.entry, Given.values, this]

/-- valid arguments give positive strides wherever the kernel is not empty -/
theorem op_stride_pos {g : PoolArgs α} {axes : List Nat} (hv : g.Valid) (hf : g.Fits axes.length) {i : Nat} (hi : i < axes.length)
    (hk : (g.op axes i).kernel ≠ []) : 0 < (g.op axes i).stride := by
  have hm := given_entry_mem hf.2 hi none
  have := hv _ hm
  simp only [PoolArgs.op] at hk ⊢
  cases hs : g.stride.entry none i with
  | none => simpa using List.length_pos_iff.2 hk
  | some s =>
    rw [hs] at this
    simp only [Option.getD_some]
    simp only [ne_eq, Option.some.injEq] at this
    omega

/-- distinct existing axes at least as long as their kernels -/
theorem poolOps_of {g : PoolArgs α} {axes : List Nat} {x : Tensor α} (hv : g.Valid) (hf : g.Fits axes.length) (hnd : axes.Nodup)
    (hlt : ∀ a ∈ axes, a < x.ndim) (hsz : ∀ o ∈ g.ops axes, o.kernel.length ≤ x.shape.getD o.axis 0) : PoolOps x (g.ops axes) where
  nodup := by rw [ops_axis]; exact hnd
  axis := by
    intro o ho _
    have : o.axis ∈ axes := by rw [← ops_axis g axes]; exact List.mem_map.2 ⟨o, ho, rfl⟩
    exact hlt _ this
  stride := by
    intro o ho hk
    obtain ⟨i, hi, rfl⟩ := mem_ops.1 ho
    exact op_stride_pos hv hf hi hk
  fits := fun o ho _ => hsz o ho

variable {pool : SepPool α} {g : PoolArgs α} {m : Nat}

/-- a window that does not fit raises -/
theorem PoolIs.loop_error (h : PoolIs pool g m) {axes : List Nat} (hi : g.isMany = true → axes.length ≤ m)
    (hv : ∀ i < axes.length, (g.op axes i).kernel ≠ [] → 0 < (g.op axes i).stride) :
    ∀ (n i : Nat) (x : Tensor α), i + n = axes.length → (∀ a ∈ axes, a < x.ndim) →
      ¬ Fitting x ((List.range n).map fun j => g.op axes (i + j)) →
      SepPool.poolLoop pool i (castV (axes.drop i)) x = .error .runtime
  | 0, i, x, hn, _, hf => absurd trivial hf
  | n + 1, i, x, hn, hlt, hf => by
    have hlti : i < axes.length := by omega
    rw [List.range_succ_eq_map, List.map_cons, List.map_map] at hf
    rw [List.drop_eq_getElem_cons hlti, castV, List.map_cons, SepPool.poolLoop]
    have hmem : axes.getD i 0 ∈ axes := by simp [hlti]
    have hax : (axes[i] : Int) = ((axes.getD i 0 : Nat) : Int) := by simp [hlti]
    rw [hax]
    by_cases hfit : (g.op axes i).kernel ≠ [] → (g.op axes i).axis < x.ndim ∧ 0 < (g.op axes i).stride ∧
      (g.op axes i).kernel.length ≤ x.shape.getD (g.op axes i).axis 0
    · rw [h.step (fun hh => by have := hi hh; omega) hfit]
      simp only [bind, Except.bind]
      apply h.loop_error hi hv n (i + 1) (slide x (g.op axes i)) (by omega) (by rw [slide_ndim]; exact hlt)
      intro hc
      apply hf
      refine ⟨by simpa using hfit, ?_⟩
      have e : ((fun j => g.op axes (i + j)) ∘ Nat.succ) = fun j => g.op axes (i + 1 + j) := by
        funext j
        simp only [Function.comp]
        congr 1
        omega
      rw [e]
      simpa using hc
    · rw [Classical.not_imp] at hfit
      obtain ⟨hk, hbad⟩ := hfit
      have ha : (g.op axes i).axis < x.ndim := hlt _ hmem
      rw [h.step_error (fun hh => by have := hi hh; omega) ha (by
        by_contra hc
        exact hbad ⟨ha, hv i hlti hk, by omega⟩)]
      rfl

theorem PoolIs.forward_none_error (h : PoolIs pool g m) {x : Tensor α} {ax : Axes} {axes : List Nat}
    (hax : axesOf x.ndim ax = some axes) (hm : g.isMany = true → axes.length = m)
    (hv : ∀ i < axes.length, (g.op axes i).kernel ≠ [] → 0 < (g.op axes i).stride)
    (hf : ¬ Fitting x (g.ops axes)) (junk : List Nat → α) :
    SepPool.forward pool none junk x ax = (none, .error .runtime) := by
  obtain ⟨hc, hlt⟩ := checkAxes_spec hax
  have hnd : pool.ndim = 0 ∨ pool.ndim = ((castV axes).length : Int) := by
    rw [h.ndim]
    split_ifs with hh
    · right; simp [castV, hm hh]
    · left; rfl
  simp only [SepPool.forward, hc, if_pos hnd, SepPool.pad, checkAxes_castV hlt]
  have := h.loop_error (fun hh => by rw [hm hh]) hv axes.length 0 x (by omega) hlt (by simpa [PoolArgs.ops] using hf)
  rw [List.drop_zero] at this
  rw [this]

/-- the wrong number of axes raises -/
theorem PoolIs.forward_ndim (h : PoolIs pool g m) (hpos : 0 < m) {x : Tensor α} {ax : Axes} {axes : List Nat}
    (hax : axesOf x.ndim ax = some axes) (hmany : g.isMany = true) (hm : axes.length ≠ m) (p : Option (Padder α)) (junk : List Nat → α) :
    SepPool.forward pool p junk x ax = (p, .error .assertion) := by
  obtain ⟨hc, hlt⟩ := checkAxes_spec hax
  have hnd : ¬ (pool.ndim = 0 ∨ pool.ndim = ((castV axes).length : Int)) := by
    rw [h.ndim, if_pos hmany]
    simp only [castV, List.length_map]
    omega
  simp only [SepPool.forward, hc, if_neg hnd]

/-! ## linearity -/

theorem lincomb_get {a b : α} {x y : Tensor α} {ix : List Nat} (h : InB x.shape ix) :
    (lincomb a x b y).get ix = a * x.get ix + b * y.get ix := get_ofFn h

theorem slide_lincomb {a b : α} {x y : Tensor α} (hs : x.shape = y.shape) {o : PoolOp α} (ho : o.kernel ≠ [] → o.axis < x.ndim ∧ 0 < o.stride) :
    slide (lincomb a x b y) o = lincomb a (slide x o) b (slide y o) := by
  by_cases hk : o.kernel = []
  · simp [slide, hk]
  have hsh : (slide (lincomb a x b y) o).shape = (slide x o).shape := by simp only [slide_shape]; rfl
  have hsh' : (slide x o).shape = (slide y o).shape := by simp only [slide_shape, hs]
  apply ext_get (show _ = (lincomb a (slide x o) b (slide y o)).shape from hsh)
  intro ix hix
  rw [slide_get hk hix]
  rw [hsh] at hix
  rw [lincomb_get hix, slide_get hk hix, slide_get hk (hsh' ▸ hix), mul_sum_map, mul_sum_map, ← List.sum_map_add]
  congr 1
  apply List.map_congr_left
  intro j hj
  rw [lincomb_get (slide_inB (ho hk).2 (ho hk).1 hk hix (List.mem_range.1 hj))]
  ring

theorem poolSeq_lincomb {a b : α} : ∀ {ops : List (PoolOp α)} {x y : Tensor α}, x.shape = y.shape → PoolOps x ops →
    poolSeq (lincomb a x b y) ops = lincomb a (poolSeq x ops) b (poolSeq y ops)
  | [], _, _, _, _ => rfl
  | o :: ops, x, y, hs, h => by
    change poolSeq (slide _ o) ops = lincomb a (poolSeq (slide x o) ops) b (poolSeq (slide y o) ops)
    rw [slide_lincomb hs (fun hk => ⟨h.axis o (by simp) hk, h.stride o (by simp) hk⟩),
      poolSeq_lincomb (by simp only [slide_shape, hs]) h.tail]

theorem padStep_lincomb {a b : α} {x y : Tensor α} (hs : x.shape = y.shape) {o : Nat × AxisPad α} (ha : o.1 < x.ndim)
    (hl : o.2.Linear) (hn : 0 < x.shape.getD o.1 0) :
    padStep (lincomb a x b y) o = lincomb a (padStep x o) b (padStep y o) := by
  obtain ⟨E, hE, hlin, hloc⟩ := isLin_of_linear hl hn
  rw [padStep_eq (x := lincomb a x b y) ha hE, padStep_eq ha hE, padStep_eq (x := y) (by simpa [ndim, hs] using ha) hE]
  have e : (lincomb a x b y).shape = x.shape := rfl
  simp only [extendAxis, e, ← hs]
  rw [lincomb]
  apply ofFn_congr
  intro ix hix
  rw [get_ofFn hix, get_ofFn hix, ← hlin]
  apply hloc
  intro j hj
  have hin : InB x.shape (ix.set o.1 j) := by
    have := hix.set (i := j) (m := x.shape.getD o.1 0) hj
    rwa [set_getD_self] at this
  exact get_ofFn hin

theorem padSeq_lincomb {a b : α} : ∀ {ops : List (Nat × AxisPad α)} {x y : Tensor α}, x.shape = y.shape → (ops.map Prod.fst).Nodup →
    (∀ o ∈ ops, o.1 < x.ndim) → (∀ o ∈ ops, 0 < x.shape.getD o.1 0) → (∀ o ∈ ops, o.2.Linear) →
    padSeq (lincomb a x b y) ops = lincomb a (padSeq x ops) b (padSeq y ops)
  | [], _, _, _, _, _, _, _ => rfl
  | o :: ops, x, y, hs, hnd, ha, hn, hl => by
    rw [padSeq_cons, padSeq_cons, padSeq_cons, padStep_lincomb hs (ha o (by simp)) (hl o (by simp)) (hn o (by simp))]
    have hsx := padStep_shape (x := x) (o := o) (fun _ => linear_rule (hl o (by simp)))
    have hsy := padStep_shape (x := y) (o := o) (fun _ => linear_rule (hl o (by simp)))
    rw [List.map_cons, List.nodup_cons] at hnd
    have hne : ∀ q ∈ ops, q.1 ≠ o.1 := fun q hq e => hnd.1 (List.mem_map.2 ⟨q, hq, e⟩)
    apply padSeq_lincomb (by rw [hsx, hsy, hs]) hnd.2
    · intro q hq
      simpa [ndim, hsx] using ha q (by simp [hq])
    · intro q hq
      rw [hsx, getD_set_ne _ _ _ _ _ (hne q hq)]
      exact hn q (by simp [hq])
    · exact fun q hq => hl q (by simp [hq])

/-! ## range -/

theorem map_getD_range (w : List α) : (List.range w.length).map (fun j => w.getD j 0) = w := by
  apply List.ext_getElem (by simp)
  intro i h1 h2
  simp [h2]

theorem weighted_between {w : List α} (hw : IsAverage w) {lo hi : α} {f : Nat → α} (hf : ∀ j < w.length, lo ≤ f j ∧ f j ≤ hi) :
    lo ≤ ((List.range w.length).map fun j => w.getD j 0 * f j).sum ∧
      ((List.range w.length).map fun j => w.getD j 0 * f j).sum ≤ hi := by
  have hsum : ∀ c : α, ((List.range w.length).map fun j => w.getD j 0 * c).sum = c := by
    intro c
    rw [← sum_map_mul, map_getD_range, hw.2, one_mul]
  have h0 : ∀ j ∈ List.range w.length, 0 ≤ w.getD j 0 := by
    intro j hj
    have hj := List.mem_range.1 hj
    apply hw.1
    simp [hj]
  constructor
  · conv_lhs => rw [← hsum lo]
    apply List.sum_le_sum
    intro j hj
    exact mul_le_mul_of_nonneg_left (hf j (List.mem_range.1 hj)).1 (h0 j hj)
  · conv_rhs => rw [← hsum hi]
    apply List.sum_le_sum
    intro j hj
    exact mul_le_mul_of_nonneg_left (hf j (List.mem_range.1 hj)).2 (h0 j hj)

theorem slide_between {x : Tensor α} {o : PoolOp α} {lo hi : α} (hx : Between lo hi x)
    (hw : o.kernel ≠ [] → IsAverage o.kernel ∧ o.axis < x.ndim ∧ 0 < o.stride) : Between lo hi (slide x o) := by
  by_cases hk : o.kernel = []
  · simpa [slide, hk] using hx
  intro ix hix
  rw [slide_get hk hix]
  exact weighted_between (hw hk).1 (fun j hj => hx _ (slide_inB (hw hk).2.2 (hw hk).2.1 hk hix hj))

theorem poolSeq_between {lo hi : α} : ∀ {ops : List (PoolOp α)} {x : Tensor α}, PoolOps x ops → Between lo hi x →
    (∀ o ∈ ops, o.kernel ≠ [] → IsAverage o.kernel) → Between lo hi (poolSeq x ops)
  | [], _, _, hx, _ => hx
  | o :: ops, x, h, hx, hw => by
    change Between lo hi (poolSeq (slide x o) ops)
    exact poolSeq_between h.tail (slide_between hx fun hk => ⟨hw o (by simp) hk, h.axis o (by simp) hk, h.stride o (by simp) hk⟩)
      (fun p hp => hw p (by simp [hp]))

theorem stat_between {st : Stat} {l : List α} (hl : l ≠ []) {lo hi : α} (h : ∀ a ∈ l, lo ≤ a ∧ a ≤ hi) :
    lo ≤ statVal st l ∧ statVal st l ≤ hi := by
  have hs := statVal_isStat st hl
  generalize statVal st l = v at hs
  cases st with
  | mean =>
    have hlen : (0 : α) < (l.length : α) := by
      have := List.length_pos_iff.2 hl
      exact_mod_cast this
    have h1 : l.length • lo ≤ l.sum := List.card_nsmul_le_sum l lo fun a ha => (h a ha).1
    have h2 : l.sum ≤ l.length • hi := List.sum_le_card_nsmul l hi fun a ha => (h a ha).2
    rw [nsmul_eq_mul] at h1 h2
    have hs : v * (l.length : α) = l.sum := hs
    constructor
    · exact le_of_mul_le_mul_right (by rw [hs, mul_comm]; exact h1) hlen
    · exact le_of_mul_le_mul_right (by rw [hs, mul_comm hi]; exact h2) hlen
  | median => exact h v hs.1
  | maximum => exact h v hs.1
  | minimum => exact h v hs.1

/-- the rules in question stay between the bounds -/
theorem within_rule {s : AxisPad α} {lo hi : α} (h : s.Within lo hi) {n : Nat} (hn : 0 < n) :
    ∃ E, s.rule? = some E ∧ ∀ (u : Nat → α) z, (∀ j < n, lo ≤ u j ∧ u j ≤ hi) → lo ≤ E n u z ∧ E n u z ≤ hi := by
  have coord : ∀ c, modeC s.mode = some c → (∀ n z, modeS s.mode n z = (1 : α)) →
      ∃ E, s.rule? = some E ∧ ∀ (u : Nat → α) z, (∀ j < n, lo ≤ u j ∧ u j ≤ hi) → lo ≤ E n u z ∧ E n u z ≤ hi := by
    intro c hc hs
    obtain ⟨E, h1, h2, h3⟩ := rule_coord hc hn
    refine ⟨E, h1, fun u z hu => ?_⟩
    rw [h2, hs, one_mul]
    exact hu _ (h3 z)
  obtain ⟨b, a, mode, cv, ev, sl⟩ := s
  cases mode <;> simp only [AxisPad.Within] at h
  case replicate => exact coord _ rfl fun _ _ => rfl
  case circular => exact coord _ rfl fun _ _ => rfl
  case periodize => exact coord _ rfl fun _ _ => rfl
  case symmetric => exact coord _ rfl fun _ _ => rfl
  case reflect => exact coord _ rfl fun _ _ => rfl
  case stat st =>
    refine ⟨_, rfl, fun u z hu => ?_⟩
    have hwin : ∀ w, 0 < window n w ∧ window n w ≤ n := by
      intro w
      cases w with
      | none => exact ⟨hn, le_refl _⟩
      | some w => simp only [window]; omega
    simp only [border]
    split_ifs with h1 h2
    · apply stat_between
      · intro e
        have := (hwin sl.1).1
        have := congrArg List.length e
        simp only [List.length_map, List.length_range, List.length_nil] at this
        omega
      · intro a ha
        obtain ⟨j, hj, rfl⟩ := List.mem_map.1 ha
        have := List.mem_range.1 hj
        have := (hwin sl.1).2
        exact hu j (by omega)
    · exact hu _ (by omega)
    · apply stat_between
      · intro e
        have := (hwin sl.2).1
        have := congrArg List.length e
        simp only [List.length_map, List.length_range, List.length_nil] at this
        omega
      · intro a ha
        obtain ⟨j, hj, rfl⟩ := List.mem_map.1 ha
        have := List.mem_range.1 hj
        have := (hwin sl.2).2
        exact hu _ (by omega)
  case constant =>
    refine ⟨_, rfl, fun u z hu => ?_⟩
    simp only [Spec.constant]
    split_ifs with h1 h2
    · exact h.1
    · exact hu _ (by omega)
    · exact h.2

theorem padStep_between {x : Tensor α} {o : Nat × AxisPad α} {lo hi : α} (ha : o.1 < x.ndim) (hw : o.2.Within lo hi)
    (hn : 0 < x.shape.getD o.1 0) (hx : Between lo hi x) : Between lo hi (padStep x o) := by
  obtain ⟨E, hE, h⟩ := within_rule hw hn
  rw [padStep_eq ha hE]
  intro ix hix
  have hix' : InB (x.shape.set o.1 (o.2.before + x.shape.getD o.1 0 + o.2.total (x.shape.getD o.1 0))) ix := hix
  rw [extendAxis, get_ofFn hix']
  apply h
  intro j hj
  apply hx
  have := hix'.set (i := j) (m := x.shape.getD o.1 0) hj
  rwa [set_getD_self] at this

theorem within_ne {s : AxisPad α} {lo hi : α} (h : s.Within lo hi) : s.rule? ≠ none := by
  obtain ⟨E, hE, _⟩ := within_rule h (n := 1) (by omega)
  rw [hE]; simp

theorem padSeq_between {lo hi : α} : ∀ {ops : List (Nat × AxisPad α)} {x : Tensor α}, (ops.map Prod.fst).Nodup →
    (∀ o ∈ ops, o.1 < x.ndim) → (∀ o ∈ ops, 0 < x.shape.getD o.1 0) → (∀ o ∈ ops, o.2.Within lo hi) → Between lo hi x →
    Between lo hi (padSeq x ops)
  | [], _, _, _, _, _, hx => hx
  | o :: ops, x, hnd, ha, hn, hw, hx => by
    rw [padSeq_cons]
    have hsx := padStep_shape (x := x) (o := o) (fun _ => within_ne (hw o (by simp)))
    rw [List.map_cons, List.nodup_cons] at hnd
    have hne : ∀ q ∈ ops, q.1 ≠ o.1 := fun q hq e => hnd.1 (List.mem_map.2 ⟨q, hq, e⟩)
    apply padSeq_between hnd.2
    · intro q hq
      simpa [ndim, hsx] using ha q (by simp [hq])
    · intro q hq
      rw [hsx, getD_set_ne _ _ _ _ _ (hne q hq)]
      exact hn q (by simp [hq])
    · exact fun q hq => hw q (by simp [hq])
    · exact padStep_between (ha o (by simp)) (hw o (by simp)) (hn o (by simp)) hx

end TI
