import Verif.Proofs.PadRepeat
import Verif.Props.Wider

/-!
# Axes that occur several times: C127
-/

namespace TI
open Tensor Spec

section General
set_option linter.unusedSectionVars false
variable {α : Type} [Field α] [LinearOrder α] [IsStrictOrderedRing α]
variable {p : Padder α} {x : Tensor α} {ax : Axes} {axes : List Nat} {ss : List (AxisPad α)}

/-- requests along distinct axes are a special case -/
theorem Spec.PadCall.rep (h : PadCall p x ax axes ss) : PadCallRep p x ax axes ss where
  ndim_ne := h.ndim_ne
  axes_eq := h.axes_eq
  once := fun _ ho _ => List.count_eq_one_of_mem (zipRight_nodup h.nodup h.len_le) (List.mem_map_of_mem ho)
  len := h.len
  reads := h.reads
  valued := h.valued

/-- **C127.** Padding along axes that may be repeated is padding them one after the other, each step on the full previous
result; only the axes padded in mode `linear_ramp` or `periodize` must occur once. -/
theorem C127_repeated (h : PadCallRep p x ax axes ss) (junk : List Nat → α) :
    p.forward junk x ax = .ok (padSeq x (zipRight axes ss)) :=
  forward_call_rep h junk

/-- all samples to be added along axis `k`, `periodize` aside -/
def Spec.widthSum (ops : List (Nat × AxisPad α)) (k : Nat) : Nat :=
  ((ops.filter fun o => o.1 = k).map fun o => o.2.before + o.2.after).sum

theorem padSeq_shape_rep {ops : List (Nat × AxisPad α)} (h : OpsOK ops) (hp : ∀ o ∈ ops, o.2.mode.isPeriodize = false) :
    ∀ (x : Tensor α), (∀ o ∈ ops, o.1 < x.ndim) → ∀ k, (padSeq x ops).shape.getD k 0 = x.shape.getD k 0 + widthSum ops k := by
  induction ops with
  | nil => intro x _ k; rfl
  | cons o ops ih =>
    intro x hlt k
    have hs := padStep_shape (x := x) (h o (by simp))
    have hd : o.1 < x.shape.length := hlt o (by simp)
    have ho := hp o (by simp)
    rw [padSeq_cons, ih (fun o' ho' => h o' (by simp [ho'])) (fun o' ho' => hp o' (by simp [ho'])) _
      (fun o' ho' => by simp only [Tensor.ndim, hs, List.length_set]; exact hlt o' (by simp [ho'])), hs,
      getD_set _ _ _ _ _ hd]
    have ht : o.2.total (x.shape.getD o.1 0) = o.2.after := by
      rw [AxisPad.total]
      simp only [ho, Bool.false_eq_true, if_false]
      split_ifs with hz
      · exact hz.2.symm
      · simp
    by_cases hk : k = o.1
    · subst hk
      rw [if_pos rfl, ht]
      simp only [widthSum, List.filter_cons, decide_true, if_true, List.map_cons, List.sum_cons]
      omega
    · have hk' : ¬ o.1 = k := fun e => hk e.symm
      rw [if_neg hk]
      simp only [widthSum, List.filter_cons, hk', decide_false, Bool.false_eq_true, if_false]

/-- **C127**, sizes: an axis grows by the widths of all its occurrences. -/
theorem C127_shape (h : PadCallRep p x ax axes ss) (hp : ∀ s ∈ ss, s.mode.isPeriodize = false) (junk : List Nat → α) :
    ∃ y, p.forward junk x ax = .ok y ∧ y.ndim = x.ndim ∧
      ∀ k, y.shape.getD k 0 = x.shape.getD k 0 + widthSum (zipRight axes ss) k := by
  have hok : OpsOK (zipRight axes ss) := fun o ho hnz => (h.valued o ho hnz).1
  refine ⟨_, forward_call_rep h junk, padSeq_ndim hok x, ?_⟩
  exact padSeq_shape_rep hok (fun o ho => hp _ (zipRight_mem ho).2) x
    (fun o ho => (checkAxes_spec h.axes_eq).2 _ (zipRight_mem ho).1)

omit [IsStrictOrderedRing α] in
theorem zipRight_same (l : List Nat) (s : AxisPad α) :
    zipRight l (List.replicate l.length s) = l.map fun d => (d, s) := by
  rw [zipRight, List.length_replicate, Nat.sub_self, List.drop_zero]
  induction l with
  | nil => rfl
  | cons d l ih => simp only [List.length_cons, List.replicate_succ, List.zip_cons_cons, ih, List.map_cons]

/-- a request with one setting for all axes -/
theorem padCallRep_same {l : List Int} {ks : List Nat} {s : AxisPad α} (hp : p.ndim ≤ 0) (hr : ∀ i, Reads p i s)
    (hx : x.ndim ≠ 0) (hks : normAxes x.ndim l = some ks) (hw : s.mode.whole = false)
    (hv : ¬ (s.before = 0 ∧ s.after = 0) → s.rule? ≠ none ∧ s.mode ≠ .zeros ∧ ∀ d ∈ ks, 0 < x.shape.getD d 0) :
    PadCallRep p x (.seq l) ks (List.replicate ks.length s) where
  ndim_ne := hx
  axes_eq := hks
  once := fun o ho hm => by
    have := (zipRight_mem ho).2
    rw [List.mem_replicate] at this
    rw [this.2, hw] at hm
    cases hm
  len := by rw [if_neg (by omega), List.length_replicate]
  reads := fun j hj => by rw [List.getElem_replicate]; exact hr _
  valued := fun o ho hnz => by
    rw [zipRight_same, List.mem_map] at ho
    obtain ⟨d, hd, rfl⟩ := ho
    have := hv hnz
    exact ⟨this.1, this.2.1, this.2.2 d hd⟩

/-- **C127**, in terms of calls only: with one setting for all axes, padding `a :: l` is padding `a` and then padding `l` on
the result, whether or not `a` occurs again in `l`. -/
theorem C127_one_by_one {a : Int} {l : List Int} {k : Nat} {ks : List Nat} {s : AxisPad α}
    (hp : p.ndim ≤ 0) (hr : ∀ i, Reads p i s) (hx : x.ndim ≠ 0) (ha : normAxis x.ndim a = some k)
    (hks : normAxes x.ndim l = some ks) (hw : s.mode.whole = false)
    (hv : ¬ (s.before = 0 ∧ s.after = 0) →
      s.rule? ≠ none ∧ s.mode ≠ .zeros ∧ ∀ d ∈ k :: ks, 0 < x.shape.getD d 0)
    (junk junk' junk'' : List Nat → α) :
    p.forward junk x (.seq (a :: l)) = (p.forward junk' x (.seq [a])).bind fun y =>
      p.forward junk'' y (.seq l) := by
  have hnax : normAxes x.ndim (a :: l) = some (k :: ks) := by simp [normAxes, ha, hks]
  have hna1 : normAxes x.ndim [a] = some [k] := by simp [normAxes, ha]
  have call1 := padCallRep_same hp hr hx hnax hw hv
  have call2 := padCallRep_same hp hr hx hna1 hw (fun hnz =>
    ⟨(hv hnz).1, (hv hnz).2.1, fun d hd => (hv hnz).2.2 d (by simp at hd; simp [hd])⟩)
  rw [forward_call_rep call1, forward_call_rep call2, zipRight_same, zipRight_same]
  simp only [Except.bind, List.map_cons, List.map_nil, padSeq_cons]
  have hsh : (padStep x (k, s)).shape = _ := padStep_shape (x := x) (o := (k, s)) (fun hnz => (hv hnz).1)
  have hnd1 : (padStep x (k, s)).ndim = x.ndim := by simp [Tensor.ndim, hsh]
  have hk : k < x.shape.length := normAxis_lt ha
  have call3 := padCallRep_same (x := padStep x (k, s)) hp hr (by rw [hnd1]; exact hx) (by rw [hnd1]; exact hks) hw
    (fun hnz => ⟨(hv hnz).1, (hv hnz).2.1, fun d hd => by
      have h1 := (hv hnz).2.2 d (by simp [hd])
      rw [hsh, getD_set _ _ _ _ _ hk]
      split_ifs with he
      · subst he; dsimp only; omega
      · exact h1⟩)
  rw [show padSeq (padStep x (k, s)) [] = padStep x (k, s) from rfl, forward_call_rep call3, zipRight_same]

/-- extending twice along an axis by a rule that prolongs its own extensions is extending once by the sum of the widths -/
theorem extendAxis_twice {E : Ext α} {d b a b' a' : Nat} (hd : d < x.ndim)
    (hE : ∀ (u : Nat → α) z, E (b + x.shape.getD d 0 + a) (fun j => E (x.shape.getD d 0) u ((j : Int) - b)) z =
      E (x.shape.getD d 0) u (z - b))
    (hloc : Local E (b + x.shape.getD d 0 + a)) :
    extendAxis E d b' a' (extendAxis E d b a x) = extendAxis E d (b' + b) (a + a') x := by
  simp only [Tensor.ndim] at hd
  have e0 : (x.shape.set d (b + x.shape.getD d 0 + a)).getD d 0 = b + x.shape.getD d 0 + a := getD_set_self _ _ _ _ hd
  simp only [extendAxis, shape_ofFn, e0, List.set_set]
  rw [show b' + (b + x.shape.getD d 0 + a) + a' = b' + b + x.shape.getD d 0 + (a + a') by omega]
  apply ofFn_congr
  intro ix hix
  have hl : ix.length = x.shape.length := by rw [hix.length_eq, List.length_set]
  rw [hloc _ (fun j => E (x.shape.getD d 0) (fun j => x.get (ix.set d j)) ((j : Int) - b)), hE]
  · congr 1
    push_cast
    ring
  · intro j hj
    have h2 := hix.set (i := j) (m := b + x.shape.getD d 0 + a) hj
    rw [get_ofFn (show InB _ _ by simpa using h2), getD_set_self _ _ _ _ (by omega)]
    simp only [List.set_set]

omit [LinearOrder α] [IsStrictOrderedRing α] [Field α] in
theorem replicate_twice {n b a : Nat} (hn : 0 < n) (u : Nat → α) (z : Int) :
    Spec.replicate (b + n + a) (fun j => Spec.replicate n u ((j : Int) - b)) z = Spec.replicate n u (z - b) := by
  simp only [Spec.replicate]
  split_ifs <;> first | rfl | omega | (congr 1; omega)

/-- **C127**: repeating an axis with edge replication is padding it once with the sums of the widths. -/
theorem C127_replicate_twice {d : Int} {k : Nat} {s s' t : AxisPad α} {q : Padder α}
    (h : PadCallRep p x (.seq [d, d]) [k, k] [s, s']) (hm : s.mode = .replicate) (hm' : s'.mode = .replicate)
    (h' : PadCallRep q x (.seq [d]) [k] [t]) (ht : t.mode = .replicate) (hb : t.before = s'.before + s.before)
    (ha : t.after = s.after + s'.after) (hn : 0 < x.shape.getD k 0) (junk junk' : List Nat → α) :
    p.forward junk x (.seq [d, d]) = q.forward junk' x (.seq [d]) := by
  have hk : k < x.ndim := (checkAxes_spec h.axes_eq).2 k (by simp)
  have hstep : ∀ (y : Tensor α) (s : AxisPad α), k < y.ndim → s.mode = .replicate →
      padStep y (k, s) = extendAxis Spec.replicate k s.before s.after y := by
    intro y s hy hs
    have e : s.rule? = some Spec.replicate := by simp [AxisPad.rule?, hs]
    rw [padStep_eq (o := (k, s)) hy e]
    congr 1
    simp only [AxisPad.total, hs, Mode.isPeriodize]
    split_ifs with hz <;> first | exact hz.2.symm | simp_all
  rw [forward_call_rep h, forward_call_rep h']
  change Except.ok (padStep (padStep x (k, s)) (k, s')) = Except.ok (padStep x (k, t))
  rw [hstep x t hk ht, hstep x s hk hm, hstep _ s' (by simp only [Tensor.ndim, extendAxis, shape_ofFn, List.length_set]; exact hk) hm',
    extendAxis_twice hk (fun u z => replicate_twice hn u z) (replicate_local (by omega)), hb, ha]

omit [LinearOrder α] [IsStrictOrderedRing α] in
theorem constant_twice {n b a : Nat} (vb va : α) (u : Nat → α) (z : Int) :
    Spec.constant vb va (b + n + a) (fun j => Spec.constant vb va n u ((j : Int) - b)) z = Spec.constant vb va n u (z - b) := by
  simp only [Spec.constant]
  split_ifs <;> first | rfl | omega | (congr 1; omega)

/-- **C127**: the same for constants. -/
theorem C127_constant_twice {d : Int} {k : Nat} {s s' t : AxisPad α} {q : Padder α}
    (h : PadCallRep p x (.seq [d, d]) [k, k] [s, s']) (hm : s.mode = .constant) (hm' : s'.mode = .constant)
    (h' : PadCallRep q x (.seq [d]) [k] [t]) (ht : t.mode = .constant) (hb : t.before = s'.before + s.before)
    (ha : t.after = s.after + s'.after) (hc : s.cv = t.cv) (hc' : s'.cv = t.cv) (junk junk' : List Nat → α) :
    p.forward junk x (.seq [d, d]) = q.forward junk' x (.seq [d]) := by
  have hk : k < x.ndim := (checkAxes_spec h.axes_eq).2 k (by simp)
  have hstep : ∀ (y : Tensor α) (s : AxisPad α), k < y.ndim → s.mode = .constant →
      padStep y (k, s) = extendAxis (Spec.constant s.cv.1 s.cv.2) k s.before s.after y := by
    intro y s hy hs
    have e : s.rule? = some (Spec.constant s.cv.1 s.cv.2) := by simp [AxisPad.rule?, hs]
    rw [padStep_eq (o := (k, s)) hy e]
    congr 1
    simp only [AxisPad.total, hs, Mode.isPeriodize]
    split_ifs with hz <;> first | exact hz.2.symm | simp_all
  rw [forward_call_rep h, forward_call_rep h']
  change Except.ok (padStep (padStep x (k, s)) (k, s')) = Except.ok (padStep x (k, t))
  rw [hstep x t hk ht, hstep x s hk hm, hstep _ s' (by simp only [Tensor.ndim, extendAxis, shape_ofFn, List.length_set]; exact hk) hm',
    hc, hc', extendAxis_twice hk (fun u z => constant_twice _ _ u z) (constant_local _ _), hb, ha]

end General

/-! ### the two other modes -/

namespace RepeatExample

/-- `x = [1, 2, 3]` -/
def x : Tensor ℚ := ⟨[3], [1, 2, 3], rfl⟩

/-- `Padder(pad_width=(1, 1), mode=m)` -/
def p (m : Mode ℚ) : Padder ℚ where
  padWidth := ⟨.seq [.leaf 1, .leaf 1], [2], 0⟩
  mode := ⟨.leaf m, [], 0⟩
  constantValues := ⟨.seq [.leaf 0, .leaf 0], [2], 0⟩
  endValues := ⟨.seq [.leaf 0, .leaf 0], [2], 0⟩
  statLength := ⟨.seq [.leaf none, .leaf none], [2], 0⟩
  ndim := 0

theorem init_p (m : Mode ℚ) : Padder.init (.seq [.leaf 1, .leaf 1]) (.leaf m) (.leaf (0 : ℚ)) (.leaf 0) (.leaf none) = .ok (p m) := by
  rfl

def s (m : Mode ℚ) : AxisPad ℚ := ⟨1, 1, m, (0, 0), (0, 0), (none, none)⟩

theorem reads (m : Mode ℚ) (i : Int) : Reads (p m) i (s m) := ⟨rfl, rfl, rfl, rfl, rfl⟩

/-- `p.forward(x, axes=(0, -1, 0))` is covered -/
theorem call : PadCallRep (p .circular) x (.seq [0, -1, 0]) [0, 0, 0] [s .circular, s .circular, s .circular] :=
  padCallRep_same (p := p .circular) (s := s .circular) (l := [0, -1, 0]) (ks := [0, 0, 0]) (by decide) (reads _) (by decide) rfl rfl
    (fun _ => ⟨by simp [AxisPad.rule?, s], by simp [s], by decide⟩)

example (junk : List Nat → ℚ) := C127_repeated call junk
example (junk : List Nat → ℚ) := C127_shape call (by decide) junk

example (junk : List Nat → ℚ) : (p .circular).forward junk x (.seq [0, -1]) =
    ((p .circular).forward junk x (.seq [0])).bind fun y => (p .circular).forward junk y (.seq [-1]) :=
  C127_one_by_one (k := 0) (ks := [0]) (by decide) (reads _) (by decide) rfl rfl rfl
    (fun _ => ⟨by simp [AxisPad.rule?, s], by simp [s], by decide⟩) junk junk junk

/-- `Padder(pad_width=(2, 2), mode=m)` -/
def q (m : Mode ℚ) : Padder ℚ := { p m with padWidth := ⟨.seq [.leaf 2, .leaf 2], [2], 0⟩ }

def t (m : Mode ℚ) : AxisPad ℚ := ⟨2, 2, m, (0, 0), (0, 0), (none, none)⟩

theorem callTwice {m : Mode ℚ} (hm : m.whole = false) (hv : (s m).rule? ≠ none ∧ m ≠ .zeros) :
    PadCallRep (p m) x (.seq [-1, -1]) [0, 0] [s m, s m] :=
  padCallRep_same (p := p m) (s := s m) (l := [-1, -1]) (ks := [0, 0]) (show (0 : Int) ≤ 0 by decide) (reads _) (by decide) rfl hm
    (fun _ => ⟨hv.1, hv.2, by decide⟩)

theorem callOnce {m : Mode ℚ} (hm : m.whole = false) (hv : (t m).rule? ≠ none ∧ m ≠ .zeros) :
    PadCallRep (q m) x (.seq [-1]) [0] [t m] :=
  padCallRep_same (p := q m) (s := t m) (l := [-1]) (ks := [0]) (show (0 : Int) ≤ 0 by decide) (fun _ => ⟨rfl, rfl, rfl, rfl, rfl⟩)
    (by decide) rfl hm (fun _ => ⟨hv.1, hv.2, by decide⟩)

example (junk : List Nat → ℚ) : (p .replicate).forward junk x (.seq [-1, -1]) = (q .replicate).forward junk x (.seq [-1]) :=
  C127_replicate_twice (callTwice rfl ⟨by simp [AxisPad.rule?, s], by simp⟩) rfl rfl
    (callOnce rfl ⟨by simp [AxisPad.rule?, t], by simp⟩) rfl rfl rfl (by decide) junk junk

example (junk : List Nat → ℚ) : (p .constant).forward junk x (.seq [-1, -1]) = (q .constant).forward junk x (.seq [-1]) :=
  C127_constant_twice (callTwice rfl ⟨by simp [AxisPad.rule?, s], by simp⟩) rfl rfl
    (callOnce rfl ⟨by simp [AxisPad.rule?, t], by simp⟩) rfl rfl rfl rfl rfl junk junk

end RepeatExample

open RepeatExample in
/-- **C127**: the condition on `linear_ramp` is needed.  Repeating the axis draws one ramp over both widths, padding twice
pads a signal that already ends in the end value. -/
theorem C127_linear_ramp_differ : ((p .linearRamp).forward (fun _ => 0) x (.seq [0, 0])).toOption.map Tensor.data =
      some [0, 1 / 2, 1, 2, 3, 3 / 2, 0] ∧
    (((p .linearRamp).forward (fun _ => 0) x (.seq [0])).bind fun y =>
      (p .linearRamp).forward (fun _ => 0) y (.seq [0])).toOption.map Tensor.data = some [0, 0, 1, 2, 3, 0, 0] := by
  decide +kernel

open RepeatExample in
/-- **C127**: the condition on `periodize` is needed.  On an axis of odd size every occurrence adds one sample, although the
axis has an even size after the first. -/
theorem C127_periodize_differ : ((p .periodize).forward (fun _ => 0) x (.seq [0, 0])).toOption.map Tensor.data =
      some [1, 3, 1, 2, 3, 3, 1, 3, 1] ∧
    (((p .periodize).forward (fun _ => 0) x (.seq [0])).bind fun y =>
      (p .periodize).forward (fun _ => 0) y (.seq [0])).toOption.map Tensor.data = some [1, 3, 1, 2, 3, 3, 1, 3] := by
  decide +kernel

/-! ### pooling -/

section Pool
set_option linter.unusedSectionVars false
variable {α : Type} [Field α] [LinearOrder α] [IsStrictOrderedRing α]
variable {x : Tensor α} {ax : Axes} {axes : List Nat} {g : PoolArgs α} {m : Nat} {pool : SepPool α}

/-- **C127**, pooling without a padder: an axis that is repeated is pooled again, on the previous result. -/
theorem C127_pool (hb : Built pool g m) (hax : axesOf x.ndim ax = some axes) (hm : g.isMany = true → axes.length = m)
    (hf : Fitting x (g.ops axes)) (junk : List Nat → α) :
    SepPool.forward pool none junk x ax = (none, .ok (poolSeq x (g.ops axes))) :=
  hb.poolIs.1.forward_none hax hm hf junk

/-- **C127**, in terms of calls only: with one kernel and stride for all axes, pooling `a :: l` is pooling `a` and then
pooling `l` on the result. -/
theorem C127_pool_one_by_one {a : Int} {l : List Int} {k : Nat} {ks : List Nat} (hb : Built pool g m) (hg : g.isMany = false)
    (ha : normAxis x.ndim a = some k) (hks : normAxes x.ndim l = some ks) (hf : Fitting x (g.ops (k :: ks)))
    (junk junk' junk'' : List Nat → α) :
    (SepPool.forward pool none junk x (.seq (a :: l))).2 = (SepPool.forward pool none junk' x (.seq [a])).2.bind fun y =>
      (SepPool.forward pool none junk'' y (.seq l)).2 := by
  have h := hb.poolIs.1
  have hop : ∀ ks : List Nat, g.ops ks = ks.map fun d => ⟨d, g.kernel.entry [] 0, (g.op [] 0).stride⟩ := by
    intro ks
    obtain ⟨gk, gs⟩ := g
    have e1 : ∃ b, gk = .one b := by
      cases gk with
      | one b => exact ⟨b, rfl⟩
      | many l => simp [PoolArgs.isMany, Given.isMany] at hg
    have e2 : ∃ b, gs = .one b := by
      cases gs with
      | one b => exact ⟨b, rfl⟩
      | many l => simp [PoolArgs.isMany, Given.isMany] at hg
    obtain ⟨b, rfl⟩ := e1
    obtain ⟨b', rfl⟩ := e2
    apply List.ext_getElem (by simp [PoolArgs.ops])
    intro i h1 h2
    have hi : i < ks.length := by simpa using h2
    simp [PoolArgs.ops, PoolArgs.op, Given.entry, hi]
  have hnax : axesOf x.ndim (.seq (a :: l)) = some (k :: ks) := by simp [axesOf, normAxes, ha, hks]
  have hna1 : axesOf x.ndim (.seq [a]) = some [k] := by simp [axesOf, normAxes, ha]
  have hc : g.ops (k :: ks) = g.ops [k] ++ g.ops ks := by simp [hop]
  have hf1 : Fitting x (g.ops [k]) := by
    rw [hop] at hf ⊢
    exact ⟨hf.1, trivial⟩
  have hf2 : Fitting (poolSeq x (g.ops [k])) (g.ops ks) := by
    rw [hop] at hf ⊢
    rw [hop]
    exact hf.2
  have hn : (poolSeq x (g.ops [k])).ndim = x.ndim := poolSeq_ndim _ _
  have hm : ∀ n, g.isMany = true → n = m := fun n hh => by rw [hg] at hh; cases hh
  rw [h.forward_none hnax (hm _) hf, h.forward_none hna1 (hm _) hf1]
  simp only [Except.bind]
  rw [h.forward_none (axes := ks) (by rw [hn]; exact hks) (hm _) hf2, hc, poolSeq, poolSeq, poolSeq, List.foldl_append]

end Pool

open RepeatExample in
/-- averaging `[1, 2, 3]` over pairs, twice -/
example (junk : List Nat → ℚ) : ∃ pool : SepPool ℚ, SepPool.avgInit (.leaf (some 2)) (.leaf (some 1)) = .ok pool ∧
    (SepPool.forward pool none junk x (.seq [0, -1])).2 = (SepPool.forward pool none junk x (.seq [0])).2.bind fun y =>
      (SepPool.forward pool none junk y (.seq [-1])).2 := by
  obtain ⟨pool, h1, h2, _⟩ := C34_average_kernels (α := ℚ) (size := .one 2) (st := .one (some 1)) (m := 1) (by decide) trivial trivial
    (by simp [Given.values])
  refine ⟨pool, h1, C127_pool_one_by_one (k := 0) (ks := [0]) h2 rfl rfl rfl ?_ junk junk junk⟩
  refine ⟨fun _ => ⟨by decide, by decide, by decide⟩, fun _ => ⟨by decide, by decide, by decide⟩, trivial⟩

end TI
