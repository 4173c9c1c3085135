import Verif.Proofs.PadLaws
import Mathlib.Data.Rat.Defs
import Mathlib.Algebra.Order.Ring.Rat

/-!
# Properties of `Padder.forward` as a whole: C01, C02, C03, C16, C17, C18
-/

namespace TI
open Tensor Spec

/-! ## a concrete request used as witness -/

namespace Example

/-- `x = [[1, 2, 3], [4, 5, 6]]` -/
def x : Tensor ℚ := ⟨[2, 3], [1, 2, 3, 4, 5, 6], rfl⟩

def s0 : AxisPad ℚ := ⟨1, 2, .circular, (0, 0), (0, 0), (none, none)⟩
def s1 : AxisPad ℚ := ⟨3, 0, .reflect, (0, 0), (0, 0), (none, none)⟩

/-- `Padder(pad_width=[(1, 2), (3, 0)], mode=["circular", "reflect"])` -/
def p : Padder ℚ where
  padWidth := ⟨.seq [.seq [.leaf 1, .leaf 2], .seq [.leaf 3, .leaf 0]], [2, 2], 1⟩
  mode := ⟨.seq [.leaf .circular, .leaf .reflect], [2], 1⟩
  constantValues := ⟨.seq [.leaf 0, .leaf 0], [2], 0⟩
  endValues := ⟨.seq [.leaf 0, .leaf 0], [2], 0⟩
  statLength := ⟨.seq [.leaf none, .leaf none], [2], 0⟩
  ndim := 2

/-- the constructor really builds this object -/
theorem init_p : Padder.init (.seq [.seq [.leaf 1, .leaf 2], .seq [.leaf 3, .leaf 0]])
    (.seq [.leaf Mode.circular, .leaf Mode.reflect]) (.leaf (0 : ℚ)) (.leaf 0) (.leaf none) = .ok p := by
  rfl

/-- `p.forward(x, axes=(1, -2))` is a well-formed request -/
theorem call : PadCall p x (.seq [1, -2]) [1, 0] [s0, s1] where
  ndim_ne := by decide
  axes_eq := by decide
  nodup := by decide
  len := by decide
  reads := by
    intro j hj
    match j, hj with
    | 0, _ => exact ⟨rfl, rfl, rfl, rfl, rfl⟩
    | 1, _ => exact ⟨rfl, rfl, rfl, rfl, rfl⟩
  valued := by
    intro o ho _
    have ho : o = (1, s0) ∨ o = (0, s1) := by simpa [zipRight] using ho
    rcases ho with rfl | rfl <;> exact ⟨by simp [AxisPad.rule?, s0, s1], by simp [s0, s1], by decide⟩

end Example

/-! ## C16 -/

variable {α : Type} [Field α] [LinearOrder α] [IsStrictOrderedRing α]
variable {p : Padder α} {x : Tensor α} {ax : Axes} {axes : List Nat} {ss : List (AxisPad α)}

/-- **C16.** `forward` is sequential 1-d padding in the order of the axes: it does not raise and returns
the tensor obtained by extending one axis after the other, each step on the full previous result. -/
theorem C16_forward_sequential (h : PadCall p x ax axes ss) (junk : List Nat → α) :
    p.forward junk x ax = .ok (padSeq x (zipRight axes ss)) :=
  forward_call h junk

example (junk : List Nat → ℚ) : Example.p.forward junk Example.x (.seq [1, -2]) =
    .ok (extendAxis Spec.reflect 0 3 0 (extendAxis Spec.circular 1 1 2 Example.x)) :=
  C16_forward_sequential Example.call junk

/-- **C16**, in terms of calls only: with one setting for all axes, padding `a :: l` is padding `a` and then
padding `l` on the result, both by `forward` itself. -/
theorem C16_forward_one_by_one {a : Int} {l : List Int} {k : Nat} {ks : List Nat} {s : AxisPad α}
    (hp : p.ndim ≤ 0) (hr : ∀ i, Reads p i s) (hx : x.ndim ≠ 0) (ha : normAxis x.ndim a = some k)
    (hks : normAxes x.ndim l = some ks) (hnd : (k :: ks).Nodup)
    (hv : ¬ (s.before = 0 ∧ s.after = 0) →
      s.rule? ≠ none ∧ s.mode ≠ .zeros ∧ ∀ d ∈ k :: ks, 0 < x.shape.getD d 0)
    (junk junk' junk'' : List Nat → α) :
    p.forward junk x (.seq (a :: l)) = (p.forward junk' x (.int a)).bind fun y =>
      p.forward junk'' y (.seq l) := by
  have hlen : ∀ n, (List.replicate n s).length = n := fun n => List.length_replicate
  have hz : ∀ l : List Nat, zipRight l (List.replicate l.length s) = l.map fun d => (d, s) := by
    intro l
    rw [zipRight, hlen, Nat.sub_self, List.drop_zero]
    induction l with
    | nil => rfl
    | cons d l ih => simp only [List.length_cons, List.replicate_succ, List.zip_cons_cons, ih, List.map_cons]
  have hnax : normAxes x.ndim (a :: l) = some (k :: ks) := by simp [normAxes, ha, hks]
  have hna1 : normAxes x.ndim [a] = some [k] := by simp [normAxes, ha]
  have call1 : PadCall p x (.seq (a :: l)) (k :: ks) (List.replicate (k :: ks).length s) :=
    ⟨hx, hnax, hnd, by rw [if_neg (by omega), hlen], fun j hj => by rw [List.getElem_replicate]; exact hr _,
      fun o ho hnz => by
        rw [hz, List.mem_map] at ho
        obtain ⟨d, hd, rfl⟩ := ho
        have := hv hnz
        exact ⟨this.1, this.2.1, this.2.2 d hd⟩⟩
  have call2 : PadCall p x (.int a) [k] (List.replicate [k].length s) :=
    ⟨hx, hna1, by simp, by rw [if_neg (by omega), hlen], fun j hj => by rw [List.getElem_replicate]; exact hr _,
      fun o ho hnz => by
        rw [hz, List.mem_map] at ho
        obtain ⟨d, hd, rfl⟩ := ho
        have := hv hnz
        exact ⟨this.1, this.2.1, this.2.2 d (by simp at hd; simp [hd])⟩⟩
  rw [forward_call call1, forward_call call2, hz, hz]
  simp only [Except.bind, List.map_cons, List.map_nil, padSeq_cons]
  have hsh : (padStep x (k, s)).shape = _ := padStep_shape (x := x) (o := (k, s)) (fun hnz => (hv hnz).1)
  have hnd1 : (padStep x (k, s)).ndim = x.ndim := by simp [Tensor.ndim, hsh]
  have call3 : PadCall p (padStep x (k, s)) (.seq l) ks (List.replicate ks.length s) :=
    ⟨by rw [hnd1]; exact hx, by rw [hnd1]; exact hks, (List.nodup_cons.1 hnd).2,
      by rw [if_neg (by omega), hlen], fun j hj => by rw [List.getElem_replicate]; exact hr _,
      fun o ho hnz => by
        rw [hz, List.mem_map] at ho
        obtain ⟨d, hd, rfl⟩ := ho
        have h1 := hv hnz
        refine ⟨h1.1, h1.2.1, ?_⟩
        rw [hsh, getD_set_ne _ _ _ _ _ (fun he => (List.nodup_cons.1 hnd).1 (by subst he; exact hd))]
        exact h1.2.2 d (by simp [hd])⟩
  have : padSeq x [] = x := rfl
  rw [show padSeq (padStep x (k, s)) [] = padStep x (k, s) from rfl, forward_call call3, hz]

/-! ## C01 -/

/-- **C01.** `forward` does not raise; a processed axis of size `n` gets size `before + n + after`
(one more for `periodize` on odd `n` with non-zero width), all other axes keep their size. -/
theorem C01_shape (h : PadCall p x ax axes ss) (junk : List Nat → α) :
    ∃ y, p.forward junk x ax = .ok y ∧ y.ndim = x.ndim ∧
      (∀ o ∈ zipRight axes ss, y.shape.getD o.1 0 = o.2.before + x.shape.getD o.1 0 + o.2.after +
        (if o.2.mode.isPeriodize = true ∧ x.shape.getD o.1 0 % 2 = 1 ∧ ¬ (o.2.before = 0 ∧ o.2.after = 0)
          then 1 else 0)) ∧
      ∀ k, k ∉ (zipRight axes ss).map Prod.fst → y.shape.getD k 0 = x.shape.getD k 0 := by
  have hc := checkAxes_spec h.axes_eq
  have hok : OpsOK (zipRight axes ss) := fun o ho hnz => (h.valued o ho hnz).1
  have hnd := zipRight_nodup (ss := ss) h.nodup h.len_le
  have hlt : ∀ o ∈ zipRight axes ss, o.1 < x.ndim := fun o ho => hc.2 _ (zipRight_mem ho).1
  refine ⟨_, forward_call h junk, padSeq_ndim hok x, ?_, ?_⟩
  · intro o ho
    rw [padSeq_shape hok hnd x hlt, settingAt_some hnd ho]
    simp only [AxisPad.total]
    split_ifs <;> first | omega | simp_all
  · intro k hk
    rw [padSeq_shape hok hnd x hlt, settingAt_none hk]

example (junk : List Nat → ℚ) : ∃ y, Example.p.forward junk Example.x (.seq [1, -2]) = .ok y ∧
    y.shape = [5, 6] := by
  refine ⟨_, C16_forward_sequential Example.call junk, by decide⟩

/-! ## C02 -/

/-- **C02.** Reading the padded tensor at the original positions (shifted by the width before) gives the
input back. -/
theorem C02_original_samples (h : PadCall p x ax axes ss) (junk : List Nat → α) :
    ∃ y, p.forward junk x ax = .ok y ∧ ∀ ix, InB x.shape ix →
      InB y.shape (embed (zipRight axes ss) ix) ∧ y.get (embed (zipRight axes ss) ix) = x.get ix := by
  have hc := checkAxes_spec h.axes_eq
  have hok : OpsOK (zipRight axes ss) := fun o ho hnz => (h.valued o ho hnz).1
  have hnd := zipRight_nodup (ss := ss) h.nodup h.len_le
  have hlt : ∀ o ∈ zipRight axes ss, o.1 < x.ndim := fun o ho => hc.2 _ (zipRight_mem ho).1
  exact ⟨_, forward_call h junk, fun ix hix =>
    ⟨embed_inB hok hnd hlt hix, padSeq_crop hok hnd x hlt hix⟩⟩

example (junk : List Nat → ℚ) : ∃ y, Example.p.forward junk Example.x (.seq [1, -2]) = .ok y ∧
    y.get [4, 2] = 5 := by
  obtain ⟨y, h1, h2⟩ := C02_original_samples Example.call junk
  exact ⟨y, h1, (h2 [1, 1] (by decide)).2⟩

/-! ## C03 -/

/-- **C03.** The result does not depend on the uninitialised content of the buffer. -/
theorem C03_no_uninitialised (h : PadCall p x ax axes ss) (junk junk' : List Nat → α) :
    p.forward junk x ax = p.forward junk' x ax := by
  rw [forward_call h, forward_call h]

example (junk junk' : List Nat → ℚ) : Example.p.forward junk Example.x (.seq [1, -2]) =
    Example.p.forward junk' Example.x (.seq [1, -2]) := C03_no_uninitialised Example.call junk junk'

/-! ## C17 -/

/-- **C17.** If the axes are listed in another order together with their settings, and every setting is
linear in the samples (all copying modes, antisymmetric, smooth, the odd modes, mean, zero constants and
ramps to zero), the result is the same. -/
theorem C17_order_irrelevant {p' : Padder α} {ax' : Axes} {axes' : List Nat} {ss' : List (AxisPad α)}
    (h : PadCall p x ax axes ss) (h' : PadCall p' x ax' axes' ss')
    (hperm : (zipRight axes ss).Perm (zipRight axes' ss'))
    (hlin : ∀ s ∈ ss, s.Linear) (hn : ∀ d ∈ axes, 0 < x.shape.getD d 0) (junk junk' : List Nat → α) :
    p.forward junk x ax = p'.forward junk' x ax' := by
  have hc := checkAxes_spec h.axes_eq
  rw [forward_call h, forward_call h', padSeq_perm hperm x (zipRight_nodup h.nodup h.len_le)
    (fun o ho => hc.2 _ (zipRight_mem ho).1) (fun o ho => hn _ (zipRight_mem ho).1)
    (fun o ho => hlin _ (zipRight_mem ho).2)]

/-- **C17**, one setting for all axes: any permutation of the axes argument gives the same result. -/
theorem C17_order_irrelevant_uniform {l l' : List Int} {ks ks' : List Nat} {s : AxisPad α}
    (hp : p.ndim ≤ 0) (hr : ∀ i, Reads p i s) (hx : x.ndim ≠ 0)
    (hks : normAxes x.ndim l = some ks) (hks' : normAxes x.ndim l' = some ks') (hnd : ks.Nodup)
    (hperm : ks.Perm ks') (hlin : s.Linear) (hn : ∀ d ∈ ks, 0 < x.shape.getD d 0)
    (junk junk' : List Nat → α) :
    p.forward junk x (.seq l) = p.forward junk' x (.seq l') := by
  have hz : ∀ l : List Nat, zipRight l (List.replicate l.length s) = l.map fun d => (d, s) := by
    intro l
    rw [zipRight, List.length_replicate, Nat.sub_self, List.drop_zero]
    induction l with
    | nil => rfl
    | cons d l ih => simp only [List.length_cons, List.replicate_succ, List.zip_cons_cons, ih, List.map_cons]
  have hzeros : s.mode ≠ .zeros := by
    intro hc; simp [AxisPad.Linear, hc] at hlin
  have mk : ∀ (l : List Int) (ks : List Nat), normAxes x.ndim l = some ks → ks.Nodup →
      (∀ d ∈ ks, 0 < x.shape.getD d 0) → PadCall p x (.seq l) ks (List.replicate ks.length s) := by
    intro l ks h1 h2 h3
    exact ⟨hx, h1, h2, by rw [if_neg (by omega), List.length_replicate],
      fun j hj => by rw [List.getElem_replicate]; exact hr _,
      fun o ho _ => by
        rw [hz, List.mem_map] at ho
        obtain ⟨d, hd, rfl⟩ := ho
        exact ⟨linear_rule hlin, hzeros, h3 d hd⟩⟩
  refine C17_order_irrelevant (mk l ks hks hnd hn)
    (mk l' ks' hks' (hperm.nodup_iff.1 hnd) (fun d hd => hn d (hperm.mem_iff.2 hd))) ?_ ?_ hn junk junk'
  · rw [hz, hz]; exact hperm.map _
  · intro q hq; rw [List.mem_replicate] at hq; rw [hq.2]; exact hlin

namespace Example

def sOdd : AxisPad ℚ := ⟨2, 4, .oddReflect, (0, 0), (0, 0), (none, none)⟩

/-- `Padder(pad_width=(2, 4), mode="odd_reflect")` -/
def pOdd : Padder ℚ where
  padWidth := ⟨.seq [.leaf 2, .leaf 4], [2], 0⟩
  mode := ⟨.leaf .oddReflect, [], 0⟩
  constantValues := ⟨.seq [.leaf 0, .leaf 0], [2], 0⟩
  endValues := ⟨.seq [.leaf 0, .leaf 0], [2], 0⟩
  statLength := ⟨.seq [.leaf none, .leaf none], [2], 0⟩
  ndim := 0

theorem init_pOdd : Padder.init (.seq [.leaf 2, .leaf 4]) (.leaf Mode.oddReflect) (.leaf (0 : ℚ))
    (.leaf 0) (.leaf none) = .ok pOdd := by rfl

theorem readsOdd (i : Int) : Reads pOdd i sOdd := ⟨rfl, rfl, rfl, rfl, rfl⟩

end Example

example (junk : List Nat → ℚ) : Example.pOdd.forward junk Example.x (.seq [1, -2]) =
    (Example.pOdd.forward junk Example.x (.int 1)).bind fun y => Example.pOdd.forward junk y (.seq [-2]) :=
  C16_forward_one_by_one (s := Example.sOdd) (k := 1) (ks := [0]) (by decide) Example.readsOdd (by decide) (by decide)
    (by decide) (by decide) (fun _ => ⟨by simp [AxisPad.rule?, Example.sOdd], by simp [Example.sOdd], by decide⟩) _ _ _

example (junk : List Nat → ℚ) : Example.pOdd.forward junk Example.x (.seq [0, 1]) =
    Example.pOdd.forward junk Example.x (.seq [-1, 0]) :=
  C17_order_irrelevant_uniform (s := Example.sOdd) (by decide) Example.readsOdd (by decide)
    (ks := [0, 1]) (ks' := [1, 0]) (by decide) (by decide) (by decide) (by decide) trivial (by decide) _ _

/-- **C17**, the linearity condition is needed: with mode `constant` and different constants before and after, the
corners depend on the order of the axes -/
theorem C17_order_matters_for_constants : ∃ p : Padder ℚ,
    Padder.init (.leaf 1) (.leaf Mode.constant) (.seq [.leaf 1, .leaf 2]) (.leaf 0) (.leaf none) = .ok p ∧
    p.forward (fun _ => 0) Example.x (.seq [0, 1]) ≠ p.forward (fun _ => 0) Example.x (.seq [1, 0]) :=
  ⟨_, rfl, by decide +kernel⟩

/-! ## C18 -/

/-- **C18.** If `axes` is empty, or every selected width is `(0, 0)`, `forward` returns the input, whatever
the modes and other parameters are (they need not even be valid). -/
theorem C18_nothing_to_pad (hx : x.ndim ≠ 0) (hax : axesOf x.ndim ax = some axes)
    (hz : ∀ j k : Nat, k = (if p.ndim > 0 then min axes.length p.ndim.toNat else axes.length) → j < k →
      Padder.pairAt p.padWidth ((j : Int) - k) = .ok (0, 0)) (junk : List Nat → α) :
    p.forward junk x ax = .ok x := by
  have hc := checkAxes_spec hax
  by_cases hne : axes = []
  · have : castV axes = [] := by rw [hne]; rfl
    simp [Padder.forward, hx, hc.1, this, bind, Except.bind, pure, Except.pure]
  · have hne' : castV axes ≠ [] := by simpa [castV] using hne
    have hk : p.nPadded (castV axes) =
        (if p.ndim > 0 then min axes.length p.ndim.toNat else axes.length) := by
      simp [Padder.nPadded, castV]
    have hacc : ∀ (is : List Int) (v : List Int × List Int),
        (∀ i ∈ is, Padder.pairAt p.padWidth i = .ok (0, 0)) →
        p.accLoop x.shape (castV axes) is v = .ok v := by
      intro is
      induction is with
      | nil => intro v _; rfl
      | cons i is ih =>
        intro v hi
        simp only [Padder.accLoop, Padder.accStep, hi i (by simp), bind, Except.bind, and_self, if_true,
          pure, Except.pure]
        exact ih v (fun i' hi' => hi i' (by simp [hi']))
    have hacc' := hacc (Padder.negRange (p.nPadded (castV axes)))
      (castV (x.shape.map fun _ => 0), castV (x.shape.map fun _ => 0)) (by
        intro i hi
        simp only [Padder.negRange, List.mem_map, List.mem_range] at hi
        obtain ⟨j, hj, rfl⟩ := hi
        rw [hk] at hj ⊢
        exact hz j _ rfl hj)
    simp only [Padder.forward, if_neg hx, hc.1, if_neg hne', bind, Except.bind, pure, Except.pure, castV_zero,
      hacc', tailV_eq, zipAdd_cast]
    rw [← newShape]
    have hsh : newShape (x.shape.map fun _ => 0) x.shape (x.shape.map fun _ => 0) = x.shape := by
      have : ∀ l : List Nat, newShape (l.map fun _ => 0) l (l.map fun _ => 0) = l := by
        intro l
        induction l with
        | nil => rfl
        | cons a l ih =>
          simp only [newShape, List.map_cons, List.zipWith_cons_cons, Nat.zero_add, Nat.add_zero] at ih ⊢
          rw [ih]
      exact this _
    rw [hsh]
    exact if_pos rfl

namespace Example

/-- `Padder(pad_width=[(3, 3), (0, 0)], mode="no such mode")` -/
def pBad : Padder ℚ where
  padWidth := ⟨.seq [.seq [.leaf 3, .leaf 3], .seq [.leaf 0, .leaf 0]], [2, 2], 1⟩
  mode := ⟨.leaf .unknown, [], 0⟩
  constantValues := ⟨.seq [.leaf 0, .leaf 0], [2], 0⟩
  endValues := ⟨.seq [.leaf 0, .leaf 0], [2], 0⟩
  statLength := ⟨.seq [.leaf none, .leaf none], [2], 0⟩
  ndim := 2

theorem init_pBad : Padder.init (.seq [.seq [.leaf 3, .leaf 3], .seq [.leaf 0, .leaf 0]])
    (.leaf Mode.unknown) (.leaf (0 : ℚ)) (.leaf 0) (.leaf none) = .ok pBad := by rfl

end Example

example (junk : List Nat → ℚ) : Example.pBad.forward junk Example.x (.int 1) = .ok Example.x :=
  C18_nothing_to_pad (axes := [1]) (by decide) (by decide) (by
    intro j k hk hj
    have : k = 1 := by rw [hk]; decide
    subst this
    have : j = 0 := by omega
    subst this
    rfl) junk

end TI
