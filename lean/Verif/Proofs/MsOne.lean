import Verif.Props.SsimOne
import Verif.Props.MsSsim

/-!
# When the map without the comparison of the means is one everywhere

The difference of the images is then the same in every window, hence constant along the axes if the windows overlap.
-/

set_option linter.unusedSectionVars false

namespace TI
open Tensor Spec

section
variable {α : Type} [Field α] [LinearOrder α] [IsStrictOrderedRing α]

/-- the same values along an axis -/
def ConstAlong (a : Nat) (u : Tensor α) : Prop := ∀ ix, InB u.shape ix → ∀ t < u.shape.getD a 0, u.get (ix.set a t) = u.get ix

theorem weighted_dev (w u : Nat → α) (k : Nat) (h1 : ((List.range k).map w).sum = 1) :
    ((List.range k).map fun j => w j * (u j - ((List.range k).map fun j => w j * u j).sum) ^ 2).sum =
      ((List.range k).map fun j => w j * u j ^ 2).sum - ((List.range k).map fun j => w j * u j).sum ^ 2 := by
  have key : ∀ (m : α) (n : Nat), ((List.range n).map fun j => w j * (u j - m) ^ 2).sum =
      ((List.range n).map fun j => w j * u j ^ 2).sum - 2 * m * ((List.range n).map fun j => w j * u j).sum + m ^ 2 * ((List.range n).map w).sum := by
    intro m n
    induction n with
    | zero => simp
    | succ n ih =>
      simp only [List.range_succ, List.map_append, List.sum_append, List.map_cons, List.map_nil, List.sum_cons, List.sum_nil, add_zero, ih]
      ring
  rw [key, h1]
  ring

theorem sum_split_sub (w u v : Nat → α) (k : Nat) : ((List.range k).map fun j => w j * (u j - v j)).sum =
    ((List.range k).map fun j => w j * u j).sum - ((List.range k).map fun j => w j * v j).sum := by
  induction k with
  | zero => simp
  | succ n ih =>
    simp only [List.range_succ, List.map_append, List.sum_append, List.map_cons, List.map_nil, List.sum_cons, List.sum_nil, add_zero, ih]
    ring

/-- windows without spread: the squares have no spread either, and all values in a window are the same -/
theorem window_spread {k : Nat} {w u s : Nat → α} (hw : ∀ j < k, 0 < w j) (h1 : ((List.range k).map w).sum = 1) (hs : ∀ j < k, u j ^ 2 ≤ s j)
    (h : ((List.range k).map fun j => w j * s j).sum = ((List.range k).map fun j => w j * u j).sum ^ 2) :
    (∀ j < k, s j = u j ^ 2) ∧ ∀ j < k, u j = ((List.range k).map fun j => w j * u j).sum := by
  have e1 := weighted_dev w u k h1
  have e2 := sum_split_sub w s (fun j => u j ^ 2) k
  have p1 : 0 ≤ ((List.range k).map fun j => w j * (u j - ((List.range k).map fun j => w j * u j).sum) ^ 2).sum := by
    apply List.sum_nonneg
    intro b hb
    obtain ⟨j, hj, rfl⟩ := List.mem_map.1 hb
    exact mul_nonneg (hw j (List.mem_range.1 hj)).le (sq_nonneg _)
  have p2 : 0 ≤ ((List.range k).map fun j => w j * (s j - u j ^ 2)).sum := by
    apply List.sum_nonneg
    intro b hb
    obtain ⟨j, hj, rfl⟩ := List.mem_map.1 hb
    exact mul_nonneg (hw j (List.mem_range.1 hj)).le (sub_nonneg.2 (hs j (List.mem_range.1 hj)))
  constructor
  · intro j hj
    have := sum_pos_weights (u := fun j => s j - u j ^ 2) hw (fun j hj => sub_nonneg.2 (hs j hj)) (by linarith) j hj
    exact sub_eq_zero.1 this
  · intro j hj
    have := sum_pos_weights (u := fun j => (u j - ((List.range k).map fun j => w j * u j).sum) ^ 2) hw (fun j hj => sq_nonneg _) (by linarith) j hj
    exact sub_eq_zero.1 (pow_eq_zero_iff two_ne_zero |>.1 this)

theorem sum_range_getD (l : List α) : ((List.range l.length).map fun j => l.getD j 0).sum = l.sum := by
  congr 1
  apply List.ext_getElem (by simp)
  intro i h1 h2
  simp at h1 h2 ⊢
  simp [h2]

/-- an average of values that are the same along the axis is that value -/
theorem slide_const {u : Tensor α} {o : PoolOp α} (hk : o.kernel ≠ []) (ha : o.axis < u.ndim) (hs : 0 < o.stride) (h1 : o.kernel.sum = 1)
    (hc : ConstAlong o.axis u) {ix : List Nat} (hix : InB (slide u o).shape ix) : InB u.shape ix ∧ (slide u o).get ix = u.get ix := by
  have hlen : 0 < o.kernel.length := List.length_pos_iff.2 hk
  have hax : o.axis < ix.length := by
    rw [hix.length_eq]
    have : (slide u o).ndim = u.ndim := slide_ndim _ _
    simp only [ndim] at this ha
    omega
  have hin : InB u.shape ix := by
    have h0 := slide_inB hs ha hk hix hlen
    have hle : ix.getD o.axis 0 < u.shape.getD o.axis 0 := by
      have := h0.lt (k := o.axis) ha
      rw [getD_set_self _ _ _ _ hax, Nat.add_zero] at this
      exact lt_of_le_of_lt (Nat.le_mul_of_pos_right _ hs) this
    have h3 := h0.set_same (d := o.axis) hle
    rw [List.set_set, set_getD_self] at h3
    exact h3
  refine ⟨hin, ?_⟩
  rw [slide_get hk hix]
  have : ∀ j ∈ List.range o.kernel.length, o.kernel.getD j 0 * u.get (ix.set o.axis (ix.getD o.axis 0 * o.stride + j)) = o.kernel.getD j 0 * u.get ix := by
    intro j hj
    rw [hc ix hin _ ?_]
    have := (slide_inB hs ha hk hix (List.mem_range.1 hj)).lt (k := o.axis) ha
    rwa [getD_set_self _ _ _ _ hax] at this
  rw [List.map_congr_left this, List.sum_map_mul_right, sum_range_getD, h1, one_mul]

/-- values that agree in all windows of at least two samples agree along the axis -/
theorem slide_spread {u s : Tensor α} {o : PoolOp α} (ha : o.axis < u.ndim) (hst : o.stride = 1) (hl : 2 ≤ o.kernel.length)
    (hn : o.kernel.length ≤ u.shape.getD o.axis 0) (hsh : s.shape = u.shape) (hw : ∀ v ∈ o.kernel, 0 < v) (h1 : o.kernel.sum = 1)
    (hs : ∀ ix, InB u.shape ix → u.get ix ^ 2 ≤ s.get ix) (h : ∀ ix, InB (slide u o).shape ix → (slide s o).get ix = (slide u o).get ix ^ 2) :
    (∀ ix, InB u.shape ix → s.get ix = u.get ix ^ 2) ∧ ConstAlong o.axis u := by
  have hk : o.kernel ≠ [] := by rintro e; rw [e] at hl; simp at hl
  have hsh' : (slide s o).shape = (slide u o).shape := by simp only [slide_shape, hsh]
  have hshape : (slide u o).shape = u.shape.set o.axis (u.shape.getD o.axis 0 - o.kernel.length + 1) := by
    rw [slide_shape, if_neg hk, hst, windowCount_one (by omega) hn]
  -- all windows
  have key : ∀ ix, InB u.shape ix → ∀ t, t + o.kernel.length ≤ u.shape.getD o.axis 0 → ∀ j < o.kernel.length,
      s.get (ix.set o.axis (t + j)) = u.get (ix.set o.axis (t + j)) ^ 2 ∧ u.get (ix.set o.axis (t + j)) = (slide u o).get (ix.set o.axis t) := by
    intro ix hix t ht j hj
    have hax : o.axis < ix.length := by rw [hix.length_eq]; exact ha
    have hin : InB (slide u o).shape (ix.set o.axis t) := by rw [hshape]; exact hix.set' (by omega)
    have hz := h _ hin
    rw [slide_get hk (by rw [hsh']; exact hin), slide_get hk hin] at hz
    simp only [getD_set_self _ _ _ _ hax, hst, List.set_set, Nat.mul_one] at hz
    have := window_spread (w := fun j => o.kernel.getD j 0) (u := fun j => u.get (ix.set o.axis (t + j))) (s := fun j => s.get (ix.set o.axis (t + j)))
      (fun j hj => hw _ (by simp [hj])) (by rw [sum_range_getD]; exact h1) (fun j hj => hs _ (hix.set_same (by omega))) hz
    refine ⟨this.1 j hj, ?_⟩
    rw [slide_get hk hin]
    simp only [getD_set_self _ _ _ _ hax, hst, List.set_set, Nat.mul_one]
    exact this.2 j hj
  -- the window that contains two neighbours
  have step : ∀ ix, InB u.shape ix → ∀ t, t + 1 < u.shape.getD o.axis 0 → u.get (ix.set o.axis (t + 1)) = u.get (ix.set o.axis t) := by
    intro ix hix t ht
    have e1 := (key ix hix (min t (u.shape.getD o.axis 0 - o.kernel.length)) (by omega) (t - min t (u.shape.getD o.axis 0 - o.kernel.length)) (by omega)).2
    have e2 := (key ix hix (min t (u.shape.getD o.axis 0 - o.kernel.length)) (by omega) (t + 1 - min t (u.shape.getD o.axis 0 - o.kernel.length)) (by omega)).2
    rw [Nat.add_sub_cancel' (by omega)] at e1 e2
    rw [e1, e2]
  have all : ∀ ix, InB u.shape ix → ∀ t, t < u.shape.getD o.axis 0 → u.get (ix.set o.axis t) = u.get (ix.set o.axis 0) := by
    intro ix hix t
    induction t with
    | zero => intro _; rfl
    | succ t ih => intro ht; rw [step ix hix t ht, ih (by omega)]
  constructor
  · intro ix hix
    have hlt := hix.lt (k := o.axis) ha
    have e := (key ix hix (min (ix.getD o.axis 0) (u.shape.getD o.axis 0 - o.kernel.length)) (by omega)
      (ix.getD o.axis 0 - min (ix.getD o.axis 0) (u.shape.getD o.axis 0 - o.kernel.length)) (by omega)).1
    rw [Nat.add_sub_cancel' (by omega), set_getD_self] at e
    exact e
  · intro ix hix t ht
    rw [all ix hix t ht, ← all ix hix (ix.getD o.axis 0) (hix.lt (k := o.axis) ha), set_getD_self]

/-- moments after sliding windows without spread: there was none before, and the means are constant along the axes of the windows -/
theorem poolSeq_spread : ∀ {ops : List (PoolOp α)} {u s : Tensor α}, (ops.map PoolOp.axis).Nodup → (∀ o ∈ ops, o.axis < u.ndim) →
    (∀ o ∈ ops, o.stride = 1) → (∀ o ∈ ops, 2 ≤ o.kernel.length) → (∀ o ∈ ops, o.kernel.length ≤ u.shape.getD o.axis 0) →
    s.shape = u.shape → (∀ o ∈ ops, ∀ v ∈ o.kernel, 0 < v) → (∀ o ∈ ops, o.kernel.sum = 1) →
    (∀ ix, InB u.shape ix → u.get ix ^ 2 ≤ s.get ix) →
    (∀ ix, InB (poolSeq u ops).shape ix → (poolSeq s ops).get ix = (poolSeq u ops).get ix ^ 2) →
    (∀ ix, InB u.shape ix → s.get ix = u.get ix ^ 2) ∧ ∀ o ∈ ops, ConstAlong o.axis u
  | [], _, _, _, _, _, _, _, _, _, _, _, h => ⟨h, by simp⟩
  | o :: ops, u, s, hnd, ha, hst, hl, hn, hsh, hw, h1, hs, h => by
    have hk : o.kernel ≠ [] := by
      have := hl o (by simp)
      rintro e; rw [e] at this; simp at this
    have hax := ha o (by simp)
    have hsh' : (slide s o).shape = (slide u o).shape := by simp only [slide_shape, hsh]
    rw [List.map_cons, List.nodup_cons] at hnd
    have hsz : ∀ q ∈ ops, (slide u o).shape.getD q.axis 0 = u.shape.getD q.axis 0 := by
      intro q hq
      have : q.axis ≠ o.axis := fun e => hnd.1 (List.mem_map.2 ⟨q, hq, e⟩)
      rw [slide_shape, if_neg hk, getD_set_ne _ _ _ _ _ this]
    have hjensen : ∀ ix, InB (slide u o).shape ix → (slide u o).get ix ^ 2 ≤ (slide s o).get ix := by
      intro ix hix
      rw [slide_get hk hix, slide_get hk (by rw [hsh']; exact hix)]
      have e1 := weighted_dev (fun j => o.kernel.getD j 0) (fun j => u.get (ix.set o.axis (ix.getD o.axis 0 * o.stride + j))) o.kernel.length
        (by rw [sum_range_getD]; exact h1 o (by simp))
      have e2 := sum_split_sub (fun j => o.kernel.getD j 0) (fun j => s.get (ix.set o.axis (ix.getD o.axis 0 * o.stride + j)))
        (fun j => u.get (ix.set o.axis (ix.getD o.axis 0 * o.stride + j)) ^ 2) o.kernel.length
      have hpos : ∀ j < o.kernel.length, 0 < o.kernel.getD j 0 := fun j hj => hw o (by simp) _ (by simp [hj])
      have p1 : 0 ≤ ((List.range o.kernel.length).map fun j => o.kernel.getD j 0 * (u.get (ix.set o.axis (ix.getD o.axis 0 * o.stride + j)) -
          ((List.range o.kernel.length).map fun j => o.kernel.getD j 0 * u.get (ix.set o.axis (ix.getD o.axis 0 * o.stride + j))).sum) ^ 2).sum := by
        apply List.sum_nonneg
        intro b hb
        obtain ⟨j, hj, rfl⟩ := List.mem_map.1 hb
        exact mul_nonneg (hpos j (List.mem_range.1 hj)).le (sq_nonneg _)
      have p2 : 0 ≤ ((List.range o.kernel.length).map fun j => o.kernel.getD j 0 * (s.get (ix.set o.axis (ix.getD o.axis 0 * o.stride + j)) -
          u.get (ix.set o.axis (ix.getD o.axis 0 * o.stride + j)) ^ 2)).sum := by
        apply List.sum_nonneg
        intro b hb
        obtain ⟨j, hj, rfl⟩ := List.mem_map.1 hb
        exact mul_nonneg (hpos j (List.mem_range.1 hj)).le
          (sub_nonneg.2 (hs _ (slide_inB (by rw [hst o (by simp)]; omega) hax hk hix (List.mem_range.1 hj))))
      linarith
    have ih := poolSeq_spread (ops := ops) (u := slide u o) (s := slide s o) hnd.2 (by rw [slide_ndim]; exact fun q hq => ha q (by simp [hq]))
      (fun q hq => hst q (by simp [hq])) (fun q hq => hl q (by simp [hq])) (fun q hq => by rw [hsz q hq]; exact hn q (by simp [hq])) hsh'
      (fun q hq => hw q (by simp [hq])) (fun q hq => h1 q (by simp [hq])) hjensen h
    have hthis := slide_spread hax (hst o (by simp)) (hl o (by simp)) (hn o (by simp)) hsh (hw o (by simp)) (h1 o (by simp)) hs ih.1
    refine ⟨hthis.1, ?_⟩
    intro q hq
    rcases List.mem_cons.1 hq with rfl | hq
    · exact hthis.2
    · have hqo : q.axis ≠ o.axis := fun e => hnd.1 (List.mem_map.2 ⟨q, hq, e⟩)
      have hc := ih.2 q hq
      intro ix hix t ht
      have h0 : InB (slide u o).shape (ix.set o.axis 0) := by
        have hn' := hn o (by simp)
        have hl' := hl o (by simp)
        rw [slide_shape, if_neg hk, hst o (by simp), windowCount_one (by omega) hn']
        exact hix.set' (by omega)
      have hpos : 0 < u.shape.getD o.axis 0 := lt_of_le_of_lt (Nat.zero_le _) (hix.lt (k := o.axis) hax)
      have e0 := hc _ h0 t (by rw [hsz q hq]; exact ht)
      have h0' : InB (slide u o).shape ((ix.set o.axis 0).set q.axis t) := h0.set_same (by rw [hsz q hq]; exact ht)
      rw [(slide_const hk hax (by rw [hst o (by simp)]; omega) (h1 o (by simp)) hthis.2 h0).2,
        (slide_const hk hax (by rw [hst o (by simp)]; omega) (h1 o (by simp)) hthis.2 h0').2, List.set_comm _ _ hqo.symm] at e0
      rw [hthis.2 ix hix 0 hpos, hthis.2 (ix.set q.axis t) (hix.set_same ht) 0 hpos] at e0
      exact e0

theorem poolSeq_spread_pair {ops : List (PoolOp α)} {u1 u2 s11 s22 s12 : Tensor α} (h : PossibleAt u1 u2 s11 s22 s12) (hf : Fitting u1 ops)
    (hnd : (ops.map PoolOp.axis).Nodup) (ha : ∀ o ∈ ops, o.axis < u1.ndim) (hs : ∀ o ∈ ops, o.stride = 1) (hl : ∀ o ∈ ops, 2 ≤ o.kernel.length)
    (hn : ∀ o ∈ ops, o.kernel.length ≤ u1.shape.getD o.axis 0) (hw : ∀ o ∈ ops, ∀ v ∈ o.kernel, 0 < v) (h1 : ∀ o ∈ ops, o.kernel.sum = 1)
    (h0 : ∀ ix, InB (poolSeq u1 ops).shape ix → (poolSeq s11 ops).get ix + (poolSeq s22 ops).get ix - 2 * (poolSeq s12 ops).get ix =
      ((poolSeq u1 ops).get ix - (poolSeq u2 ops).get ix) ^ 2) :
    ∀ o ∈ ops, ConstAlong o.axis (lincomb 1 u1 (-1) u2) := by
  have hsh : ∀ t : Tensor α, t.shape = u1.shape → (poolSeq t ops).shape = (poolSeq u1 ops).shape := fun t ht => poolSeq_shape_congr ht
  have e0 : poolSeq (lincomb 1 u1 (-1) u2) ops = lincomb 1 (poolSeq u1 ops) (-1) (poolSeq u2 ops) := poolSeq_lincomb_fitting h.shape2.symm hf
  have e1 : poolSeq (lincomb 1 s11 1 s22) ops = lincomb 1 (poolSeq s11 ops) 1 (poolSeq s22 ops) :=
    poolSeq_lincomb_fitting (by rw [h.shape11, h.shape22]) (Fitting_congr h.shape11.symm hf)
  have e2 : poolSeq (lincomb 1 (lincomb 1 s11 1 s22) (-2) s12) ops = lincomb 1 (lincomb 1 (poolSeq s11 ops) 1 (poolSeq s22 ops)) (-2) (poolSeq s12 ops) := by
    rw [poolSeq_lincomb_fitting (show (lincomb 1 s11 1 s22).shape = s12.shape from h.shape11.trans h.shape12.symm)
      (Fitting_congr (show u1.shape = (lincomb 1 s11 1 s22).shape from h.shape11.symm) hf), e1]
  refine (poolSeq_spread (u := lincomb 1 u1 (-1) u2) (s := lincomb 1 (lincomb 1 s11 1 s22) (-2) s12) hnd ha hs hl hn h.shape11 hw h1 ?_ ?_).2
  · intro ix hix
    have hix1 : InB u1.shape ix := hix
    have hix' : InB s11.shape ix := by rw [h.shape11]; exact hix
    rw [lincomb_get (show InB (lincomb 1 s11 1 s22).shape ix from hix'), lincomb_get hix', lincomb_get hix1]
    have := h.possible ix hix1 1 (-1)
    nlinarith
  · intro ix hix
    rw [e0] at hix ⊢
    rw [e2]
    have hix1 : InB (poolSeq u1 ops).shape ix := hix
    have hix' : InB (poolSeq s11 ops).shape ix := by rw [hsh _ h.shape11]; exact hix
    rw [lincomb_get (show InB (lincomb 1 (poolSeq s11 ops) 1 (poolSeq s22 ops)).shape ix from hix'), lincomb_get hix', lincomb_get hix1]
    have := h0 ix hix1
    linear_combination this

theorem embed_set (ops : List (Nat × AxisPad α)) (ix : List Nat) (a t : Nat) : embed ops (ix.set a t) = (embed ops ix).set a (t + beforeAt ops a) := by
  apply list_ext_getD (by simp [embed])
  intro k hk
  have hk' : k < ix.length := by simpa [embed] using hk
  rw [embed_getD _ (by simpa using hk')]
  by_cases e : k = a
  · subst e
    rw [getD_set_self _ _ _ _ hk', getD_set_self _ _ _ _ (by simpa [embed] using hk')]
  · rw [getD_set_ne _ _ _ _ _ e, getD_set_ne _ _ _ _ _ e, embed_getD _ hk']

variable {pool : SepPool α} {a : PoolArgs α} {m : Nat} {gp : Option (PadArgs α)} {x y1 y2 : Tensor α} {ax rax : Axes}
  {axes raxes : List Nat} {p q : Option (Padder α)} {k1 k2 : α} {sc cr : Bool}

/-- the blurred moments show no spread of the difference: it is constant along the axes -/
theorem blurred_spread {g : Given (List α)} (h : BlurCall g gp y1 ax axes p) (hops : gp = none → PoolOps y1 ((PoolArgs.filter g).ops axes))
    (hav : Averages g axes) (hw : PositiveKernels g axes) (hl : ∀ i < axes.length, 2 ≤ (g.entry [] i).length) (hk : KeepsMoments gp axes)
    (h12 : y2.shape = y1.shape) (h0 : ∀ ix, InB (blurred g gp axes y1).shape ix →
      (blurred g gp axes (times y1 y1)).get ix + (blurred g gp axes (times y2 y2)).get ix - 2 * (blurred g gp axes (times y1 y2)).get ix =
        ((blurred g gp axes y1).get ix - (blurred g gp axes y2).get ix) ^ 2) :
    ∀ a ∈ axes, ConstAlong a (lincomb 1 y1 (-1) y2) := by
  have hw' : ∀ o ∈ (PoolArgs.filter g).ops axes, ∀ v ∈ o.kernel, 0 < v := by
    intro o ho
    obtain ⟨i, hi, rfl⟩ := List.mem_map.1 ho
    exact (hw i (List.mem_range.1 hi)).2
  have hst : ∀ o ∈ (PoolArgs.filter g).ops axes, o.stride = 1 := by
    intro o ho
    obtain ⟨i, hi, rfl⟩ := List.mem_map.1 ho
    rfl
  have hl' : ∀ o ∈ (PoolArgs.filter g).ops axes, 2 ≤ o.kernel.length := by
    intro o ho
    obtain ⟨i, hi, rfl⟩ := List.mem_map.1 ho
    exact hl i (List.mem_range.1 hi)
  have hne : ∀ o ∈ (PoolArgs.filter g).ops axes, o.kernel ≠ [] := by
    intro o ho e
    have := hl' o ho
    rw [e] at this
    simp at this
  have hsum : ∀ o ∈ (PoolArgs.filter g).ops axes, o.kernel.sum = 1 := by
    intro o ho
    obtain ⟨i, hi, rfl⟩ := List.mem_map.1 ho
    exact (hav i (List.mem_range.1 hi) (hne _ ho)).2
  have hmem : ∀ a ∈ axes, ∃ o ∈ (PoolArgs.filter g).ops axes, o.axis = a := by
    intro a ha
    obtain ⟨i, hi, rfl⟩ := List.mem_iff_getElem.1 ha
    refine ⟨_, List.mem_map.2 ⟨i, List.mem_range.2 hi, rfl⟩, ?_⟩
    simp [PoolArgs.op, hi]
  have hpt := possibleAt_times h12.symm
  cases gp with
  | none =>
    have hp := hops rfl
    intro a ha
    obtain ⟨o, ho, rfl⟩ := hmem a ha
    exact poolSeq_spread_pair hpt hp.fitting hp.nodup (fun o ho => hp.axis o ho (hne o ho)) hst hl' (fun o ho => hp.fits o ho (hne o ho)) hw' hsum h0 o ho
  | some gp =>
    have hc := h.2
    have hnd : ((sameOps (PoolArgs.filter g) gp y1.shape axes).map Prod.fst).Nodup := by rw [sameOps_fst]; exact hc.nodup
    simp only [blurred, filtered, h12, times_shape] at h0
    have hpp : PossibleAt (padSeq y1 (sameOps (PoolArgs.filter g) gp y1.shape axes)) (padSeq y2 (sameOps (PoolArgs.filter g) gp y1.shape axes))
        (padSeq (times y1 y1) (sameOps (PoolArgs.filter g) gp y1.shape axes)) (padSeq (times y2 y2) (sameOps (PoolArgs.filter g) gp y1.shape axes))
        (padSeq (times y1 y2) (sameOps (PoolArgs.filter g) gp y1.shape axes)) := by
      refine padSeq_possible hnd hc.lt ?_ ?_ hpt
      · intro o ho
        obtain ⟨i, hi, rfl⟩ := sameOps_mem ho
        exact hc.pos _ (by simp [hi])
      · intro o ho
        obtain ⟨i, hi, rfl⟩ := sameOps_mem ho
        have := hk gp rfl i hi
        simpa only [AxisPad.KeepsMoments, sameSetting, PadArgs.entry] using this
    have hp := hc.poolOps
    intro a ha
    obtain ⟨o, ho, rfl⟩ := hmem a ha
    have h1 := poolSeq_spread_pair hpp hp.fitting hp.nodup (fun o ho => hp.axis o ho (hne o ho)) hst hl' (fun o ho => hp.fits o ho (hne o ho)) hw' hsum h0 o ho
    have hcr := fun t : Tensor α => fun ht : t.shape = y1.shape => padSeq_cropOf hc.opsOK hnd t (fun o ho => by
      rw [ndim, ht]; exact hc.lt o ho)
    have hax : o.axis < y1.ndim := by
      have := hp.axis o ho (hne o ho)
      rwa [(hcr y1 rfl).ndim] at this
    have key : ∀ ix, InB y1.shape ix → (lincomb 1 (padSeq y1 (sameOps (PoolArgs.filter g) gp y1.shape axes)) (-1)
        (padSeq y2 (sameOps (PoolArgs.filter g) gp y1.shape axes))).get (embed (sameOps (PoolArgs.filter g) gp y1.shape axes) ix) =
        (lincomb 1 y1 (-1) y2).get ix := by
      intro ix hix
      rw [lincomb_get ((hcr y1 rfl).inB hix), lincomb_get hix, (hcr y1 rfl).get ix hix, (hcr y2 h12).get ix (by rw [h12]; exact hix)]
    intro ix hix t ht
    have hix1 : InB y1.shape ix := hix
    have ht1 : t < y1.shape.getD o.axis 0 := ht
    have hsz := (hcr y1 rfl).size o.axis hax
    rw [← key ix hix1, ← key (ix.set o.axis t) (hix1.set_same ht1), embed_set]
    exact h1 _ ((hcr y1 rfl).inB hix1) _ (lt_of_lt_of_le (by omega) hsz)

/-- the map without the comparison of the means is 1 everywhere: the difference of the images is constant along the axes -/
theorem csMap_eq_one {g : Given (List α)} (h : BlurCall g gp y1 ax axes p) (hops : gp = none → PoolOps y1 ((PoolArgs.filter g).ops axes))
    (hav : Averages g axes) (hw : PositiveKernels g axes) (hl : ∀ i < axes.length, 2 ≤ (g.entry [] i).length)
    (hk : KeepsMoments gp axes) (h12 : y2.shape = y1.shape) (hk2 : k2 ≠ 0) (hN : sc = true → windowSize g axes.length ≠ 1)
    (h1 : ∀ ix, InB (csMap k2 (covFactor sc (windowSize g axes.length)) (blurred g gp axes) y1 y2).shape ix →
      (csMap k2 (covFactor sc (windowSize g axes.length)) (blurred g gp axes) y1 y2).get ix = 1) :
    ∀ a ∈ axes, ConstAlong a (lincomb 1 y1 (-1) y2) := by
  refine blurred_spread h hops hav hw hl hk h12 fun ix hix => ?_
  have h2 := h1 ix hix
  rw [csMap, get_ofFn hix] at h2
  exact (csIndex_eq_one (by positivity) (covFactor_pos (windowSize_pos hw) hN) ((blurred_possible h hav hk h12).possible ix hix)).1 h2

/-- averages of values that are constant along the axes of the windows -/
theorem poolSeq_const : ∀ {ops : List (PoolOp α)} {u : Tensor α}, (∀ o ∈ ops, o.kernel ≠ [] ∧ o.axis < u.ndim ∧ 0 < o.stride ∧ o.kernel.sum = 1) →
    (∀ o ∈ ops, ConstAlong o.axis u) →
    (∀ ix, InB (poolSeq u ops).shape ix → InB u.shape ix ∧ (poolSeq u ops).get ix = u.get ix) ∧ ∀ a, ConstAlong a u → ConstAlong a (poolSeq u ops)
  | [], _, _, _ => ⟨fun _ h => ⟨h, rfl⟩, fun _ h => h⟩
  | o :: ops, u, h, hc => by
    obtain ⟨hk, ha, hs, h1⟩ := h o (by simp)
    have hsl : ∀ ix, InB (slide u o).shape ix → InB u.shape ix ∧ (slide u o).get ix = u.get ix := fun ix hix => slide_const hk ha hs h1 (hc o (by simp)) hix
    have hkeep : ∀ a, ConstAlong a u → ConstAlong a (slide u o) := by
      intro a hca ix hix t ht
      have h2 : InB (slide u o).shape (ix.set a t) := hix.set_same ht
      rw [(hsl _ h2).2, (hsl _ hix).2]
      apply hca _ (hsl _ hix).1
      by_cases hax : a < u.ndim
      · have := (hsl _ h2).1.lt (k := a) hax
        rwa [getD_set_self _ _ _ _ (by rw [hix.length_eq]; have := slide_ndim u o; simp only [ndim] at this hax ⊢; omega)] at this
      · exfalso
        have hn := slide_ndim u o
        have hge : (slide u o).shape.length ≤ a := by simp only [ndim] at hn hax; omega
        rw [List.getD_eq_getElem?_getD, List.getElem?_eq_none hge] at ht
        simp only [Option.getD_none] at ht
        omega
    have ih := poolSeq_const (ops := ops) (u := slide u o) (fun q hq => by rw [slide_ndim]; exact h q (by simp [hq])) (fun q hq => hkeep _ (hc q (by simp [hq])))
    refine ⟨fun ix hix => ?_, fun a hca => ih.2 a (hkeep a hca)⟩
    have h2 := ih.1 ix hix
    exact ⟨(hsl _ h2.1).1, h2.2.trans (hsl _ h2.1).2⟩

theorem halved_const {u : Tensor α} (hlt : ∀ a ∈ axes, a < u.ndim) (hc : ∀ a ∈ axes, ConstAlong a u) :
    (∀ ix, InB (halved axes u).shape ix → InB u.shape ix ∧ (halved axes u).get ix = u.get ix) ∧ ∀ a ∈ axes, ConstAlong a (halved axes u) := by
  have hop : ∀ o ∈ (halver (α := α)).ops axes, o.kernel = [1 / 2, 1 / 2] ∧ o.axis ∈ axes ∧ o.stride = 2 := by
    intro o ho
    obtain ⟨i, hi, rfl⟩ := List.mem_map.1 ho
    have hi' := List.mem_range.1 hi
    rw [halver_op]
    exact ⟨rfl, by simp [hi'], rfl⟩
  have := poolSeq_const (ops := (halver (α := α)).ops axes) (u := u) (fun o ho => by
    obtain ⟨h1, h2, h3⟩ := hop o ho
    refine ⟨by rw [h1]; simp, hlt _ h2, by rw [h3]; omega, ?_⟩
    rw [h1]
    norm_num) (fun o ho => hc _ (hop o ho).2.1)
  exact ⟨this.1, fun a ha => this.2 a (hc a ha)⟩

theorem atLevel_const : ∀ (n : Nat) {u : Tensor α}, (∀ a ∈ axes, a < u.ndim) → (∀ a ∈ axes, ConstAlong a u) →
    ∀ ix, InB (atLevel axes n u).shape ix → InB u.shape ix ∧ (atLevel axes n u).get ix = u.get ix
  | 0, _, _, _ => fun _ h => ⟨h, rfl⟩
  | n + 1, u, hlt, hc => fun ix hix => by
    have h1 := halved_const hlt hc
    have h2 := atLevel_const n (u := halved axes u) (by rw [halved_ndim]; exact hlt) h1.2 ix hix
    exact ⟨(h1.1 ix h2.1).1, h2.2.trans (h1.1 ix h2.1).2⟩

theorem atLevel_lincomb {g : Given (List α)} {c d : α} : ∀ (n : Nat) {r : Nat} {y1 y2 : Tensor α}, MsAt g gp cr (r + n) y1 axes p → y2.shape = y1.shape →
    atLevel axes n (lincomb c y1 d y2) = lincomb c (atLevel axes n y1) d (atLevel axes n y2)
  | 0, _, _, _, _, _ => rfl
  | n + 1, r, y1, y2, h, h12 => by
    have h' : MsAt g gp cr (r + n + 1) y1 axes p := h
    rw [atLevel, atLevel, atLevel, ← atLevel_lincomb n h'.next (halved_shape_congr h12)]
    congr 1
    exact poolSeq_lincomb_fitting h12.symm (halver_poolOps h'.nodup h'.lt h'.two_le).fitting

/-- the index with zeros on the axes -/
def zeroed (axes ix : List Nat) : List Nat := (List.range ix.length).map fun k => if k ∈ axes then 0 else ix.getD k 0

theorem zeroed_length (axes ix : List Nat) : (zeroed axes ix).length = ix.length := by simp [zeroed]

theorem zeroed_getD {ix : List Nat} {k : Nat} (hk : k < ix.length) : (zeroed axes ix).getD k 0 = if k ∈ axes then 0 else ix.getD k 0 := by
  rw [zeroed, getD_map_range hk]

theorem zeroed_cons (b : Nat) (l ix : List Nat) : zeroed (b :: l) ix = zeroed l (ix.set b 0) := by
  apply list_ext_getD (by simp [zeroed])
  intro k hk
  have hk' : k < ix.length := by simpa [zeroed] using hk
  rw [zeroed_getD hk', zeroed_getD (by simpa using hk')]
  by_cases e : k = b
  · subst e
    rw [getD_set_self _ _ _ _ hk']
    simp
  · rw [getD_set_ne _ _ _ _ _ e]
    simp [e]

theorem zeroed_const : ∀ {axes : List Nat} {u : Tensor α} {ix : List Nat}, (∀ a ∈ axes, ConstAlong a u ∧ 0 < u.shape.getD a 0) → InB u.shape ix →
    u.get (zeroed axes ix) = u.get ix
  | [], u, ix, _, _ => by
    congr 1
    apply list_ext_getD (zeroed_length _ _)
    intro k hk
    rw [zeroed_getD (by simpa [zeroed] using hk)]
    simp
  | b :: l, u, ix, h, hix => by
    obtain ⟨hc, hp⟩ := h b (by simp)
    rw [zeroed_cons, zeroed_const (fun a ha => h a (by simp [ha])) (hix.set_same hp), hc ix hix 0 hp]

theorem zeroed_inB {S ix : List Nat} (h : InB S ix) : InB (onesAt axes S) (zeroed axes ix) := by
  rw [inB_iff]
  refine ⟨by rw [zeroed_length, onesAt_length]; exact h.length_eq, ?_⟩
  intro k hk
  rw [onesAt_length] at hk
  rw [onesAt_getD hk, zeroed_getD (by rw [h.length_eq]; exact hk)]
  split_ifs
  · omega
  · exact h.lt hk

theorem inB_of_onesAt {S jx : List Nat} (h : InB (onesAt axes S) jx) (hp : ∀ a ∈ axes, 0 < S.getD a 0) : InB S jx := by
  rw [inB_iff]
  refine ⟨by rw [h.length_eq, onesAt_length], ?_⟩
  intro k hk
  have := h.lt (k := k) (by rw [onesAt_length]; exact hk)
  rw [onesAt_getD hk] at this
  split_ifs at this with e
  · have := hp k e
    omega
  · exact this

/-- means that keep the axes are 1 only if all numbers, which are at most 1, are -/
theorem meanKept_eq_one (hx : ∀ ix, InB x.shape ix → x.get ix ≤ 1)
    (h : ∀ jx, InB (onesAt axes x.shape) jx → (meanKept x axes).get jx = 1) : ∀ ix, InB x.shape ix → x.get ix = 1 := by
  intro ix hix
  have hz := zeroed_inB (axes := axes) hix
  have h1 := h _ hz
  rw [meanKept, get_ofFn hz] at h1
  have hm : ix ∈ collected x.shape axes (onKept axes (zeroed axes ix)) := by
    refine mem_collected.2 ⟨hix, ?_⟩
    rw [onKept_eq_iff (zeroed_length _ _).symm]
    intro k hk hka
    rw [zeroed_getD hk, if_neg hka]
  refine mean_eq_one ?_ ?_ h1 _ (List.mem_map.2 ⟨ix, hm, rfl⟩)
  · intro e
    rw [List.map_eq_nil_iff] at e
    rw [e] at hm
    simp at hm
  · intro v hv
    obtain ⟨jx, hj, rfl⟩ := List.mem_map.1 hv
    exact hx jx (mem_collected.1 hj).1

end

end TI
