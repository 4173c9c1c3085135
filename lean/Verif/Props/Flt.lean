import Verif.Proofs.FltRun
import Verif.Proofs.FltValue
import Verif.Props.IntImage
import Verif.Props.IntPad

/-!
# Padding and pooling of images with entries that are not finite: C138
-/

set_option linter.unusedSectionVars false

namespace TI
open Tensor Spec

section
variable {α : Type} [Field α] [LinearOrder α] [IsStrictOrderedRing α]
variable {p : Padder α} {pool : SepPool α} {padder q : Option (Padder α)} {g : PoolArgs α} {gp : PadArgs α} {m : Nat} {x : Tensor α} {X Y : Tensor (Flt α)} {ax : Axes} {axes : List Nat}
variable {junk : List Nat → α} {junk' : List Nat → Flt α}

theorem fillsIn_iff : FillsIn x X ↔ x.Rel Flt.Agrees X :=
  ⟨fun h => rel_of_get Flt.agrees_ringRel.zero h.1 fun ix hix c hc => h.2 ix (h.1 ▸ hix) c hc, fun h => ⟨h.shape, fun ix _ a ha => h.get ix a ha⟩⟩

theorem alikeOutcome_of {r : Except Err (Tensor α)} {s : Except Err (Tensor (Flt α))} (h : ExRel (Tensor.Rel Flt.Agrees) r s) : AlikeOutcome r s := by
  rcases h.cases with ⟨e, h1, h2⟩ | ⟨z, Z, h1, h2, h3⟩
  · exact Or.inl ⟨e, h1, h2⟩
  · exact Or.inr ⟨z, Z, h1, h2, fillsIn_iff.2 h3⟩

theorem Spec.PlainModes.alike (h : PlainModes p) : ModesAlike (Flt.Agrees (α := α)) p := by
  intro q hq i m hm y y' hy idx axis
  obtain ⟨h1, h2⟩ := h i m (by rw [← hq.modeAt]; exact hm)
  exact rel_runModeFlt Flt.agrees_ringRel Flt.agrees_num q i h1 (fun hs => by rw [h2] at hs; cases hs) hy idx axis

/-- **C138.** Padding an image in which some entries are infinite or NaN: the call fails exactly if it fails with any numbers in their place, with the same exception, and
every finite entry of the result is the same for all numbers in their place. -/
theorem C138_pad (hp : PlainModes p) (hx : FillsIn x X) (hj : ∀ ix a, junk' ix = .num a → junk ix = a) (ax : Axes) : AlikeOutcome (p.forward junk x ax) (p.forwardFlt junk' X ax) :=
  alikeOutcome_of (rel_forwardFlt Flt.agrees_ringRel.zero p hj (fillsIn_iff.1 hx) ax (hp.alike p ⟨rfl, rfl, rfl, rfl⟩))

theorem fillsIn_numOrNan (hx : FillsIn x X) (hX : ∀ ix s, X.get ix ≠ .inf s) : x.Rel Flt.NumOrNan X := by
  refine rel_of_get Flt.numOrNan_ringRel.zero hx.1 fun ix hix => ?_
  cases h : X.get ix with
  | num a => exact Or.inl (by rw [hx.2 ix (hx.1 ▸ hix) a h])
  | inf s => exact absurd h (hX ix s)
  | nan => exact Or.inr rfl

/-- the modes, when there are no infinities -/
theorem modesAlike_nan (hp : ∀ i m, p.modeAt i = .ok m → callable m = false) : ModesAlike (Flt.NumOrNan (α := α)) p := by
  intro q hq i m hm y y' hy idx axis
  exact rel_runModeFlt Flt.numOrNan_ringRel (fun _ => Or.inl rfl) q i (hp i m (by rw [← hq.modeAt]; exact hm)) (fun _ => numOrNan_stat) hy idx axis

theorem alikeNan_of {r : Except Err (Tensor α)} {s : Except Err (Tensor (Flt α))} (h : ExRel (Tensor.Rel Flt.NumOrNan) r s) :
    AlikeOutcome r s ∧ ∀ Z, s = .ok Z → ∀ ix t, Z.get ix ≠ .inf t := by
  rcases h.cases with ⟨e, h1, h2⟩ | ⟨z, Z, h1, h2, h3⟩
  · exact ⟨Or.inl ⟨e, h1, h2⟩, fun Z hZ => by rw [h2] at hZ; cases hZ⟩
  · refine ⟨Or.inr ⟨z, Z, h1, h2, fillsIn_iff.2 (h3.mono fun a b hab => Flt.agrees_numOrNan hab)⟩, fun Z' hZ ix t => ?_⟩
    rw [h2] at hZ
    cases hZ
    rcases h3.get ix with h | h <;> rw [h] <;> simp

/-- **C138** without infinities: the same is true for all modes that are not callables, also for the statistics, and the result has no infinities. -/
theorem C138_pad_nan (hp : ∀ i m, p.modeAt i = .ok m → callable m = false) (hx : FillsIn x X) (hX : ∀ ix s, X.get ix ≠ .inf s)
    (hj : ∀ ix, junk' ix = .num (junk ix) ∨ junk' ix = .nan) (ax : Axes) :
    AlikeOutcome (p.forward junk x ax) (p.forwardFlt junk' X ax) ∧ ∀ Z, p.forwardFlt junk' X ax = .ok Z → ∀ ix s, Z.get ix ≠ .inf s :=
  alikeNan_of (rel_forwardFlt (Or.inl rfl) p hj (fillsIn_numOrNan hx hX) ax (modesAlike_nan hp p ⟨rfl, rfl, rfl, rfl⟩))

/-- the modes that copy -/
theorem modesAlike_copies {f : Flt α → α} (hf : ∀ a, f (.num a) = a) (hp : ∀ i m, p.modeAt i = .ok m → copies m = true) : ModesAlike (fun a b => a = f b) p := by
  intro q hq i m hm y y' hy idx axis
  exact rel_runModeFlt_copy (hf 0).symm q i (hp i m (by rw [← hq.modeAt]; exact hm)) (fun _ c _ => ⟨(hf _).symm, (hf _).symm⟩) hy idx axis

theorem rel_map_fun {f : Flt α → α} (hf : f 0 = 0) (X : Tensor (Flt α)) : (X.map f).Rel (fun a b => a = f b) X :=
  rel_of_get hf.symm rfl fun ix hix => get_map _ _ hix

theorem eq_map_of_rel {f : Flt α → α} {z : Tensor α} {Z : Tensor (Flt α)} (h : z.Rel (fun a b => a = f b) Z) : z = Z.map f :=
  ext_get h.shape fun ix hix => by rw [h.get ix, get_map _ _ (h.shape ▸ hix)]

/-- **C138.** The modes that repeat entries treat infinities and NaN like any other entries: replacing them by numbers before or after padding is the same. -/
theorem C138_copies (hp : ∀ i m, p.modeAt i = .ok m → copies m = true) {f : Flt α → α} (hf : ∀ a, f (.num a) = a) (junk : List Nat → Flt α) (X : Tensor (Flt α)) (ax : Axes) :
    p.forward (fun ix => f (junk ix)) (X.map f) ax = (p.forwardFlt junk X ax).map (Tensor.map f) := by
  have h := rel_forwardFlt (R := fun a b => a = f b) (hf 0).symm p (junk := fun ix => f (junk ix)) (junk' := junk) (fun _ => rfl) (rel_map_fun (hf 0) X) ax
    (modesAlike_copies hf hp p ⟨rfl, rfl, rfl, rfl⟩)
  rcases h.cases with ⟨e, h1, h2⟩ | ⟨z, Z, h1, h2, h3⟩
  · rw [h1, h2]; rfl
  · rw [h1, h2, eq_map_of_rel h3]; rfl

/-- **C138.** Pooling, with or without a padder: the state of the padder is the same, the exceptions are the same, and the finite entries do not depend on what is filled in. -/
theorem C138_pool (pool : SepPool α) (hp : ∀ p, padder = some p → PlainModes p) (hx : FillsIn x X) (hj : ∀ ix a, junk' ix = .num a → junk ix = a) (ax : Axes) :
    (pool.forward padder junk x ax).1 = (pool.forwardFlt padder junk' X ax).1 ∧ AlikeOutcome (pool.forward padder junk x ax).2 (pool.forwardFlt padder junk' X ax).2 := by
  obtain ⟨h1, h2⟩ := rel_poolForwardFlt (Flt.agrees_ringRel.dotRel Flt.agrees_num) pool padder (fun p e => (hp p e).alike) hj (fillsIn_iff.1 hx) ax
  exact ⟨h1, alikeOutcome_of h2⟩

/-- **C138** without infinities, for all modes that are not callables -/
theorem C138_pool_nan (pool : SepPool α) (hp : ∀ p, padder = some p → ∀ i m, p.modeAt i = .ok m → callable m = false) (hx : FillsIn x X) (hX : ∀ ix s, X.get ix ≠ .inf s)
    (hj : ∀ ix, junk' ix = .num (junk ix) ∨ junk' ix = .nan) (ax : Axes) :
    (pool.forward padder junk x ax).1 = (pool.forwardFlt padder junk' X ax).1 ∧ AlikeOutcome (pool.forward padder junk x ax).2 (pool.forwardFlt padder junk' X ax).2 ∧
      ∀ Z, (pool.forwardFlt padder junk' X ax).2 = .ok Z → ∀ ix s, Z.get ix ≠ .inf s := by
  obtain ⟨h1, h2⟩ := rel_poolForwardFlt (Flt.numOrNan_ringRel.dotRel fun _ => Or.inl rfl) pool padder (fun p e => modesAlike_nan (hp p e)) hj (fillsIn_numOrNan hx hX) ax
  exact ⟨h1, alikeNan_of h2⟩

theorem counting_eq (ops : List (PoolOp α)) : ops.map counting = ops.map (mapOp fun _ => 1) := rfl

theorem poolOps_counting {x : Tensor α} {ops : List (PoolOp α)} (h : PoolOps x ops) : PoolOps x (ops.map counting) where
  nodup := by rw [List.map_map]; exact h.nodup
  axis := by
    intro o ho hk
    obtain ⟨o, ho', rfl⟩ := List.mem_map.1 ho
    exact h.axis o ho' (by simpa [counting] using hk)
  stride := by
    intro o ho hk
    obtain ⟨o, ho', rfl⟩ := List.mem_map.1 ho
    exact h.stride o ho' (by simpa [counting] using hk)
  fits := by
    intro o ho hk
    obtain ⟨o, ho', rfl⟩ := List.mem_map.1 ho
    simpa [counting] using h.fits o ho' (by simpa [counting] using hk)

theorem corrSource_counting (ops : List (PoolOp α)) (ix j : List Nat) : corrSource (ops.map counting) ix j = corrSource ops ix j := by
  rw [corrSource, corrSource, List.zip_map_left, List.foldl_map]
  rfl

theorem prod_getD_one : ∀ (ops : List (PoolOp α)) (j : List Nat), InB (ops.map fun o => o.kernel.length) j → corrWeight (ops.map counting) j = 1
  | [], [], _ => rfl
  | o :: ops, i :: j, h => by
    have h : i < o.kernel.length ∧ InB (ops.map fun o => o.kernel.length) j := by simpa [InB] using h
    have ih := prod_getD_one ops j h.2
    rw [corrWeight] at ih ⊢
    rw [List.map_cons, List.zipWith_cons_cons, List.prod_cons, ih]
    simp [counting, h.1]

theorem poolSeq_counting_shape : ∀ (ops : List (PoolOp α)) {x y : Tensor α}, x.shape = y.shape → (poolSeq x (ops.map counting)).shape = (poolSeq y ops).shape
  | [], _, _, h => h
  | o :: ops, x, y, h => by
    refine poolSeq_counting_shape ops (x := slide x (counting o)) (y := slide y o) ?_
    unfold slide
    by_cases hk : o.kernel = [] <;> simp [counting, hk, h]

/-- the pooling of a padded image -/
theorem forwardFlt_mask (hb : Built pool g m) (hm : g.isMany = true → axes.length = m) (hax : axesOf X.ndim ax = some axes) {y : Tensor α}
    (hY : SepPool.padFlt pool padder junk' X (.seq (castV axes)) = (q, .ok Y)) (hy : y.Rel CountRel Y) (hf : Fitting y (g.ops axes)) :
    ∃ Z, SepPool.forwardFlt pool padder junk' X ax = (q, .ok Z) ∧ (poolSeq y ((g.ops axes).map counting)).Rel CountRel Z := by
  obtain ⟨Z, h1, h2⟩ := hb.poolIs.1.loopFlt_all countRel_dot hy (fun h => (hm h).le) hf
  exact ⟨Z, by rw [hb.poolIs.1.forwardFlt_padded hm hax hY, h1], h2⟩

theorem sum_list_nonneg_eq_zero {ι : Type} : ∀ (l : List ι) (f : ι → α), (∀ j ∈ l, 0 ≤ f j) → 0 ≤ (l.map f).sum ∧ ((l.map f).sum = 0 ↔ ∀ j ∈ l, f j = 0)
  | [], _, _ => by simp
  | a :: l, f, h => by
    have ih := sum_list_nonneg_eq_zero l f fun j hj => h j (by simp [hj])
    have ha := h a (by simp)
    rw [List.map_cons, List.sum_cons, List.forall_mem_cons, ← ih.2]
    exact ⟨add_nonneg ha ih.1, add_eq_zero_iff_of_nonneg ha ih.1⟩

/-- **C138.** Once the image is padded, an entry of the result of a pooling is finite exactly if all entries of its window are, whatever the weights (a weight of zero does not
hide an infinity or a NaN); all other entries are infinite or NaN. -/
theorem C138_windows (hb : Built pool g m) (hm : g.isMany = true → axes.length = m) (hax : axesOf X.ndim ax = some axes)
    (hY : SepPool.padFlt pool padder junk' X (.seq (castV axes)) = (q, .ok Y)) (hf : PoolOps (Y.map spoiled) (g.ops axes)) (hne : ∀ o ∈ g.ops axes, o.kernel ≠ []) :
    ∃ Z, SepPool.forwardFlt pool padder junk' X ax = (q, .ok Z) ∧ Z.shape = (corrNd (Y.map spoiled) (g.ops axes)).shape ∧
      ∀ ix, InB Z.shape ix → (IsFinite (Z.get ix) ↔ ∀ j, InB ((g.ops axes).map fun o => o.kernel.length) j → IsFinite (Y.get (corrSource (g.ops axes) ix j))) := by
  obtain ⟨Z, h1, h2⟩ := forwardFlt_mask hb hm hax hY (countRel_spoiled Y) hf.fitting
  rw [poolSeq_eq_corrNd (poolOps_counting hf) (by
    intro o ho
    obtain ⟨o, ho', rfl⟩ := List.mem_map.1 ho
    simpa [counting] using hne o ho')] at h2
  have hl : ((g.ops axes).map counting).map (fun o => o.kernel.length) = (g.ops axes).map fun o => o.kernel.length := by
    rw [List.map_map]
    exact List.map_congr_left fun o _ => by simp [counting]
  have hs : (corrNd (Y.map spoiled) ((g.ops axes).map counting)).shape = (corrNd (Y.map (spoiled (α := α))) (g.ops axes)).shape := by
    simp only [corrNd, shape_ofFn, List.foldl_map, counting, List.length_map]
  refine ⟨Z, h1, by rw [← h2.shape, hs], fun ix hix => ?_⟩
  rw [← (h2.get ix).2, corrNd, get_ofFn (show InB _ ix by have := h2.shape; rw [corrNd, shape_ofFn] at this; rw [this]; exact hix), hl,
    (sum_list_nonneg_eq_zero _ _ ?_).2]
  · constructor
    · intro h j hj
      have := h j (mem_indices.2 hj)
      rw [prod_getD_one _ _ hj, one_mul, corrSource_counting] at this
      exact ((countRel_spoiled Y).get _).2.1 this
    · intro h j hj
      have hj := mem_indices.1 hj
      rw [corrSource_counting, ((countRel_spoiled Y).get _).2.2 (h j hj), mul_zero]
  · intro j hj
    rw [prod_getD_one _ _ (mem_indices.1 hj), one_mul]
    exact ((countRel_spoiled Y).get _).1

/-- **C138.** The values of a pooled image, once it is padded: weighted sums over the windows, in the arithmetic of floating-point numbers with infinities and NaN. -/
theorem C138_values (hb : Built pool g m) (hm : g.isMany = true → axes.length = m) (hax : axesOf X.ndim ax = some axes)
    (hY : SepPool.padFlt pool padder junk' X (.seq (castV axes)) = (q, .ok Y)) (hf : PoolOps (Y.map spoiled) (g.ops axes)) (hne : ∀ o ∈ g.ops axes, o.kernel ≠ []) :
    ∃ Z, SepPool.forwardFlt pool padder junk' X ax = (q, .ok Z) ∧ Z.shape = (corrNd (Y.map spoiled) (g.ops axes)).shape ∧
      ∀ ix, InB Z.shape ix → Z.get ix = (windowTerms Y (g.ops axes) ix).sum := by
  obtain ⟨h1, h2⟩ := poolSeqFlt_get (x := Y.map spoiled) (X := Y) rfl hf hne
  refine ⟨_, ?_, h1, fun ix hix => h2 ix (h1 ▸ hix)⟩
  rw [hb.poolIs.1.forwardFlt_padded hm hax hY, hb.poolIs.1.loopFlt_all_eq (x := Y.map spoiled) rfl (fun h => (hm h).le) hf.fitting]

/-- **C138.** An entry of a pooled image is infinite exactly if there are infinities in its window, all of them with weights other than zero and pulling in the same direction, and no NaN. -/
theorem C138_infinite (hb : Built pool g m) (hm : g.isMany = true → axes.length = m) (hax : axesOf X.ndim ax = some axes)
    (hY : SepPool.padFlt pool padder junk' X (.seq (castV axes)) = (q, .ok Y)) (hf : PoolOps (Y.map spoiled) (g.ops axes)) (hne : ∀ o ∈ g.ops axes, o.kernel ≠ []) :
    ∃ Z, SepPool.forwardFlt pool padder junk' X ax = (q, .ok Z) ∧ ∀ ix, InB Z.shape ix → ∀ s, Z.get ix = .inf s ↔
      (∃ j, InB ((g.ops axes).map fun o => o.kernel.length) j ∧ Pulls (corrWeight (g.ops axes) j) (Y.get (corrSource (g.ops axes) ix j)) s) ∧
      ∀ j, InB ((g.ops axes).map fun o => o.kernel.length) j → IsFinite (Y.get (corrSource (g.ops axes) ix j)) ∨
        Pulls (corrWeight (g.ops axes) j) (Y.get (corrSource (g.ops axes) ix j)) s := by
  obtain ⟨Z, h1, _, h2⟩ := C138_values hb hm hax hY hf hne
  refine ⟨Z, h1, fun ix hix s => ?_⟩
  rw [h2 ix hix, Flt.sum_eq_inf]
  have hmem : ∀ b, b ∈ windowTerms Y (g.ops axes) ix ↔ ∃ j, InB ((g.ops axes).map fun o => o.kernel.length) j ∧
      Flt.num (corrWeight (g.ops axes) j) * Y.get (corrSource (g.ops axes) ix j) = b := by
    intro b
    rw [windowTerms, List.mem_map]
    exact exists_congr fun j => and_congr_left' mem_indices
  rw [hmem, hmem, hmem]
  simp only [Flt.num_mul_eq_inf, Flt.num_mul_eq_nan]
  refine and_congr_right fun _ => ?_
  rw [not_exists, not_exists, ← forall_and]
  refine forall_congr' fun j => ?_
  rw [not_and, not_and, ← forall_and]
  refine forall_congr' fun _ => ?_
  generalize corrWeight (g.ops axes) j = w
  generalize Y.get (corrSource (g.ops axes) ix j) = b
  have hi : ∀ r, ¬ IsFinite (Flt.inf r : Flt α) := fun r ⟨_, h⟩ => by cases h
  have hnan : ¬ IsFinite (Flt.nan : Flt α) := fun ⟨_, h⟩ => by cases h
  cases b with
  | num a => simp [Pulls, show IsFinite (Flt.num a) from ⟨a, rfl⟩]
  | nan => simp [Pulls, hnan]
  | inf r =>
    rcases lt_trichotomy w 0 with h | h | h
    · cases r <;> cases s <;> simp [Pulls, hi, h, h.ne, h.le]
    · simp [Pulls, hi, h]
    · cases r <;> cases s <;> simp [Pulls, hi, h, h.ne', h.le]

theorem Spec.CopyModes.alike (h : CopyModes p) : ModesAlike (fun a b => a = spoiled (α := α) b) p := by
  intro q hq i m hm y y' hy idx axis
  obtain ⟨h1, h2⟩ := h i m (by rw [← hq.modeAt]; exact hm)
  exact rel_runModeFlt_copy (R := fun a b => a = spoiled b) rfl q i h1 (fun e c hcv => by
    rw [h2 e c (by rw [← hq.cv]; exact hcv)]
    exact ⟨rfl, rfl⟩) hy idx axis

/-- **C138** with a padder that copies: the entries of the result that are not finite are found by pooling, with weights one, the padded image that is 1 where the
given one is not finite, and 0 elsewhere. -/
theorem C138_mask (hb : Built pool g m) (hm : g.isMany = true → axes.length = m) (hc : SameCall g gp (X.map spoiled) ax axes) (hp : Holds p gp) (hcp : CopyModes p)
    (junk : List Nat → Flt α) :
    ∃ q Z, SepPool.forwardFlt pool (some p) junk X ax = (q, .ok Z) ∧
      Z.shape = (poolSeq (padSeq (X.map spoiled) (sameOps g gp X.shape axes)) (g.ops axes)).shape ∧
      ∀ ix, IsFinite (Z.get ix) ↔ (poolSeq (padSeq (X.map spoiled) (sameOps g gp X.shape axes)) ((g.ops axes).map counting)).get ix = 0 := by
  obtain ⟨h1, h2⟩ := rel_padFlt (R := fun a b => a = spoiled b) rfl pool (some p) (fun p' e => by cases e; exact hcp.alike) (junk := fun ix => spoiled (junk ix)) (junk' := junk)
    (fun _ => rfl) (rel_map_fun rfl X) (.seq (castV axes))
  rw [hb.poolIs.1.pad_same hc hm hp] at h1 h2
  generalize hr : SepPool.padFlt pool (some p) junk X (.seq (castV axes)) = r at h1 h2
  obtain ⟨q, r⟩ := r
  cases h2 with
  | ok hy =>
    rename_i Y
    have hz := eq_map_of_rel hy
    obtain ⟨Z, z1, z2⟩ := forwardFlt_mask hb hm hc.axes_eq hr (countRel_spoiled Y) (by
      rw [← hz]
      exact hc.poolOps.fitting)
    rw [← hz] at z2
    refine ⟨q, Z, z1, ?_, fun ix => (z2.get ix).2.symm⟩
    rw [← z2.shape]
    exact poolSeq_counting_shape _ rfl

/-- **C138.** The statistics of a line: NaN if there is one. -/
theorem C138_stat_nan (s : Stat) {l : List (Flt α)} (h : Flt.nan ∈ l) : s.evalFlt l = .nan := by
  unfold Stat.evalFlt
  rw [if_pos (List.any_eq_true.2 ⟨_, h, rfl⟩)]

/-- **C138.** Without NaN the maximum and the minimum are the extreme entries in the order of numbers and infinities, and the mean is infinite exactly if there are infinities, all of the same sign. -/
theorem C138_stat {l : List (Flt α)} (hl : l ≠ []) (h : Flt.nan ∉ l) :
    (Stat.maximum.evalFlt l ∈ l ∧ ∀ b ∈ l, FltLe b (Stat.maximum.evalFlt l)) ∧ (Stat.minimum.evalFlt l ∈ l ∧ ∀ b ∈ l, FltLe (Stat.minimum.evalFlt l) b) ∧
      ∀ s, Stat.mean.evalFlt l = .inf s ↔ .inf s ∈ l ∧ .inf (!s) ∉ l := by
  have hn := Flt.any_isNan_false h
  obtain ⟨a, l', rfl⟩ : ∃ a l', l = a :: l' := by
    cases l with
    | nil => exact absurd rfl hl
    | cons a l' => exact ⟨a, l', rfl⟩
  have ha : a ≠ .nan := fun e => h (by simp [e])
  have hl' : Flt.nan ∉ l' := fun e => h (by simp [e])
  unfold Stat.evalFlt
  simp only [hn, Bool.false_eq_true, if_false]
  refine ⟨?_, ?_, fun s => ?_⟩
  · obtain ⟨h1, h2, h3⟩ := Flt.foldl_best (P := FltLe) (step := fun a b => if a.le b then b else a) (fun b => Flt.fltLe_refl) (fun b c d => Flt.fltLe_trans) (by
      intro a b ha hb
      by_cases hc : a.le b = true
      · simp only [hc, if_true]
        exact ⟨Or.inr trivial, (Flt.le_iff ha hb).1 hc, Flt.fltLe_refl hb⟩
      · have hba := (Flt.fltLe_total ha hb).resolve_left fun e => hc ((Flt.le_iff ha hb).2 e)
        simp only [hc]
        exact ⟨Or.inl rfl, Flt.fltLe_refl ha, hba⟩) (a :: l') a ha h
    refine ⟨?_, h3⟩
    rcases h1 with h1 | h1
    · rw [show (a :: l').headD 0 = a from rfl, h1]; simp
    · exact h1
  · obtain ⟨h1, h2, h3⟩ := Flt.foldl_best (P := fun b c => FltLe c b) (step := fun a b => if a.le b then a else b) (fun b => Flt.fltLe_refl) (fun b c d h h' => Flt.fltLe_trans h' h) (by
      intro a b ha hb
      by_cases hc : a.le b = true
      · simp only [hc, if_true]
        exact ⟨Or.inl trivial, Flt.fltLe_refl ha, (Flt.le_iff ha hb).1 hc⟩
      · have hba := (Flt.fltLe_total ha hb).resolve_left fun e => hc ((Flt.le_iff ha hb).2 e)
        simp only [hc]
        exact ⟨Or.inr rfl, hba, Flt.fltLe_refl hb⟩) (a :: l') a ha h
    refine ⟨?_, h3⟩
    rcases h1 with h1 | h1
    · rw [show (a :: l').headD 0 = a from rfl, h1]; simp
    · exact h1
  · rw [← Flt.mul_num_comm, Flt.num_mul_eq_inf]
    have hp : (0 : α) < 1 / (((a :: l').length : Nat) : α) := by
      rw [one_div, inv_pos, Nat.cast_pos]
      simp
    simp only [Pulls, hp, not_lt.2 hp.le, true_and, false_and, or_false, Flt.sum_eq_inf]
    exact ⟨fun ⟨h1, _, h3⟩ => ⟨h1, h3⟩, fun ⟨h1, h3⟩ => ⟨h1, h, h3⟩⟩

/-- **C138.** Without NaN the median is the lower one of the sorted entries. -/
theorem C138_stat_median {l : List (Flt α)} (hl : l ≠ []) (h : Flt.nan ∉ l) :
    ∃ L : List (Flt α), L.Perm l ∧ L.Pairwise FltLe ∧ L[(l.length - 1) / 2]? = some (Stat.median.evalFlt l) := by
  have hn := Flt.any_isNan_false h
  have hlen : (l.length - 1) / 2 < l.length := by
    have := List.length_pos_iff.2 hl
    omega
  refine ⟨l.mergeSort Flt.le, List.mergeSort_perm l _, ?_, ?_⟩
  · have hm : ∀ b ∈ l, b ≠ Flt.nan := fun b hb e => h (e ▸ hb)
    obtain ⟨l', rfl⟩ : ∃ l' : List {b : Flt α // b ≠ .nan}, l = l'.map Subtype.val := ⟨l.pmap Subtype.mk hm, by simp [List.map_pmap]⟩
    rw [← List.map_mergeSort (r := fun a b : {b : Flt α // b ≠ .nan} => a.val.le b.val) (s := Flt.le) (f := Subtype.val) (fun a _ b _ => rfl), List.pairwise_map]
    refine (List.pairwise_mergeSort ?_ ?_ l').imp fun {a b} hab => (Flt.le_iff a.2 b.2).1 hab
    · intro a b c h1 h2
      exact (Flt.le_iff a.2 c.2).2 (Flt.fltLe_trans ((Flt.le_iff a.2 b.2).1 h1) ((Flt.le_iff b.2 c.2).1 h2))
    · intro a b
      rw [Bool.or_eq_true]
      exact (Flt.fltLe_total a.2 b.2).imp (Flt.le_iff a.2 b.2).2 (Flt.le_iff b.2 a.2).2
  · unfold Stat.evalFlt
    simp only [hn, Bool.false_eq_true, if_false]
    rw [List.getD_eq_getElem?_getD]
    rw [List.getElem?_eq_getElem (by rw [List.length_mergeSort]; exact hlen)]
    rfl

end

namespace FltExample
open SsimExample AdjointExample EnergyExample IntPadExample

/-- `x = torch.tensor(l)` -/
def fimg (l : List (Flt ℚ)) : Tensor (Flt ℚ) := ⟨[l.length], l, by simp [numel]⟩

theorem plain {m : Mode ℚ} (h1 : callable m = false) (h2 : isStat m = false) (c : ℚ) : PlainModes (p m c) := by
  intro i m' hm
  have : m' = m := by
    have h : (p m c).modeAt i = .ok m := rfl
    rw [h] at hm
    cases hm
    rfl
  rw [this]
  exact ⟨h1, h2⟩

theorem fills : FillsIn (⟨[3], [1, 7, 3], rfl⟩ : Tensor ℚ) (fimg [.num 1, .nan, .num 3]) := by
  refine ⟨rfl, fun ix hix a ha => ?_⟩
  have : ix = [0] ∨ ix = [1] ∨ ix = [2] := by
    have := mem_indices.2 hix
    simpa [fimg, indices, List.range_succ] using this
  rcases this with rfl | rfl | rfl
  · exact Flt.num.inj ha
  · cases ha
  · exact Flt.num.inj ha

/-- whatever number is put in the place of a NaN, the finite entries of the padded image stay -/
example (junk : List Nat → ℚ) : AlikeOutcome ((p .oddReflect 0).forward junk ⟨[3], [1, 7, 3], rfl⟩ (.seq [-1])) ((p .oddReflect 0).forwardFlt (fun _ => .nan) (fimg [.num 1, .nan, .num 3]) (.seq [-1])) :=
  C138_pad (plain rfl rfl 0) fills (by intro ix a h; cases h) _

example (junk : List Nat → ℚ) : AlikeOutcome ((p (.stat .maximum) 0).forward junk ⟨[3], [1, 7, 3], rfl⟩ (.seq [-1]))
    ((p (.stat .maximum) 0).forwardFlt (fun _ => .nan) (fimg [.num 1, .nan, .num 3]) (.seq [-1])) :=
  (C138_pad_nan (by
    intro i m hm
    have h : (p (.stat .maximum) 0).modeAt i = .ok (.stat .maximum) := rfl
    rw [h] at hm
    cases hm
    rfl) fills (by
      intro ix s h
      have hd : (fimg [.num 1, .nan, .num 3]).get ix ∈ [Flt.num 1, .nan, .num 3, .num 0] := by
        unfold Tensor.get fimg
        rcases ravel [3] ix with _ | _ | _ | n <;> simp [Flt.zero_eq]
      simp only [h] at hd
      simp at hd) (by intro ix; exact Or.inr rfl) _).1

theorem call (w : List ℚ) : SameCall (PoolArgs.filter (.one w)) (args .circular) ((fimg [.num 1, .inf true, .num 3, .num 4, .num 5]).map spoiled) .none [0] where
  axes_eq := rfl
  ne := by simp
  nodup := by simp
  fits := fun _ => ⟨trivial, trivial⟩
  rest := ⟨trivial, trivial, trivial, trivial⟩
  stride := fun i hi => by simp [PoolArgs.op, PoolArgs.filter, Given.entry]
  pos := by simp [fimg, Tensor.map]
  valued := by
    intro o ho _
    obtain ⟨i, hi, rfl⟩ := sameOps_mem ho
    exact ⟨by simp [AxisPad.rule?, sameSetting, args, Given.entry], by simp [sameSetting, args, Given.entry]⟩

theorem copyModes : CopyModes ((args .circular : PadArgs ℚ).padder 1) := by
  intro i m hm
  have h : ((args .circular : PadArgs ℚ).padder 1).modeAt i = .ok .circular := rfl
  rw [h] at hm
  cases hm
  exact ⟨rfl, by simp⟩

/-- the three windows of a filter of three weights that touch the infinity; the weights do not matter -/
example (w : List ℚ) (hw : w.length = 3) (junk : List Nat → Flt ℚ) : ∃ (pool : SepPool ℚ) (q : Option (Padder ℚ)) (Z : Tensor (Flt ℚ)),
    SepPool.init (PoolArgs.pyKernel w) (PoolArgs.pyStride (some 1)) = .ok pool ∧
    SepPool.forwardFlt pool (some ((args .circular).padder 1)) junk (fimg [.num 1, .inf true, .num 3, .num 4, .num 5]) .none = (q, .ok Z) ∧
    ¬ IsFinite (Z.get [0]) ∧ ¬ IsFinite (Z.get [1]) ∧ ¬ IsFinite (Z.get [2]) ∧ IsFinite (Z.get [3]) ∧ IsFinite (Z.get [4]) := by
  obtain ⟨pool, e1, b1⟩ := one_built w
  obtain ⟨q, Z, h1, _, h2⟩ := C138_mask b1 (by intro h; cases h) (call w) (holds_padder _ 1) copyModes junk
  obtain ⟨a, b, c, rfl⟩ : ∃ a b c, w = [a, b, c] := by
    match w, hw with
    | [a, b, c], _ => exact ⟨a, b, c, rfl⟩
  refine ⟨pool, q, Z, e1, h1, ?_⟩
  have e2 : sameOps (PoolArgs.filter (.one [a, b, c])) (args .circular) [5] [0] = sameOps (PoolArgs.filter (.one [1, 1, 1])) (args .circular) [5] [0] := rfl
  have e3 : ((PoolArgs.filter (.one [a, b, c])).ops [0]).map counting = (PoolArgs.filter (.one [1, 1, 1])).ops [0] := rfl
  simp only [h2, show (fimg [.num 1, .inf true, .num 3, .num 4, .num 5]).shape = [5] from rfl, e2, e3]
  decide +kernel

/-- without padding; a negative weight turns the negative infinity around -/
example (junk : List Nat → Flt ℚ) : ∃ (pool : SepPool ℚ) (q : Option (Padder ℚ)) (Z : Tensor (Flt ℚ)),
    SepPool.init (PoolArgs.pyKernel [-1, 2, 1]) (PoolArgs.pyStride (some 1)) = .ok pool ∧
    SepPool.forwardFlt pool none junk (fimg [.num 1, .inf true, .num 3, .num 4, .num 5]) .none = (q, .ok Z) ∧ Z.shape = [3] ∧
    Z.get [0] = .inf true ∧ Z.get [1] = .inf false ∧ Z.get [2] = .num 10 := by
  obtain ⟨pool, e1, b1⟩ := one_built [-1, 2, 1]
  obtain ⟨Z, h1, h2, h3⟩ := C138_values b1 (by intro h; cases h) (X := fimg [.num 1, .inf true, .num 3, .num 4, .num 5]) (ax := .none) (axes := [0]) (padder := none) (junk' := junk) rfl rfl
    ⟨by decide, by decide, by decide, by decide⟩ (by decide)
  have hs : Z.shape = [3] := h2.trans (by decide +kernel)
  refine ⟨pool, _, Z, e1, h1, hs, ?_⟩
  rw [h3 [0] (by rw [hs]; decide), h3 [1] (by rw [hs]; decide), h3 [2] (by rw [hs]; decide)]
  decide +kernel

example : Stat.maximum.evalFlt [Flt.num (3 : ℚ), .inf true, .num 7] = .num 7 ∧ Stat.minimum.evalFlt [Flt.num (3 : ℚ), .inf false, .num 2] = .num 2 := by decide +kernel

example : ∀ s, Stat.mean.evalFlt [Flt.num (3 : ℚ), .inf true, .num 7] = .inf s ↔ s = true := by
  intro s
  rw [(C138_stat (by simp) (by simp)).2.2 s]
  cases s <;> simp

/-- the entries of the padded image -/
def runPad (m : Mode ℚ) (l : List (Flt ℚ)) : Option (List (Flt ℚ)) :=
  match (p m 0).forwardFlt (fun _ => .nan) (fimg l) (.seq [-1]) with
  | .ok z => some z.data
  | .error _ => none

/-- the entries of the padded image, for numbers -/
def runNum (m : Mode ℚ) (l : List ℚ) : Option (List ℚ) :=
  match (p m 0).forward (fun _ => 0) ⟨[l.length], l, by simp [numel]⟩ (.seq [-1]) with
  | .ok z => some z.data
  | .error _ => none

/-- the entries of the filtered image -/
def runPool (m : Mode ℚ) (w : List ℚ) (l : List (Flt ℚ)) : Option (List (Flt ℚ)) :=
  match SepPool.init (PoolArgs.pyKernel w) (PoolArgs.pyStride (some 1)) with
  | .ok pool => match (SepPool.forwardFlt pool (some ((args m).padder 1)) (fun _ => .nan) (fimg l) .none).2 with
    | .ok z => some z.data
    | .error _ => none
  | .error _ => none

end FltExample

open FltExample in
/-- **C138**: copies of a NaN; the outermost entry of a ramp from an infinity is NaN (zero times infinity); a maximum passes over a negative infinity, so that its finite
entries depend on what is filled in; a weight of zero turns an infinity into NaN; two infinities cancel to NaN. -/
theorem C138_differ :
    runPad .circular [.num 1, .nan, .num 3] = some [.nan, .num 3, .num 1, .nan, .num 3, .num 1] ∧
    runPad .linearRamp [.inf false, .num 3] = some [.nan, .inf false, .inf false, .num 3, .num 5] ∧
    runPad (.stat .maximum) [.num 1, .inf true, .num 3] = some [.num 3, .num 3, .num 1, .inf true, .num 3, .num 3] ∧
    runNum (.stat .maximum) [1, 9, 3] = some [9, 9, 1, 9, 3, 9] ∧
    runPool .circular [1, 0, 1] [.num 1, .inf true, .num 3, .num 4, .num 5] = some [.inf true, .nan, .inf true, .num 8, .num 5] ∧
    runPool .circular [1, 2, 1] [.inf true, .inf false, .num 3, .num 4, .num 5] = some [.nan, .nan, .inf false, .num 16, .inf true] ∧
    runPool .circular [-1, 2, 1] [.num 1, .inf true, .num 3, .num 4, .num 5] = some [.inf true, .inf true, .inf false, .num 10, .num 7] ∧
    runPad .oddReflect [.inf false, .num 3, .num 4] = some [.inf false, .inf false, .inf false, .num 3, .num 4, .num 5] ∧
    runPad (.stat .minimum) [.num 1, .inf false, .num 3] = some [.num 1, .num 1, .num 1, .inf false, .num 3, .num 1] := by
  decide +kernel

end TI
