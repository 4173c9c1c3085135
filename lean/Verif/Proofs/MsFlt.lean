import Verif.Model.MsFlt
import Verif.Props.FltSsim
import Verif.Props.EdgeLossFlt
import Verif.Props.MsSsim
import Verif.Proofs.MsOne

/-!
# MS-SSIM of images with entries that are not finite
-/

set_option linter.unusedSectionVars false

namespace TI
open Tensor Spec

section
variable {α : Type} [Field α] [LinearOrder α] [IsStrictOrderedRing α]
variable {pool : SepPool α} {a : PoolArgs α} {m : Nat} {axes : List Nat} {x y : Tensor α} {X Y : Tensor (Flt α)} {G : List Nat → Prop}

/-- the entries in certain planes are finite -/
def FiniteOn (axes : List Nat) (G : List Nat → Prop) (X : Tensor (Flt α)) : Prop := ∀ ix, InB X.shape ix → G (zeroed axes ix) → IsFinite (X.get ix)

/-- a window stays in its plane -/
theorem zeroed_corrSource {ops : List (PoolOp α)} {ix j : List Nat} (hnd : (ops.map (·.axis)).Nodup) (hlt : ∀ o ∈ ops, o.axis < ix.length)
    (hj : InB (ops.map fun o => o.kernel.length) j) : zeroed (ops.map (·.axis)) (corrSource ops ix j) = zeroed (ops.map (·.axis)) ix := by
  obtain ⟨h1, _, h3⟩ := (mem_corrSource hnd hlt _).1 ⟨j, hj, rfl⟩
  apply list_ext_getD
  · rw [zeroed_length, zeroed_length, h1]
  · intro k hk
    rw [zeroed_length] at hk
    rw [zeroed_getD hk, zeroed_getD (by rw [← h1]; exact hk)]
    split_ifs with hka
    · rfl
    · exact h3 k (by rw [← h1]; exact hk) hka

/-- pooling without a padder -/
theorem poolFlt (hb : Built pool a m) (hm : a.isMany = true → axes.length = m) (hx : x.Rel Flt.Agrees X) (hlt : ∀ k ∈ axes, k < X.ndim) (ho : PoolOps x (a.ops axes))
    (hne : ∀ o ∈ a.ops axes, o.kernel ≠ []) (junk' : List Nat → Flt α) :
    ∃ W, pool.forwardFlt none junk' X (.seq (castV axes)) = (none, .ok W) ∧ (poolSeq x (a.ops axes)).Rel Flt.Agrees W ∧
      (∀ ix, InB W.shape ix → (IsFinite (W.get ix) ↔ ∀ j, InB ((a.ops axes).map fun o => o.kernel.length) j → IsFinite (X.get (corrSource (a.ops axes) ix j)))) ∧
      (FiniteOn axes G X → FiniteOn axes G W) := by
  have hax : axesOf X.ndim (.seq (castV axes)) = some axes := normAxes_castV hlt
  have hsp : PoolOps (X.map (spoiled (α := α))) (a.ops axes) := by
    have hzx : (X.map (spoiled (α := α))).shape = x.shape := hx.shape.symm
    exact ⟨ho.nodup, fun o ho' hk => by rw [Tensor.ndim, hzx]; exact ho.axis o ho' hk, ho.stride, fun o ho' hk => by rw [hzx]; exact ho.fits o ho' hk⟩
  have hpad : pool.padFlt none junk' X (.seq (castV axes)) = (none, .ok X) := by
    rw [SepPool.padFlt, (checkAxes_spec hax).1]
  obtain ⟨W, e1, e2, e3⟩ := C138_windows hb hm hax hpad hsp hne
  set junk0 : List Nat → α := fun ix => match junk' ix with | .num a => a | _ => 0 with hj0
  have hj : ∀ ix a, junk' ix = .num a → junk0 ix = a := by
    intro ix a e
    simp only [hj0, e]
  have hr := (rel_poolForwardFlt (Flt.agrees_ringRel.dotRel Flt.agrees_num) pool none (by intro p e; cases e) hj hx (.seq (castV axes))).2
  have hax' : axesOf x.ndim (.seq (castV axes)) = some axes := by rw [hx.ndim]; exact hax
  rw [hb.poolIs.1.forward_none hax' hm ho.fitting junk0, e1] at hr
  have hrel : (poolSeq x (a.ops axes)).Rel Flt.Agrees W := by
    cases hr with
    | ok h => exact h
  refine ⟨W, e1, hrel, e3, fun hG ix hix hg => ?_⟩
  rw [e3 ix hix]
  intro j hj
  have hixs : InB (poolSeq x (a.ops axes)).shape ix := by rw [hrel.shape]; exact hix
  have hn : ix.length = x.ndim := by rw [hixs.length_eq]; exact poolSeq_ndim _ _
  have hlt' : ∀ o ∈ a.ops axes, o.axis < ix.length := fun o ho' => by rw [hn]; exact ho.axis o ho' (hne o ho')
  have hz := zeroed_corrSource (ops := a.ops axes) ho.nodup hlt' hj
  rw [ops_axis] at hz
  refine hG _ ?_ (by rw [hz]; exact hg)
  rw [← hx.shape]
  rw [poolSeq_eq_corrNd ho hne] at hixs
  exact corrSource_inB ho hne hixs hj

/-- halving -/
theorem downsampleFlt_eq (hnd : axes.Nodup) (hlt : ∀ k ∈ axes, k < x.ndim) (hsz : ∀ k ∈ axes, 2 ≤ x.shape.getD k 0) (hx : x.Rel Flt.Agrees X) (junk' : List Nat → Flt α) :
    ∃ W, SSIM.downsampleFlt junk' X (castV axes) = .ok W ∧ (halved axes x).Rel Flt.Agrees W ∧ (FiniteOn axes G X → FiniteOn axes G W) := by
  obtain ⟨pool, e, hb, _⟩ := C34_average_kernels (α := α) (size := .one 2) (st := .one (some 2)) (m := 1) Nat.one_pos trivial trivial (by
    intro s hs
    simp only [Given.values, List.mem_singleton] at hs
    rw [hs]; simp)
  have e' : SepPool.avgInit (α := α) (.leaf (some 2)) (.leaf (some 2)) = .ok pool := e
  have hg : (⟨Given.map avgKernel (.one 2), .one (some 2)⟩ : PoolArgs α) = halver := by
    simp [halver, Given.map, avgKernel, List.replicate]
  rw [hg] at hb
  obtain ⟨W, w1, w2, _, w4⟩ := poolFlt (G := G) hb (by intro hh; simp [halver, PoolArgs.isMany, Given.isMany] at hh) hx (by rw [← hx.ndim]; exact hlt) (halver_poolOps hnd hlt hsz) (by
    intro o ho
    obtain ⟨i, _, rfl⟩ := List.mem_map.1 ho
    simp [halver_op]) junk'
  refine ⟨W, ?_, w2, w4⟩
  rw [SSIM.downsampleFlt, e', ok_bind, w1]

variable {s : SSIM α} {g : Given (List α)} {k1 k2 : α} {sc cr : Bool} {r : Nat}

/-- what the blur of one level does -/
structure BlurFlt (s : SSIM α) (g : Given (List α)) (axes : List Nat) (junk' : List Nat → Flt α) (S : List Nat) (B : Tensor (Flt α) → Tensor (Flt α)) : Prop where
  steady : SteadyFlt s junk' (castV axes) (fun p => p = none) none S (valid g axes (ofFn S fun _ => (0 : α))).shape B
  agrees : ∀ (z : Tensor α) (Z : Tensor (Flt α)), z.shape = S → z.Rel Flt.Agrees Z → (valid g axes z).Rel Flt.Agrees (B Z)
  finite : ∀ (Z : Tensor (Flt α)), Z.shape = S → ∀ ix, InB (B Z).shape ix → (IsFinite ((B Z).get ix) ↔
    ∀ j, InB (((PoolArgs.filter g).ops axes).map fun o => o.kernel.length) j → IsFinite (Z.get (corrSource ((PoolArgs.filter g).ops axes) ix j)))
  planes : ∀ (G : List Nat → Prop) (Z : Tensor (Flt α)), Z.shape = S → FiniteOn axes G Z → FiniteOn axes G (B Z)

/-- numbers in the place of entries that are not finite -/
def filled (X : Tensor (Flt α)) : Tensor α := X.map fun v => match v with | .num a => a | _ => 0

theorem filled_agrees (X : Tensor (Flt α)) : (filled X).Rel Flt.Agrees X := by
  refine rel_of_get Flt.agrees_ringRel.zero rfl fun ix hix c hc => ?_
  rw [filled, get_map _ _ (show InB X.shape ix from hix), hc]

theorem blurFlt_level (hbf : Built s.pool (PoolArgs.filter g) m) (hm : g.isMany = true → axes.length = m) (hat : MsAt g none cr r x axes none) (junk' : List Nat → Flt α) :
    ∃ B, BlurFlt s g axes junk' x.shape B := by
  have hm' : (PoolArgs.filter g).isMany = true → axes.length = m := by rw [filter_isMany]; exact hm
  have hne : ∀ o ∈ (PoolArgs.filter g).ops axes, o.kernel ≠ [] := by
    intro o ho
    obtain ⟨i, hi, rfl⟩ := List.mem_map.1 ho
    exact hat.kernel i (List.mem_range.1 hi)
  have key : ∀ (G : List Nat → Prop) {z : Tensor α} {Z : Tensor (Flt α)}, z.shape = x.shape → z.Rel Flt.Agrees Z → ∃ W, s.blurFlt junk' Z (castV axes) none = (none, .ok W) ∧
      (valid g axes z).Rel Flt.Agrees W ∧ (∀ ix, InB W.shape ix → (IsFinite (W.get ix) ↔
        ∀ j, InB (((PoolArgs.filter g).ops axes).map fun o => o.kernel.length) j → IsFinite (Z.get (corrSource ((PoolArgs.filter g).ops axes) ix j)))) ∧
      (FiniteOn axes G Z → FiniteOn axes G W) := by
    intro G z Z hz hZ
    have hat' := hat.congr hz
    exact poolFlt hbf hm' hZ (by rw [← hZ.ndim]; exact hat'.lt) hat'.poolOps hne junk'
  have run : ∀ (G : List Nat → Prop) {z : Tensor α} {Z : Tensor (Flt α)}, z.shape = x.shape → z.Rel Flt.Agrees Z →
      s.blurFlt junk' Z (castV axes) none = (none, .ok (blurFltOf s junk' (castV axes) none Z)) ∧
      (valid g axes z).Rel Flt.Agrees (blurFltOf s junk' (castV axes) none Z) ∧ (∀ ix, InB (blurFltOf s junk' (castV axes) none Z).shape ix →
        (IsFinite ((blurFltOf s junk' (castV axes) none Z).get ix) ↔
        ∀ j, InB (((PoolArgs.filter g).ops axes).map fun o => o.kernel.length) j → IsFinite (Z.get (corrSource ((PoolArgs.filter g).ops axes) ix j)))) ∧
      (FiniteOn axes G Z → FiniteOn axes G (blurFltOf s junk' (castV axes) none Z)) := by
    intro G z Z hz hZ
    obtain ⟨W, w1, w2⟩ := key G hz hZ
    have e : blurFltOf s junk' (castV axes) none Z = W := by
      unfold blurFltOf
      rw [w1]
    rw [e]
    exact ⟨w1, w2⟩
  refine ⟨blurFltOf s junk' (castV axes) none, ⟨?_, rfl, ?_⟩, ?_, ?_, ?_⟩
  · rintro p rfl Z hZ
    exact (run (fun _ => False) (z := filled Z) hZ (filled_agrees Z)).1
  · intro Z hZ
    rw [← (run (fun _ => False) (z := filled Z) hZ (filled_agrees Z)).2.1.shape]
    exact poolSeq_shape_congr hZ
  · intro z Z hz hZ
    exact (run (fun _ => False) hz hZ).2.1
  · intro Z hZ
    exact (run (fun _ => False) (z := filled Z) hZ (filled_agrees Z)).2.2.1
  · intro G Z hZ
    exact (run G (z := filled Z) hZ (filled_agrees Z)).2.2.2

/-- every pixel is in a window of its plane -/
theorem window_of (hat : MsAt g none cr r x axes none) {px : List Nat} (hpx : InB x.shape px) :
    ∃ ix j, InB (valid g axes x).shape ix ∧ InB (((PoolArgs.filter g).ops axes).map fun o => o.kernel.length) j ∧ corrSource ((PoolArgs.filter g).ops axes) ix j = px ∧
      zeroed axes ix = zeroed axes px := by
  have hnd : (((PoolArgs.filter g).ops axes).map (·.axis)).Nodup := by rw [ops_axis]; exact hat.nodup
  have hn : px.length = x.ndim := hpx.length_eq
  have hT : ∀ i < axes.length, (valid g axes x).shape.getD (axes.getD i 0) 0 = x.shape.getD (axes.getD i 0) 0 - (g.entry [] i).length + 1 := by
    intro i hi
    rw [valid, poolSeq_shape hat.poolOps, find_ops hat.nodup hi (show ((PoolArgs.filter g).op axes i).kernel ≠ [] from hat.kernel i hi)]
    change windowCount _ (g.entry [] i).length 1 1 = _
    rw [windowCount_pos Nat.one_pos (List.length_pos_iff.2 (hat.kernel i hi)) (hat.size hi), Nat.div_one]
  have hT' : ∀ k, k ∉ axes → (valid g axes x).shape.getD k 0 = x.shape.getD k 0 := by
    intro k hk
    rw [valid, poolSeq_shape hat.poolOps, find_ops_none]
    intro i hi hik
    exact absurd (hik ▸ (by simp [hi])) hk
  set ix : List Nat := (List.range px.length).map fun k => if k ∈ axes then min (px.getD k 0) ((valid g axes x).shape.getD k 0 - 1) else px.getD k 0 with hix
  have hg : ∀ k < px.length, ix.getD k 0 = if k ∈ axes then min (px.getD k 0) ((valid g axes x).shape.getD k 0 - 1) else px.getD k 0 := by
    intro k hk
    rw [hix, getD_map_range hk]
  have hl : ix.length = px.length := by simp [hix]
  have hlt : ∀ o ∈ (PoolArgs.filter g).ops axes, o.axis < ix.length := by
    intro o ho
    rw [hl, hn]
    exact hat.lt _ (by rw [← ops_axis (PoolArgs.filter g) axes]; exact List.mem_map.2 ⟨o, ho, rfl⟩)
  have hin : InB (valid g axes x).shape ix := by
    rw [inB_iff]
    have hv : (valid g axes x).shape.length = x.shape.length := poolSeq_ndim _ _
    refine ⟨by rw [hl, hv]; exact hn, fun k hk => ?_⟩
    have hk' : k < px.length := by rw [hn]; rw [hv] at hk; exact hk
    rw [hg k hk']
    split_ifs with hka
    · obtain ⟨i, hi, rfl⟩ := List.mem_iff_getElem.1 hka
      have e : axes[i] = axes.getD i 0 := by simp [hi]
      rw [e, hT i hi]
      omega
    · rw [hT' k hka]
      exact hpx.lt (by rw [← hpx.length_eq]; exact hk')
  obtain ⟨j, hj, e⟩ := (mem_corrSource hnd hlt px).2 ⟨hl.symm, by
    intro o ho
    obtain ⟨i, hi, rfl⟩ := List.mem_map.1 ho
    have hi' := List.mem_range.1 hi
    have hmem : axes.getD i 0 ∈ axes := by simp [hi']
    have hk' : axes.getD i 0 < px.length := by rw [hn]; exact hat.lt _ hmem
    change ix.getD (axes.getD i 0) 0 * 1 ≤ px.getD (axes.getD i 0) 0 ∧ px.getD (axes.getD i 0) 0 < ix.getD (axes.getD i 0) 0 * 1 + (g.entry [] i).length
    rw [hg _ hk', if_pos hmem, hT i hi']
    have h1 := hpx.lt (k := axes.getD i 0) (by rw [← hpx.length_eq]; exact hk')
    have h2 := hat.size hi'
    have h3 := List.length_pos_iff.2 (hat.kernel i hi')
    omega, by
    intro k hk hka
    rw [ops_axis] at hka
    rw [hg k (by omega), if_neg hka]⟩
  refine ⟨ix, j, hin, hj, e, ?_⟩
  rw [← e]
  have := zeroed_corrSource hnd hlt hj
  rw [ops_axis] at this
  exact this.symm

theorem sum_nan {l : List (Flt α)} (h : .nan ∈ l) : l.sum = .nan := by
  induction l with
  | nil => cases h
  | cons b l ih =>
    rw [List.sum_cons]
    rcases List.mem_cons.1 h with h | h
    · rw [← h]
      generalize l.sum = v
      cases v <;> rfl
    · rw [ih h]
      cases b <;> rfl

theorem meanFlt_nan {l : List (Flt α)} (h : .nan ∈ l) : meanFlt l = .nan := by
  rw [meanFlt, if_neg (by rintro rfl; cases h), sum_nan h]
  rfl

theorem meanFlt_nums {l : List α} (hl : l ≠ []) : meanFlt (l.map Flt.num) = .num (Spec.mean l) := by
  have hs : ∀ l : List α, (l.map Flt.num).sum = .num l.sum := by
    intro l
    induction l with
    | nil => rfl
    | cons b l ih => rw [List.map_cons, List.sum_cons, ih, List.sum_cons, Flt.add_num]
  rw [meanFlt, if_neg (by simpa using hl), hs, List.length_map, Spec.mean, div_eq_mul_one_div l.sum]
  rfl

theorem meanDimsFlt_keep {S : List Nat} (u : List Nat → Flt α) (hne : axes ≠ []) (hlt : ∀ k ∈ axes, k < S.length) (hnd : axes.Nodup) :
    meanDimsFlt (ofFn S u) (castV axes) true = .ok (ofFn (onesAt axes S) fun jx => meanFlt ((collected S axes (onKept axes jx)).map u)) := by
  simp only [meanDimsFlt, Tensor.reduce, reduceDims_eq (n := (ofFn S u).ndim) hlt hnd, ok_bind, if_true, reducedAxes, if_neg hne]
  congr 1
  rw [collapse_some]
  apply ofFn_congr
  intro jx hjx
  have : (indices S).filter (fun ix => decide (collapse axes (some 0) ix = jx)) = collected S axes (onKept axes jx) := by
    rw [collected]
    apply List.filter_congr
    intro ix hix
    rw [decide_eq_decide]
    exact collapse_eq_iff (mem_indices.1 hix) hjx
  have e2 : (collected S axes (onKept axes jx)).map (ofFn S u).get = (collected S axes (onKept axes jx)).map u :=
    List.map_congr_left fun ix hix => get_ofFn (mem_collected.1 hix).1
  rw [← e2, meanFlt, ← this]
  rfl

theorem meanDimsFlt_drop {S : List Nat} (u : List Nat → Flt α) (hlt : ∀ k ∈ axes, k < S.length) (hnd : axes.Nodup) :
    meanDimsFlt (ofFn S u) (castV axes) false = .ok (ofFn (onKept (reducedAxes S.length axes) S) fun jx => meanFlt ((collected S (reducedAxes S.length axes) jx).map u)) :=
  reduce_dropFlt _ u hlt hnd

theorem zeroed_of_kept {S ix jx : List Nat} (hix : InB S ix) (hjx : InB (onesAt axes S) jx) (h : onKept axes ix = onKept axes jx) : zeroed axes ix = jx := by
  have hl : ix.length = jx.length := by rw [hix.length_eq, hjx.length_eq, onesAt_length]
  have h' := (onKept_eq_iff hl).1 h
  apply list_ext_getD
  · rw [zeroed_length, hl]
  · intro k hk
    rw [zeroed_length] at hk
    rw [zeroed_getD hk]
    split_ifs with hka
    · have hk' : k < S.length := by rw [← hix.length_eq]; exact hk
      have := hjx.lt (k := k) (by rw [onesAt_length]; exact hk')
      rw [onesAt_getD hk', if_pos hka] at this
      omega
    · exact h' k hk hka

/-- the score of a level -/
theorem scoreFlt {B : Tensor (Flt α) → Tensor (Flt α)} {junk' : List Nat → Flt α} (hB : BlurFlt s g axes junk' x.shape B) (hat : MsAt g none cr r x axes none)
    (hx : x.Rel Flt.Agrees X) (hy : y.Rel Flt.Agrees Y) (hxy : y.shape = x.shape) (hX : FiniteOn axes G X) (hY : FiniteOn axes G Y)
    (F : Flt α → Flt α → Flt α → Flt α → Flt α → Flt α) (f : α → α → α → α → α → α) (hnan : ∀ {m1 m2 e11 e22 e12}, ¬ (IsFinite m1 ∧ IsFinite m2) → F m1 m2 e11 e22 e12 = .nan)
    (hnum : ∀ ix, InB (valid g axes x).shape ix → G (zeroed axes ix) → F (.num ((valid g axes x).get ix)) (.num ((valid g axes y).get ix)) (.num ((valid g axes (times x x)).get ix))
      (.num ((valid g axes (times y y)).get ix)) (.num ((valid g axes (times x y)).get ix)) = .num (f ((valid g axes x).get ix) ((valid g axes y).get ix)
        ((valid g axes (times x x)).get ix) ((valid g axes (times y y)).get ix) ((valid g axes (times x y)).get ix))) :
    ∃ V, meanDimsFlt (ofFn (valid g axes (ofFn x.shape fun _ => (0 : α))).shape fun ix => F ((B X).get ix) ((B Y).get ix) ((B (timesFlt X X)).get ix) ((B (timesFlt Y Y)).get ix)
        ((B (timesFlt X Y)).get ix)) (castV axes) true = .ok V ∧ V.shape = onesAt axes x.shape ∧ ∀ jx, InB (onesAt axes x.shape) jx →
      (G jx → V.get jx = .num ((meanKept (pointMap f (valid g axes) x y) axes).get jx)) ∧
      ((∃ px, InB x.shape px ∧ zeroed axes px = jx ∧ ¬ (IsFinite (X.get px) ∧ IsFinite (Y.get px))) → V.get jx = .nan) := by
  set T := (valid g axes (ofFn x.shape fun _ => (0 : α))).shape with hT
  have hTx : (valid g axes x).shape = T := poolSeq_shape_congr rfl
  have hmap := hat.map_shape (y2 := y) f
  have hvb : scoreBlur g none cr axes = valid g axes := by
    cases cr <;> rfl
  rw [hvb] at hmap
  have hones : onesAt axes T = onesAt axes x.shape := by rw [← hTx]; exact hmap.2
  have hTl : ∀ k ∈ axes, k < T.length := by
    intro k hk
    rw [← hTx]
    have := hat.lt k hk
    rw [← hmap.1] at this
    exact this
  have hXs : X.shape = x.shape := hx.shape.symm
  have hYs : Y.shape = x.shape := hy.shape.symm.trans hxy
  refine ⟨_, meanDimsFlt_keep _ hat.ne hTl hat.nodup, hones, fun jx hjx => ⟨fun hg => ?_, ?_⟩⟩
  · rw [get_ofFn (by rw [hones]; exact hjx), meanKept, get_ofFn (show InB (onesAt axes (pointMap f (valid g axes) x y).shape) jx by rw [show (pointMap f (valid g axes) x y).shape = T from hTx, hones]; exact hjx)]
    have hne : (collected T axes (onKept axes jx)) ≠ [] := by
      have hin : InB T jx := inB_of_onesAt (axes := axes) (by rw [hones]; exact hjx) (by
        intro k hk
        rw [← hTx]
        exact blurred_pos (gp := none) hat.blurCall (hat.pos hk))
      intro e
      have : jx ∈ collected T axes (onKept axes jx) := mem_collected.2 ⟨hin, rfl⟩
      rw [e] at this
      cases this
    rw [show (pointMap f (valid g axes) x y).shape = T from hTx, ← meanFlt_nums (by simpa using hne), List.map_map]
    congr 1
    apply List.map_congr_left
    intro ix hix
    obtain ⟨h1, h2⟩ := mem_collected.1 hix
    have hz : zeroed axes ix = jx := zeroed_of_kept h1 (by rw [hones]; exact hjx) h2
    have hgz : G (zeroed axes ix) := by rw [hz]; exact hg
    have val : ∀ {u : Tensor α} {U : Tensor (Flt α)}, u.shape = x.shape → u.Rel Flt.Agrees U → FiniteOn axes G U → (B U).get ix = .num ((valid g axes u).get ix) := by
      intro u U hu hU hf
      have hUs : U.shape = x.shape := hU.shape.symm.trans hu
      obtain ⟨c, hc⟩ := hB.planes G U hUs hf ix (by rw [hB.steady.shape U hUs]; exact h1) hgz
      rw [hc, (hB.agrees u U hu hU).get ix c hc]
    have prod : ∀ {U U' : Tensor (Flt α)}, U.shape = x.shape → U'.shape = x.shape → FiniteOn axes G U → FiniteOn axes G U' → FiniteOn axes G (timesFlt U U') := by
      intro U U' hU hU' h h' kx hkx hgk
      have hk : InB U.shape kx := hkx
      rw [timesFlt, get_ofFn hk, Flt.finite_mul]
      exact ⟨h kx hk hgk, h' kx (by rw [hU', ← hU]; exact hk) hgk⟩
    have hix' : InB (valid g axes x).shape ix := by rw [hTx]; exact h1
    simp only [Function.comp, pointMap]
    rw [get_ofFn hix', val rfl hx hX, val hxy hy hY, val (u := times x x) rfl (times_agrees hx hx) (prod hXs hXs hX hX),
      val (u := times y y) hxy (times_agrees hy hy) (prod hYs hYs hY hY), val (u := times x y) rfl (times_agrees hx hy) (prod hXs hYs hX hY)]
    exact hnum ix hix' hgz
  · rintro ⟨px, hpx, hz, hf⟩
    rw [get_ofFn (by rw [hones]; exact hjx)]
    apply meanFlt_nan
    obtain ⟨ix, j, hix, hj, e, hzz⟩ := window_of hat hpx
    have hix' : InB T ix := by rw [← hTx]; exact hix
    refine List.mem_map.2 ⟨ix, mem_collected.2 ⟨hix', ?_⟩, ?_⟩
    · rw [← hz, ← hzz, onKept_eq_iff (zeroed_length _ _).symm]
      intro k hk hka
      rw [zeroed_getD hk, if_neg hka]
    · apply hnan
      rintro ⟨f1, f2⟩
      apply hf
      have h1 := (hB.finite X hXs ix (by rw [hB.steady.shape X hXs]; exact hix')).1 f1 j hj
      have h2 := (hB.finite Y hYs ix (by rw [hB.steady.shape Y hYs]; exact hix')).1 f2 j hj
      rw [e] at h1 h2
      exact ⟨h1, h2⟩

namespace SSIM

/-- the index without the comparison of the means, in floating-point numbers -/
def csIndexFlt (c2 : α) (f m1 m2 e11 e22 e12 : Flt α) : Flt α :=
  (2 * scaledFlt f (e12 - m1 * m2) + .num c2) / (scaledFlt f (e11 - m1 * m1) + scaledFlt f (e22 - m2 * m2) + .num c2)

theorem csFullFlt_eq {vaxes : List Int} {P : Option (Padder α) → Prop} {p q : Option (Padder α)} {S T : List Nat} {B : Tensor (Flt α) → Tensor (Flt α)} {junk' : List Nat → Flt α}
    {c : Flt α} (h : SteadyFlt s junk' vaxes P q S T B) (hp : P p) (h1 : X.shape = S) (h2 : Y.shape = S) (hc : s.scaleFactorFlt vaxes = .ok c) :
    s.csFullFlt junk' X Y vaxes p = (q, .ok (ofFn T fun ix => csIndexFlt (s.k2 ^ 2) c ((B X).get ix) ((B Y).get ix)
      ((B (timesFlt X X)).get ix) ((B (timesFlt Y Y)).get ix) ((B (timesFlt X Y)).get ix))) := by
  simp only [csFullFlt]
  rw [Run.bind_ok (muSigmaFlt_eq h hp h1 h2 hc)]
  simp only [twicePlusFlt, addPlusFlt, map_ofFn, bop_ofFn, ok_bind, Run.lift_bind]
  rfl

theorem csIndexFlt_num (c2 f m1 m2 e11 e22 e12 : α) (h : f * (e11 - m1 ^ 2) + f * (e22 - m2 ^ 2) + c2 ≠ 0) :
    csIndexFlt c2 (.num f) (.num m1) (.num m2) (.num e11) (.num e22) (.num e12) = .num (csIndex c2 f m1 m2 e11 e22 e12) := by
  have hs : ∀ v : α, scaledFlt (.num f) (.num v) = .num (f * v) := by
    intro v
    unfold scaledFlt
    split_ifs with h
    · rw [Flt.mul_num, mul_comm]
    · rw [Flt.num.inj (not_not.1 h), one_mul]
  have h2 : (2 : Flt α) = .num 2 := rfl
  rw [csIndex, ← Flt.div_num h]
  simp only [csIndexFlt, h2, hs, Flt.mul_num, Flt.sub_num, Flt.add_num, pow_two]

theorem csIndexFlt_nan (c2 f : α) {m1 m2 e11 e22 e12 : Flt α} (h : ¬ (IsFinite m1 ∧ IsFinite m2)) : csIndexFlt c2 (.num f) m1 m2 e11 e22 e12 = .nan := by
  apply Flt.div_nan
  · intro hf
    rw [Flt.finite_add, Flt.finite_mul, finite_scaled, Flt.finite_sub, Flt.finite_mul] at hf
    exact h hf.1.2.2
  · intro hf
    rw [Flt.finite_add, Flt.finite_add, finite_scaled, finite_scaled, Flt.finite_sub, Flt.finite_sub, Flt.finite_mul, Flt.finite_mul] at hf
    exact h ⟨hf.1.1.2.1, hf.1.2.2.1⟩

end SSIM

/-- the two denominators -/
theorem denominators (hat : MsAt g none cr r x axes none) (hav : Averages g axes) (hxy : y.shape = x.shape) (n : Nat) (h1 : k1 ≠ 0) (h2 : k2 ≠ 0) (ix : List Nat)
    (hix : InB (valid g axes x).shape ix) :
    0 < (valid g axes x).get ix ^ 2 + (valid g axes y).get ix ^ 2 + k1 ^ 2 ∧
    0 < covFactor sc n * ((valid g axes (times x x)).get ix - (valid g axes x).get ix ^ 2) + covFactor sc n * ((valid g axes (times y y)).get ix - (valid g axes y).get ix ^ 2) + k2 ^ 2 := by
  have hp := (blurred_possible (gp := none) hat.blurCall hav (by intro g hg; cases hg) hxy).possible ix hix
  have v1 := hp.var1
  have v2 := hp.var2
  have hc := covFactor_nonneg (α := α) sc n
  exact ⟨by positivity, add_pos_of_nonneg_of_pos (add_nonneg (mul_nonneg hc v1) (mul_nonneg hc v2)) (by positivity)⟩

end

section
variable {ms : MsSsim} {g : Given (List ℝ)} {cr sc up : Bool} {m r : Nat} {axes : List Nat} {k1 k2 eps : ℝ} {x y : Tensor ℝ} {X Y : Tensor (Flt ℝ)} {G : List Nat → Prop}
  {junk' : List Nat → Flt ℝ}

theorem iopFlt (f : Flt ℝ → Flt ℝ → Flt ℝ) {u v : Tensor (Flt ℝ)} (h : v.shape = u.shape) : iop f u v = .ok (ofFn u.shape fun jx => f (u.get jx) (v.get jx)) := by
  simp only [iop]
  rw [if_pos (by rw [h]; exact bcastable_self _)]
  congr 1
  apply ofFn_congr
  intro ix hix
  rw [h, bidx_self hix]

theorem scoreBlur_none (g : Given (List ℝ)) (cr : Bool) (axes : List Nat) : scoreBlur g none cr axes = valid g axes := by cases cr <;> rfl

/-- the term of a score -/
theorem termFlt_get (h : MsOf ms g m k1 k2 sc cr up eps) (w : ℝ) {V : Tensor (Flt ℝ)} {jx : List Nat} (hjx : InB V.shape jx) :
    (∀ v, V.get jx = .num v → (ms.termFlt w V).get jx = .num (msTerm up eps w v)) ∧ (V.get jx = .nan → (up = true → w ≠ 0) → (ms.termFlt w V).get jx = .nan) := by
  simp only [MsSsim.termFlt, h.prod, h.eps_eq, msTerm]
  cases up with
  | true =>
    simp only [if_true]
    rw [get_map _ _ hjx]
    refine ⟨fun v hv => by rw [hv]; rfl, fun hv hw => ?_⟩
    rw [hv]
    simp [Flt.clamp, Flt.power, hw]
  | false =>
    simp only [Bool.false_eq_true, if_false]
    rw [get_map _ _ hjx]
    refine ⟨fun v hv => by rw [hv]; rfl, fun hv _ => ?_⟩
    rw [hv]
    rfl

theorem termFlt_shape (w : ℝ) (V : Tensor (Flt ℝ)) : (ms.termFlt w V).shape = V.shape := by
  unfold MsSsim.termFlt
  split_ifs <;> rfl

/-- the score of a level before the last -/
theorem csStep (h : MsOf ms g m k1 k2 sc cr up eps) (hbf : Built ms.base.pool (PoolArgs.filter g) m) (hm : g.isMany = true → axes.length = m) (hN : sc = true → windowSize g axes.length ≠ 1)
    (hat : MsAt g none cr r x axes none) (hx : x.Rel Flt.Agrees X) (hy : y.Rel Flt.Agrees Y) (hxy : y.shape = x.shape) (hX : FiniteOn axes G X) (hY : FiniteOn axes G Y)
    (hG : ∀ jx, G jx → Averages g axes ∧ k1 ≠ 0 ∧ k2 ≠ 0) (junk' : List Nat → Flt ℝ) :
    ∃ Z V, ms.base.csFullFlt junk' X Y (castV axes) none = (none, .ok Z) ∧ meanDimsFlt Z (castV axes) true = .ok V ∧ V.shape = onesAt axes x.shape ∧ ∀ jx, InB (onesAt axes x.shape) jx →
      (G jx → V.get jx = .num ((meanKept (csMap k2 (covFactor sc (windowSize g axes.length)) (valid g axes) x y) axes).get jx)) ∧
      ((∃ px, InB x.shape px ∧ zeroed axes px = jx ∧ ¬ (IsFinite (X.get px) ∧ IsFinite (Y.get px))) → V.get jx = .nan) := by
  obtain ⟨B, hB⟩ := blurFlt_level (s := ms.base) hbf hm hat junk'
  have hc := scaleFactorFlt_of (scaleFactor_eq h.base hm hN)
  obtain ⟨V, v1, v2, v3⟩ := scoreFlt hB hat hx hy hxy hX hY (SSIM.csIndexFlt (k2 ^ 2) (.num (covFactor sc (windowSize g axes.length))))
    (csIndex (k2 ^ 2) (covFactor sc (windowSize g axes.length))) (SSIM.csIndexFlt_nan _ _) (by
      intro ix hix hg
      obtain ⟨hav, e1, e2⟩ := hG _ hg
      exact SSIM.csIndexFlt_num _ _ _ _ _ _ _ (denominators hat hav hxy _ e1 e2 ix hix).2.ne')
  refine ⟨_, V, ?_, v1, v2, v3⟩
  rw [SSIM.csFullFlt_eq hB.steady rfl hx.shape.symm (hy.shape.symm.trans hxy) hc, h.base.k2_eq]

/-- the score of the last level -/
theorem ssimStep (h : MsOf ms g m k1 k2 sc cr up eps) (hbf : Built ms.base.pool (PoolArgs.filter g) m) (hm : g.isMany = true → axes.length = m) (hN : sc = true → windowSize g axes.length ≠ 1)
    (hat : MsAt g none cr r x axes none) (hx : x.Rel Flt.Agrees X) (hy : y.Rel Flt.Agrees Y) (hxy : y.shape = x.shape) (hX : FiniteOn axes G X) (hY : FiniteOn axes G Y)
    (hG : ∀ jx, G jx → Averages g axes ∧ k1 ≠ 0 ∧ k2 ≠ 0) (junk' : List Nat → Flt ℝ) :
    ∃ Z V, ms.base.ssimFullFlt junk' X Y (castV axes) none = (none, .ok Z) ∧ meanDimsFlt Z (castV axes) true = .ok V ∧ V.shape = onesAt axes x.shape ∧ ∀ jx, InB (onesAt axes x.shape) jx →
      (G jx → V.get jx = .num ((meanKept (ssimMap k1 k2 (covFactor sc (windowSize g axes.length)) (valid g axes) x y) axes).get jx)) ∧
      ((∃ px, InB x.shape px ∧ zeroed axes px = jx ∧ ¬ (IsFinite (X.get px) ∧ IsFinite (Y.get px))) → V.get jx = .nan) := by
  obtain ⟨B, hB⟩ := blurFlt_level (s := ms.base) hbf hm hat junk'
  have hc := scaleFactorFlt_of (scaleFactor_eq h.base hm hN)
  obtain ⟨V, v1, v2, v3⟩ := scoreFlt hB hat hx hy hxy hX hY (SSIM.indexFlt (k1 ^ 2) (k2 ^ 2) (.num (covFactor sc (windowSize g axes.length))))
    (ssimIndex (k1 ^ 2) (k2 ^ 2) (covFactor sc (windowSize g axes.length))) (SSIM.indexFlt_nan _ _ _) (by
      intro ix hix hg
      obtain ⟨hav, e1, e2⟩ := hG _ hg
      have hd := denominators hat hav hxy (windowSize g axes.length) (sc := sc) e1 e2 ix hix
      rw [SSIM.indexFlt_num, Flt.div_num (mul_pos hd.1 hd.2).ne', ssimIndex])
  refine ⟨_, V, ?_, v1, v2, v3⟩
  rw [SSIM.ssimFullFlt_eq hB.steady rfl hx.shape.symm (hy.shape.symm.trans hxy) hc, h.base.k1_eq, h.base.k2_eq]

/-- what is known of the scores so far -/
structure AccFlt (S : List Nat) (G N : List Nat → Prop) (A : List Nat → ℝ) (a : Tensor (Flt ℝ)) : Prop where
  shape : a.shape = S
  good : ∀ jx, InB S jx → G jx → a.get jx = .num (A jx)
  bad : ∀ jx, InB S jx → N jx → a.get jx = .nan

theorem AccFlt.step {S : List Nat} {N N' : List Nat → Prop} {A A' : List Nat → ℝ} {a t : Tensor (Flt ℝ)} (h : MsOf ms g m k1 k2 sc cr up eps) (ha : AccFlt S G N A a) (ht : AccFlt S G N' A' t) :
    ∃ b, ms.accumulateFlt (some a) t = .ok b ∧ AccFlt S G N (fun jx => msOp up (A jx) (A' jx)) b := by
  have nl : ∀ v : Flt ℝ, (.nan : Flt ℝ) * v = .nan := fun v => by cases v <;> rfl
  have na : ∀ v : Flt ℝ, (.nan : Flt ℝ) + v = .nan := fun v => by cases v <;> rfl
  refine ⟨_, iopFlt _ (ht.shape.trans ha.shape.symm), ha.shape, fun jx hjx hg => ?_, fun jx hjx hn => ?_⟩
  · rw [get_ofFn (by rw [ha.shape]; exact hjx), ha.good jx hjx hg, ht.good jx hjx hg, h.prod]
    cases up <;> simp [msOp, Flt.mul_num, Flt.add_num]
  · rw [get_ofFn (by rw [ha.shape]; exact hjx), ha.bad jx hjx hn, h.prod]
    cases up <;> simp [nl, na]

theorem levelsFlt_eq (h : MsOf ms g m k1 k2 sc cr up eps) (hbf : Built ms.base.pool (PoolArgs.filter g) m) (hm : g.isMany = true → axes.length = m) (hN : sc = true → windowSize g axes.length ≠ 1)
    (hG : ∀ jx, G jx → Averages g axes ∧ k1 ≠ 0 ∧ k2 ≠ 0) (junk' : List Nat → Flt ℝ) {S : List Nat} {N : List Nat → Prop} : ∀ (ws : List ℝ) {x y : Tensor ℝ} {X Y : Tensor (Flt ℝ)}
    {acc : Option (Tensor (Flt ℝ))} {A : List Nat → ℝ}, MsAt g none cr (r + ws.length) x axes none → x.Rel Flt.Agrees X → y.Rel Flt.Agrees Y → y.shape = x.shape →
    FiniteOn axes G X → FiniteOn axes G Y → onesAt axes x.shape = S →
    ((acc = none ∧ (A = fun _ => msUnit up) ∧ (∀ jx, N jx → (∃ px, InB x.shape px ∧ zeroed axes px = jx ∧ ¬ (IsFinite (X.get px) ∧ IsFinite (Y.get px))) ∧ (up = true → ws.getD 0 0 ≠ 0)) ∧ ws ≠ []) ∨
      ∃ a, acc = some a ∧ AccFlt S G N A a) →
    ∃ a X' Y', ms.levelsFlt junk' (castV axes) ws acc X Y none = (none, .ok (some a, X', Y')) ∧
      MsAt g none cr r (atLevel axes ws.length x) axes none ∧ onesAt axes (atLevel axes ws.length x).shape = S ∧
      (atLevel axes ws.length x).Rel Flt.Agrees X' ∧ (atLevel axes ws.length y).Rel Flt.Agrees Y' ∧ FiniteOn axes G X' ∧ FiniteOn axes G Y' ∧
      AccFlt S G N (fun jx => msOp up (A jx) (msTotal up ((List.range ws.length).map
        (csTerm up eps k2 (covFactor sc (windowSize g axes.length)) (scoreBlur g none cr axes) axes ws x y jx)))) a
  | [], x, y, X, Y, acc, A, hat, hx, hy, hxy, hX, hY, hS, hA => by
    rcases hA with ⟨_, _, _, hne⟩ | ⟨a, rfl, ha⟩
    · exact absurd rfl hne
    · refine ⟨a, X, Y, rfl, hat, hS, hx, hy, hX, hY, ?_⟩
      have : (fun jx => msOp up (A jx) (msTotal up ((List.range ([] : List ℝ).length).map
          (csTerm up eps k2 (covFactor sc (windowSize g axes.length)) (scoreBlur g none cr axes) axes [] x y jx)))) = A := by
        funext jx
        simp [msTotal_nil, msOp_right]
      rw [this]
      exact ha
  | w :: ws, x, y, X, Y, acc, A, hat, hx, hy, hxy, hX, hY, hS, hA => by
    have hat1 : MsAt g none cr (r + ws.length + 1) x axes none := hat
    obtain ⟨Z, V, z1, z2, z3, z4⟩ := csStep h hbf hm hN hat1 hx hy hxy hX hY hG junk'
    rw [hS] at z3 z4
    set v := meanKept (csMap k2 (covFactor sc (windowSize g axes.length)) (valid g axes) x y) axes with hv
    have hacc : ∃ b, (match acc with
        | none => (.ok (ms.termFlt w V) : Except Err (Tensor (Flt ℝ)))
        | some a => ms.accumulateFlt (some a) (ms.termFlt w V)) = .ok b ∧ AccFlt S G N (fun jx => msOp up (A jx) (msTerm up eps w (v.get jx))) b := by
      have hgood : ∀ jx, InB S jx → G jx → (ms.termFlt w V).get jx = .num (msTerm up eps w (v.get jx)) := fun jx hjx hg =>
        (termFlt_get h w (by rw [z3]; exact hjx)).1 _ ((z4 jx hjx).1 hg)
      rcases hA with ⟨rfl, rfl, hbad, _⟩ | ⟨a, rfl, ha⟩
      · refine ⟨_, rfl, (termFlt_shape w V).trans z3, fun jx hjx hg => ?_, fun jx hjx hn => ?_⟩
        · rw [msOp_unit]
          exact hgood jx hjx hg
        · exact (termFlt_get h w (by rw [z3]; exact hjx)).2 ((z4 jx hjx).2 (hbad jx hn).1) (hbad jx hn).2
      · exact ha.step (N' := fun _ => False) h ⟨(termFlt_shape w V).trans z3, hgood, fun _ _ hf => hf.elim⟩
    obtain ⟨b, b1, b2⟩ := hacc
    have hat2 := hat1.congr hxy
    obtain ⟨X1, x1, x2, x3⟩ := downsampleFlt_eq (G := G) hat1.nodup hat1.lt hat1.two_le hx junk'
    obtain ⟨Y1, y1, y2, y3⟩ := downsampleFlt_eq (G := G) hat2.nodup hat2.lt hat2.two_le hy junk'
    have hS' : onesAt axes (halved axes x).shape = S := by
      rw [← hS]
      apply onesAt_congr (halved_ndim axes x)
      intro k _ hk
      rw [halved_size hat1.nodup hat1.lt hat1.two_le, if_neg hk]
    obtain ⟨a, X', Y', e, i1, i2, i3, i4, i5, i6, i7⟩ := levelsFlt_eq h hbf hm hN hG junk' ws hat1.next x2 y2 (halved_shape_congr hxy) (x3 hX) (y3 hY) hS' (Or.inr ⟨b, rfl, b2⟩)
    refine ⟨a, X', Y', ?_, i1, i2, i3, i4, i5, i6, ?_⟩
    · simp only [MsSsim.levelsFlt]
      have hcrop : ms.base.cropBorderFlt Z (castV axes) none = (none, .ok Z) := rfl
      rw [Run.bind_ok z1, Run.bind_ok hcrop, z2, Run.lift_bind]
      refine (Run.bind_ok (m := Run.lift _) (congrArg (Prod.mk _) b1)).trans ?_
      rw [x1, Run.lift_bind, y1, Run.lift_bind]
      exact e
    · have : (fun jx => msOp up (A jx) (msTotal up ((List.range (w :: ws).length).map (csTerm up eps k2 (covFactor sc (windowSize g axes.length)) (scoreBlur g none cr axes) axes (w :: ws) x y jx)))) =
          fun jx => msOp up (msOp up (A jx) (msTerm up eps w (v.get jx))) (msTotal up ((List.range ws.length).map
            (csTerm up eps k2 (covFactor sc (windowSize g axes.length)) (scoreBlur g none cr axes) axes ws (halved axes x) (halved axes y) jx))) := by
        funext jx
        rw [List.length_cons, List.range_succ_eq_map, List.map_cons, List.map_map, msTotal_cons, msOp_assoc, hv, ← scoreBlur_none g cr axes]
        rfl
      rw [this]
      exact i7

/-- anything to the power of zero -/
theorem termFlt_zero (h : MsOf ms g m k1 k2 sc cr true eps) {V : Tensor (Flt ℝ)} {jx : List Nat} (hjx : InB V.shape jx) : (ms.termFlt 0 V).get jx = .num 1 := by
  simp only [MsSsim.termFlt, h.prod, if_true]
  rw [get_map _ _ hjx]
  have hp : ∀ v : Flt ℝ, Flt.power 0 v = .num 1 := by
    intro v
    cases v <;> simp [Flt.power]
  exact hp _

theorem levelsFlt_zero (h : MsOf ms g m k1 k2 sc cr true eps) (hbf : Built ms.base.pool (PoolArgs.filter g) m) (hm : g.isMany = true → axes.length = m) (hN : sc = true → windowSize g axes.length ≠ 1)
    (junk' : List Nat → Flt ℝ) {S : List Nat} : ∀ (ws : List ℝ) {x y : Tensor ℝ} {X Y : Tensor (Flt ℝ)} {acc : Option (Tensor (Flt ℝ))}, (∀ w ∈ ws, w = 0) →
    MsAt g none cr (r + ws.length) x axes none → x.Rel Flt.Agrees X → y.Rel Flt.Agrees Y → y.shape = x.shape → onesAt axes x.shape = S →
    ((acc = none ∧ ws ≠ []) ∨ ∃ a, acc = some a ∧ AccFlt S (fun _ => True) (fun _ => False) (fun _ => 1) a) →
    ∃ a X' Y', ms.levelsFlt junk' (castV axes) ws acc X Y none = (none, .ok (some a, X', Y')) ∧
      MsAt g none cr r (atLevel axes ws.length x) axes none ∧ onesAt axes (atLevel axes ws.length x).shape = S ∧
      (atLevel axes ws.length x).Rel Flt.Agrees X' ∧ (atLevel axes ws.length y).Rel Flt.Agrees Y' ∧ AccFlt S (fun _ => True) (fun _ => False) (fun _ => 1) a
  | [], x, y, X, Y, acc, _, hat, hx, hy, hxy, hS, hA => by
    rcases hA with ⟨_, hne⟩ | ⟨a, rfl, ha⟩
    · exact absurd rfl hne
    · exact ⟨a, X, Y, rfl, hat, hS, hx, hy, ha⟩
  | w :: ws, x, y, X, Y, acc, hw, hat, hx, hy, hxy, hS, hA => by
    obtain rfl : w = 0 := hw w (by simp)
    have hat1 : MsAt g none cr (r + ws.length + 1) x axes none := hat
    obtain ⟨Z, V, z1, z2, z3, -⟩ := csStep (G := fun _ => False) h hbf hm hN hat1 hx hy hxy (fun _ _ hf => hf.elim) (fun _ _ hf => hf.elim) (fun _ hf => hf.elim) junk'
    rw [hS] at z3
    have ht : AccFlt S (fun _ => True) (fun _ => False) (fun _ => 1) (ms.termFlt 0 V) :=
      ⟨(termFlt_shape 0 V).trans z3, fun jx hjx _ => termFlt_zero h (by rw [z3]; exact hjx), fun _ _ hf => hf.elim⟩
    have hacc : ∃ b, (match acc with
        | none => (.ok (ms.termFlt 0 V) : Except Err (Tensor (Flt ℝ)))
        | some a => ms.accumulateFlt (some a) (ms.termFlt 0 V)) = .ok b ∧ AccFlt S (fun _ => True) (fun _ => False) (fun _ => 1) b := by
      rcases hA with ⟨rfl, _⟩ | ⟨a, rfl, ha⟩
      · exact ⟨_, rfl, ht⟩
      · obtain ⟨b, b1, b2⟩ := ha.step h ht
        exact ⟨b, b1, by simpa [msOp] using b2⟩
    obtain ⟨b, b1, b2⟩ := hacc
    have hat2 := hat1.congr hxy
    obtain ⟨X1, x1, x2, -⟩ := downsampleFlt_eq (G := fun _ => False) hat1.nodup hat1.lt hat1.two_le hx junk'
    obtain ⟨Y1, y1, y2, -⟩ := downsampleFlt_eq (G := fun _ => False) hat2.nodup hat2.lt hat2.two_le hy junk'
    have hS' : onesAt axes (halved axes x).shape = S := by
      rw [← hS]
      apply onesAt_congr (halved_ndim axes x)
      intro k _ hk
      rw [halved_size hat1.nodup hat1.lt hat1.two_le, if_neg hk]
    obtain ⟨a, X', Y', e, i⟩ := levelsFlt_zero h hbf hm hN junk' ws (fun v hv => hw v (by simp [hv])) hat1.next x2 y2 (halved_shape_congr hxy) hS' (Or.inr ⟨b, rfl, b2⟩)
    refine ⟨a, X', Y', ?_, i⟩
    simp only [MsSsim.levelsFlt]
    have hcrop : ms.base.cropBorderFlt Z (castV axes) none = (none, .ok Z) := rfl
    rw [Run.bind_ok z1, Run.bind_ok hcrop, z2, Run.lift_bind]
    refine (Run.bind_ok (m := Run.lift _) (congrArg (Prod.mk _) b1)).trans ?_
    rw [x1, Run.lift_bind, y1, Run.lift_bind]
    exact e

end

end TI
