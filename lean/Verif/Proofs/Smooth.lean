import Mathlib.Analysis.SpecialFunctions.Pow.Deriv
import Mathlib.Analysis.SpecialFunctions.Log.Base
import Verif.Spec.Smooth
import Verif.Props.Shift
import Verif.Props.MsOne
import Verif.Proofs.Blend

/-!
# Images that depend on a parameter
-/

set_option linter.unusedSectionVars false

namespace TI
open Tensor Spec

section
variable {E : Type} {R : (E → ℝ) → Prop} {S T : List Nat} {x y : E → Tensor ℝ}

namespace Spec.Arithmetic
variable {f g : E → ℝ} (hR : Arithmetic R)
include hR

theorem sub (hf : R f) (hg : R g) : R fun e => f e - g e := by
  have := hR.add hf (hR.mul (hR.const (-1)) hg)
  simpa [sub_eq_add_neg] using this

theorem sq (hf : R f) : R fun e => f e ^ 2 := by
  have := hR.mul hf hf
  simpa [pow_two] using this

theorem sum {ι : Type} {l : List ι} {u : ι → E → ℝ} (h : ∀ i ∈ l, R (u i)) : R fun e => (l.map fun i => u i e).sum := by
  induction l with
  | nil => exact hR.const 0
  | cons a l ih =>
    have := hR.add (h a (by simp)) (ih fun i hi => h i (by simp [hi]))
    simpa using this

theorem mean {ι : Type} {l : List ι} {u : ι → E → ℝ} (h : ∀ i ∈ l, R (u i)) : R fun e => Spec.mean (l.map fun i => u i e) := by
  have := hR.mul (hR.sum h) (hR.const (1 / (l.length : ℝ)))
  simp only [Spec.mean, List.length_map, div_eq_mul_one_div (List.sum _)]
  exact this

end Spec.Arithmetic

/-- a linear map of images as a sum over the pixels -/
theorem linear_sum {b : Tensor ℝ → Tensor ℝ} (hT : ∀ u : Tensor ℝ, u.shape = S → (b u).shape = T)
    (hlin : ∀ (c d : ℝ) (u v : Tensor ℝ), u.shape = S → v.shape = S → b (lincomb c u d v) = lincomb c (b u) d (b v)) (u : Tensor ℝ) (hu : u.shape = S) (ix : List Nat) (hix : InB T ix) :
    (b u).get ix = ((indices S).map fun p => u.get p * (b (ofFn S fun q => if q = p then 1 else 0)).get ix).sum := by
  have key : ∀ l : List (List Nat), l.Nodup → (b (ofFn S fun q => if q ∈ l then u.get q else 0)).get ix = (l.map fun p => u.get p * (b (ofFn S fun q => if q = p then 1 else 0)).get ix).sum := by
    intro l
    induction l with
    | nil =>
      intro _
      have e : (ofFn S fun q => if q ∈ ([] : List (List Nat)) then u.get q else 0) = lincomb 0 u 0 u := by
        rw [lincomb, hu]
        apply ofFn_congr
        intro q _
        simp
      rw [e, hlin 0 0 u u hu hu, lincomb_get (by rw [hT u hu]; exact hix)]
      simp
    | cons p l ih =>
      intro hnd
      obtain ⟨hp, hl⟩ := List.nodup_cons.1 hnd
      have e : (ofFn S fun q => if q ∈ p :: l then u.get q else 0) = lincomb (u.get p) (ofFn S fun q => if q = p then 1 else 0) 1 (ofFn S fun q => if q ∈ l then u.get q else 0) := by
        rw [lincomb]
        apply ofFn_congr
        intro q hq
        rw [get_ofFn hq, get_ofFn hq]
        by_cases hqp : q = p
        · subst hqp
          simp [hp]
        · simp [hqp]
      rw [e, hlin _ _ _ _ rfl rfl, lincomb_get (by rw [hT _ rfl]; exact hix), ih hl, List.map_cons, List.sum_cons, one_mul]
  rw [← key _ (indices_nodup S)]
  congr 2
  rw [← hu]
  conv_lhs => rw [eq_ofFn_get u]
  apply ofFn_congr
  intro q hq
  rw [if_pos (mem_indices.2 hq)]

namespace Spec.Family

theorem map (hx : Family R S x) {F : ℝ → ℝ} (hF : ∀ f, R f → R fun e => F (f e)) : Family R S fun e => (x e).map F where
  shape e := hx.shape e
  entry ix hix := by
    have := hF _ (hx.entry ix hix)
    refine (congrArg R (funext fun e => ?_)).mp this
    rw [get_map _ _ (by rw [hx.shape]; exact hix)]

variable (hR : Arithmetic R)
include hR

theorem linear (hx : Family R S x) {b : Tensor ℝ → Tensor ℝ} (hT : ∀ u : Tensor ℝ, u.shape = S → (b u).shape = T)
    (hlin : ∀ (c d : ℝ) (u v : Tensor ℝ), u.shape = S → v.shape = S → b (lincomb c u d v) = lincomb c (b u) d (b v)) : Family R T fun e => b (x e) where
  shape e := hT _ (hx.shape e)
  entry ix hix := by
    have := hR.sum (l := indices S) (u := fun p e => (x e).get p * (b (ofFn S fun q => if q = p then 1 else 0)).get ix) fun p hp =>
      hR.mul (hx.entry p (mem_indices.1 hp)) (hR.const _)
    refine (congrArg R (funext fun e => ?_)).mp this
    exact (linear_sum hT hlin (x e) (hx.shape e) ix hix).symm

theorem times (hx : Family R S x) (hy : Family R S y) : Family R S fun e => times (x e) (y e) where
  shape e := hx.shape e
  entry ix hix := by
    refine (congrArg R (funext fun e => ?_)).mp (hR.mul (hx.entry ix hix) (hy.entry ix hix))
    rw [Spec.times, get_ofFn (by rw [hx.shape]; exact hix)]

theorem meanKept (hx : Family R S x) (axes : List Nat) : Family R (onesAt axes S) fun e => meanKept (x e) axes where
  shape e := by
    rw [← hx.shape e]
    rfl
  entry jx hjx := by
    refine (congrArg R (funext fun e => ?_)).mp (hR.mean (l := collected S axes (onKept axes jx)) (u := fun ix e => (x e).get ix) fun ix hix => hx.entry ix (mem_collected.1 hix).1)
    rw [Spec.meanKept, get_ofFn (by rw [hx.shape]; exact hjx), hx.shape]

theorem meanOver (hx : Family R S x) (axes : List Nat) : Family R (onKept (reducedAxes S.length axes) S) fun e => meanOver (x e) axes where
  shape e := by
    rw [← hx.shape e]
    rfl
  entry jx hjx := by
    refine (congrArg R (funext fun e => ?_)).mp (hR.mean (l := collected S (reducedAxes S.length axes) jx) (u := fun ix e => (x e).get ix) fun ix hix => hx.entry ix (mem_collected.1 hix).1)
    rw [Spec.meanOver, get_ofFn (by rw [Tensor.ndim, hx.shape]; exact hjx), Tensor.ndim, hx.shape]

end Spec.Family

/-- images in a class, mapped by a map that commutes with blending, are in the class -/
theorem Spec.Family.affine {E : Type} {R : (E → ℝ) → Prop} {S T : List Nat} {x : E → Tensor ℝ} (hR : Arithmetic R) (hx : Family R S x) {b : Tensor ℝ → Tensor ℝ}
    (hT : ∀ u : Tensor ℝ, u.shape = S → (b u).shape = T)
    (haff : ∀ (c d : ℝ) (u v : Tensor ℝ), c + d = 1 → u.shape = S → v.shape = S → b (lincomb c u d v) = lincomb c (b u) d (b v)) : Family R T fun e => b (x e) := by
  set o : Tensor ℝ := ofFn S fun _ => 0 with ho
  have hos : o.shape = S := rfl
  have G : ∀ (S : List Nat) (ix : List Nat), InB S ix → ∀ (c d : ℝ) (u v : Tensor ℝ), u.shape = S → (lincomb c u d v).get ix = c * u.get ix + d * v.get ix :=
    fun S ix hix c d u v hu => lincomb_get (by rw [hu]; exact hix)
  have hget : ∀ (c d : ℝ) (u v : Tensor ℝ), u.shape = S → v.shape = S → ∀ ix, InB T ix → (b (lincomb c u d v)).get ix = c * (b u).get ix + d * (b v).get ix + (1 - c - d) * (b o).get ix := by
    intro c d u v hu hv ix hix
    have e : lincomb c u d v = lincomb 2 (lincomb (1 / 2) (lincomb c u (1 - c) o) (1 / 2) (lincomb d v (1 - d) o)) (-1) o := by
      refine ext_get rfl fun jx hjx => ?_
      have hjx : InB S jx := hu ▸ hjx
      rw [G S jx hjx c d u v hu, G S jx hjx 2 (-1) (lincomb (1 / 2) (lincomb c u (1 - c) o) (1 / 2) (lincomb d v (1 - d) o)) o hu, G S jx hjx (1 / 2) (1 / 2) _ _ (show (lincomb c u (1 - c) o).shape = S from hu), G S jx hjx c (1 - c) u o hu,
        G S jx hjx d (1 - d) v o hv, ho, get_ofFn hjx]
      ring
    have h1 : (lincomb c u (1 - c) o).shape = S := hu
    have h2 : (lincomb d v (1 - d) o).shape = S := hv
    have hm : (lincomb (1 / 2) (lincomb c u (1 - c) o) (1 / 2) (lincomb d v (1 - d) o)).shape = S := hu
    rw [e, haff 2 (-1) _ _ (by norm_num) hm hos, haff (1 / 2) (1 / 2) _ _ (by norm_num) h1 h2, haff c (1 - c) u o (by ring) hu hos, haff d (1 - d) v o (by ring) hv hos,
      G T ix hix 2 (-1) (lincomb (1 / 2) (lincomb c (b u) (1 - c) (b o)) (1 / 2) (lincomb d (b v) (1 - d) (b o))) (b o) (hT u hu), G T ix hix (1 / 2) (1 / 2) (lincomb c (b u) (1 - c) (b o)) _ (hT u hu), G T ix hix c (1 - c) _ _ (hT u hu), G T ix hix d (1 - d) _ _ (hT v hv)]
    ring
  have hlin := hx.linear hR (T := T) (b := fun u => lincomb 1 (b u) (-1) (b o)) (fun u hu => hT u hu) (by
    intro c d u v hu hv
    refine ext_get (show (b (lincomb c u d v)).shape = (b u).shape by rw [hT u hu, hT _ (show (lincomb c u d v).shape = S from hu)]) fun ix hix => ?_
    have hix : InB T ix := by
      have : (b (lincomb c u d v)).shape = T := hT _ (show (lincomb c u d v).shape = S from hu)
      rw [← this]
      exact hix
    rw [G T ix hix 1 (-1) _ _ (hT _ (show (lincomb c u d v).shape = S from hu)), hget c d u v hu hv ix hix, G T ix hix c d (lincomb 1 (b u) (-1) (b o)) _ (hT u hu), G T ix hix 1 (-1) _ _ (hT u hu),
      G T ix hix 1 (-1) _ _ (hT v hv)]
    ring)
  refine ⟨fun e => hT _ (hx.shape e), fun ix hix => ?_⟩
  refine (congrArg R (funext fun e => ?_)).mp (hR.add (hlin.entry ix hix) (hR.const ((b o).get ix)))
  show (lincomb 1 (b (x e)) (-1) (b o)).get ix + (b o).get ix = (b (x e)).get ix
  rw [lincomb_get (by rw [hT _ (hx.shape e)]; exact hix)]
  ring

theorem Spec.AxisPad.KeepsMoments.affine {s : AxisPad ℝ} (h : s.KeepsMoments) : s.Affine := by
  rw [AxisPad.KeepsMoments] at h
  rw [AxisPad.Affine]
  split at h <;> first | exact False.elim h | (rename_i e; rw [e]; trivial)

theorem blurred_blend {g : Given (List ℝ)} {gp : Option (PadArgs ℝ)} {u v : Tensor ℝ} {c d : ℝ} {ax : Axes} {axes : List Nat} {p : Option (Padder ℝ)} (hab : c + d = 1)
    (h : BlurCall g gp u ax axes p) (hk : ∀ g ∈ gp, ∀ i < axes.length, (g.entry i).Affine) (hv : v.shape = u.shape) :
    blurred g gp axes (lincomb c u d v) = lincomb c (blurred g gp axes u) d (blurred g gp axes v) := by
  cases gp with
  | none => exact poolSeq_lincomb_fitting hv.symm h.2.2
  | some gp => exact filtered_blend hab h.2 (hk gp rfl) hv

theorem Spec.Family.blurred (hR : Arithmetic R) {g : Given (List ℝ)} {gp : Option (PadArgs ℝ)} {u : Tensor ℝ} {ax : Axes} {axes : List Nat} {p : Option (Padder ℝ)}
    (hx : Family R S x) (h : BlurCall g gp u ax axes p) (hk : ∀ g ∈ gp, ∀ i < axes.length, (g.entry i).Affine) (hu : u.shape = S) :
    Family R (blurred g gp axes u).shape fun e => blurred g gp axes (x e) :=
  hx.affine hR (fun v hv => blurred_congr h (hv.trans hu.symm)) fun _ _ v w hab hv hw =>
    blurred_blend hab (blurCall_congr h (hv.trans hu.symm)) hk (hw.trans hv.symm)

variable {g : Given (List ℝ)} {gp : Option (PadArgs ℝ)} {u : Tensor ℝ} {ax : Axes} {axes : List Nat} {p : Option (Padder ℝ)} {k1 k2 : ℝ} {sc cr : Bool} {n : Nat}

theorem positive_denominators {c1 c2 f m1 m2 e11 e22 e12 : ℝ} (h : Possible m1 m2 e11 e22 e12) (hf : 0 ≤ f) (h1 : 0 < c1) (h2 : 0 < c2) :
    0 < m1 ^ 2 + m2 ^ 2 + c1 ∧ 0 < f * (e11 - m1 ^ 2) + f * (e22 - m2 ^ 2) + c2 :=
  ⟨by positivity, add_pos_of_nonneg_of_pos (add_nonneg (mul_nonneg hf h.var1) (mul_nonneg hf h.var2)) h2⟩

/-- the maps of indices of families of images -/
theorem Spec.Family.maps (hR : Arithmetic R) (hx : Family R S x) (hy : Family R S y) (h : BlurCall g gp u ax axes p) (hu : u.shape = S)
    (hav : Averages g axes) (hk : KeepsMoments gp axes) (hk1 : k1 ≠ 0) (hk2 : k2 ≠ 0) :
    Family R (TI.Spec.blurred g gp axes u).shape (fun e => ssimMap k1 k2 (covFactor sc n) (TI.Spec.blurred g gp axes) (x e) (y e)) ∧
    Family R (TI.Spec.blurred g gp axes u).shape (fun e => csMap k2 (covFactor sc n) (TI.Spec.blurred g gp axes) (x e) (y e)) := by
  have ha : ∀ g ∈ gp, ∀ i < axes.length, (g.entry i).Affine := fun g hg i hi => (hk g hg i hi).affine
  have b1 := hx.blurred hR h ha hu
  have b2 := hy.blurred hR h ha hu
  have b11 := (hx.times hR hx).blurred hR h ha hu
  have b22 := (hy.times hR hy).blurred hR h ha hu
  have b12 := (hx.times hR hy).blurred hR h ha hu
  have hden : ∀ e ix, InB (TI.Spec.blurred g gp axes u).shape ix → _ := fun e ix hix =>
    positive_denominators ((blurred_possible (y2 := y e) (blurCall_congr h ((hx.shape e).trans hu.symm)) hav hk ((hy.shape e).trans (hx.shape e).symm)).possible ix
      (by rw [b1.shape e]; exact hix)) (covFactor_nonneg sc n) (pow_pos (abs_pos.2 hk1) 2) (pow_pos (abs_pos.2 hk2) 2)
  simp only [sq_abs] at hden
  have hnum : ∀ ix, InB (TI.Spec.blurred g gp axes u).shape ix → _ := fun ix hix => hR.add (hR.mul (hR.const 2) (hR.mul (hR.const (covFactor sc n))
    (hR.sub (b12.entry ix hix) (hR.mul (b1.entry ix hix) (b2.entry ix hix))))) (hR.const (k2 ^ 2))
  have hvar : ∀ ix, InB (TI.Spec.blurred g gp axes u).shape ix → _ := fun ix hix => hR.add (hR.add (hR.mul (hR.const (covFactor sc n)) (hR.sub (b11.entry ix hix) (hR.sq (b1.entry ix hix))))
    (hR.mul (hR.const (covFactor sc n)) (hR.sub (b22.entry ix hix) (hR.sq (b2.entry ix hix))))) (hR.const (k2 ^ 2))
  refine ⟨⟨fun e => b1.shape e, fun ix hix => ?_⟩, fun e => b1.shape e, fun ix hix => ?_⟩
  · have hl := hR.add (hR.mul (hR.const 2) (hR.mul (b1.entry ix hix) (b2.entry ix hix))) (hR.const (k1 ^ 2))
    have hm := hR.add (hR.add (hR.sq (b1.entry ix hix)) (hR.sq (b2.entry ix hix))) (hR.const (k1 ^ 2))
    have := hR.div (hR.mul hl (hnum ix hix)) (hR.mul hm (hvar ix hix)) fun e => (mul_pos (hden e ix hix).1 (hden e ix hix).2).ne'
    refine (congrArg R (funext fun e => ?_)).mp this
    rw [ssimMap, get_ofFn (by rw [b1.shape e]; exact hix), ssimIndex]
  · have := hR.div (hnum ix hix) (hvar ix hix) fun e => (hden e ix hix).2.ne'
    refine (congrArg R (funext fun e => ?_)).mp this
    rw [csMap, get_ofFn (by rw [b1.shape e]; exact hix), csIndex]

theorem MsAt.of_shape {r : Nat} {v : Tensor ℝ} (h : MsAt g gp cr r u axes p) (hv : v.shape = u.shape) : MsAt g gp cr r v axes p where
  lt := by rw [Tensor.ndim, hv]; exact h.lt
  ne := h.ne
  nodup := h.nodup
  fits := h.fits
  kernel := h.kernel
  large := by rw [hv]; exact h.large
  padder := h.padder

/-- the levels of a pyramid of families of images -/
theorem Spec.Family.level (hR : Arithmetic R) (hx : Family R S x) {r : Nat} (i : Nat) (h : MsAt g gp cr (r + i) u axes p) (hu : u.shape = S) :
    Family R (atLevel axes i u).shape fun e => atLevel axes i (x e) :=
  hx.linear hR (fun v hv => atLevel_shape_congr i (hv.trans hu.symm)) fun _ _ v w hv hw =>
    atLevel_lincomb i (h.of_shape (hv.trans hu.symm)) (hw.trans hv.symm)

/-- the scores of a level -/
theorem Spec.Family.scores (hR : Arithmetic R) (hx : Family R S x) (hy : Family R S y) {r : Nat} (h : MsAt g gp cr r u axes p) (hu : u.shape = S)
    (hp : MsPossible g gp cr axes k1 k2) (last : Bool) :
    Family R (onesAt axes S) fun e => levelScore k1 k2 (covFactor sc n) (scoreBlur g gp cr axes) axes last (x e) (y e) := by
  have ho := (h.map_shape (y2 := u) (ssimIndex (k1 ^ 2) (k2 ^ 2) (covFactor sc n))).2
  obtain ⟨gp', p', e, hb, e1, e2⟩ := h.scoreCall
  have hk : KeepsMoments gp' axes := by
    cases cr with
    | true => rw [e1 rfl]; exact fun g hg => (by cases hg)
    | false => rw [e2 rfl]; exact hp.keeps rfl
  rw [e] at ho ⊢
  rw [hu] at ho
  obtain ⟨h1, h2⟩ := hx.maps (k1 := k1) (k2 := k2) (sc := sc) (n := n) hR hy hb hu hp.average hk hp.k1_ne hp.k2_ne
  have ho' : onesAt axes (TI.Spec.blurred g gp' axes u).shape = onesAt axes S := ho
  rw [← ho']
  cases last
  · exact h2.meanKept hR axes
  · exact h1.meanKept hR axes

theorem Spec.Arithmetic.total (hR : Arithmetic R) (up : Bool) {ι : Type} {l : List ι} {v : ι → E → ℝ} (h : ∀ i ∈ l, R (v i)) :
    R fun e => msTotal up (l.map fun i => v i e) := by
  cases up
  · exact hR.sum h
  · show R fun e => (l.map fun i => v i e).prod
    induction l with
    | nil => exact hR.const 1
    | cons a l ih =>
      have := hR.mul (h a (by simp)) (ih fun i hi => h i (by simp [hi]))
      simpa using this

/-- the scores of all levels, combined -/
theorem Spec.Family.msMap (hR : Arithmetic R) (hx : Family R S x) (hy : Family R S y) {ws : List ℝ} {up : Bool} {eps : ℝ}
    (h : MsCall g gp cr ws.length u ax axes p) (hu : u.shape = S) (hp : MsPossible g gp cr axes k1 k2)
    (hT : ∀ i < ws.length, ∀ jx, InB (onesAt axes S) jx →
      R (fun e => (levelScore k1 k2 (covFactor sc n) (scoreBlur g gp cr axes) axes (decide (i + 1 = ws.length)) (atLevel axes i (x e)) (atLevel axes i (y e))).get jx) →
      R (fun e => msLevel up eps k1 k2 (covFactor sc n) (scoreBlur g gp cr axes) axes ws (x e) (y e) i jx)) :
    Family R (onesAt axes S) fun e => TI.Spec.msMap up eps k1 k2 (covFactor sc n) (scoreBlur g gp cr axes) axes ws (x e) (y e) where
  shape e := by
    rw [← hx.shape e]
    rfl
  entry jx hjx := by
    have hl := hR.total up (l := List.range ws.length)
      (v := fun i e => msLevel up eps k1 k2 (covFactor sc n) (scoreBlur g gp cr axes) axes ws (x e) (y e) i jx) (by
        intro i hi
        have hi := List.mem_range.1 hi
        refine hT i hi jx hjx ?_
        obtain ⟨L, hL⟩ : ∃ L, ws.length = L + 1 := ⟨ws.length - 1, by omega⟩
        have h' := h
        rw [hL] at h'
        have hat : MsAt g gp cr (L - i + i) u axes p := by rw [Nat.sub_add_cancel (by omega)]; exact h'.at
        have hlx := hx.level hR i hat hu
        have hly := hy.level hR i hat hu
        have := hlx.scores (sc := sc) (n := n) hR hly (MsAt.level i hat) rfl hp (decide (i + 1 = ws.length))
        rw [onesAt_level i hat, hu] at this
        exact this.entry jx hjx)
    refine (congrArg R (funext fun e => ?_)).mp hl
    rw [TI.Spec.msMap, get_ofFn (by rw [hx.shape]; exact hjx)]

end

section
variable {E : Type} [NormedAddCommGroup E] [NormedSpace ℝ E] {n : WithTop ℕ∞} {e0 : E}

/-- functions that are `n` times continuously differentiable near a point -/
theorem arithmetic_contDiffAt : Arithmetic fun f : E → ℝ => ContDiffAt ℝ n f e0 where
  const _ := contDiffAt_const
  add := ContDiffAt.add
  mul := ContDiffAt.mul
  div hf hg h := hf.div hg (h e0)

theorem arithmetic_continuous {E : Type} [TopologicalSpace E] : Arithmetic fun f : E → ℝ => Continuous f where
  const _ := continuous_const
  add := Continuous.add
  mul := Continuous.mul
  div hf hg h := hf.div₀ hg h

theorem contDiffAt_term {eps w : ℝ} (heps : 0 < eps) {v : E → ℝ} (hv : ContDiffAt ℝ n v e0) (hne : v e0 ≠ eps) : ContDiffAt ℝ n (fun e => max (v e) eps ^ w) e0 := by
  rcases lt_or_gt_of_ne hne with hlt | hgt
  · refine (contDiffAt_const (c := eps ^ w)).congr_of_eventuallyEq ?_
    filter_upwards [hv.continuousAt.eventually_lt continuousAt_const hlt] with e he
    rw [max_eq_right he.le]
  · refine (hv.rpow_const_of_ne (p := w) (heps.trans hgt).ne').congr_of_eventuallyEq ?_
    filter_upwards [continuousAt_const.eventually_lt hv.continuousAt hgt] with e he
    rw [max_eq_left he.le]

end

end TI
