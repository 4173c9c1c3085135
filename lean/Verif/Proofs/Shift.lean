import Verif.Spec.Shift
import Verif.Proofs.Grey
import Verif.Proofs.SsimOne

/-!
# Images that differ in brightness: blurs and maps
-/

set_option linter.unusedSectionVars false

namespace TI
open Tensor Spec

section
variable {α : Type} [Field α] [LinearOrder α] [IsStrictOrderedRing α] {g : Given (List α)} {gp : Option (PadArgs α)} {x y y1 y2 : Tensor α} {ax : Axes}
  {axes : List Nat} {p : Option (Padder α)} {a b d : α}

theorem Spec.AxisPad.Shifts.linear {s : AxisPad α} (h : s.Shifts) : s.Linear := by
  obtain ⟨b, a, m, cv, ev, sl⟩ := s
  cases m <;> first | trivial | exact h.elim | skip
  rename_i st
  cases st <;> trivial

theorem Spec.AxisPad.Shifts.follows {s : AxisPad α} (h : s.Shifts) (d : α) : s.Follows (fun v => 1 * v + d) s := by
  obtain ⟨b, a, m, cv, ev, sl⟩ := s
  refine ⟨rfl, rfl, ?_⟩
  cases m <;> first | trivial | exact h.elim | exact ⟨1, d, fun _ => rfl⟩ | skip
  rename_i st
  cases st <;> first | exact ⟨1, d, fun _ => rfl⟩ | exact h.elim

theorem sameSetting_linear {gp : PadArgs α} {g : PoolArgs α} {shape : List Nat} {i : Nat} (h : (gp.entry i).Shifts) :
    (sameSetting g gp shape axes i).Linear := by
  have e : (sameSetting g gp shape axes i).mode = (gp.entry i).mode ∧ (sameSetting g gp shape axes i).cv = (gp.entry i).cv ∧
    (sameSetting g gp shape axes i).ev = (gp.entry i).ev := ⟨rfl, rfl, rfl⟩
  have h' := h.linear
  rw [AxisPad.Linear] at h' ⊢
  rw [e.1, e.2.1, e.2.2]
  exact h'

/-- the blur is linear -/
theorem blurred_lincomb (h : BlurCall g gp x ax axes p) (hs : Shifts gp axes.length) (hxy : y.shape = x.shape) :
    blurred g gp axes (lincomb a x b y) = lincomb a (blurred g gp axes x) b (blurred g gp axes y) := by
  cases gp with
  | none => exact poolSeq_lincomb_fitting hxy.symm h.2.2
  | some gp =>
    have hc := h.2
    have hops : ∀ o ∈ sameOps (PoolArgs.filter g) gp x.shape axes, o.1 < x.ndim ∧ 0 < x.shape.getD o.1 0 ∧ o.2.Linear := by
      intro o ho
      have hlt := hc.lt _ ho
      obtain ⟨i, hi, rfl⟩ := sameOps_mem ho
      exact ⟨hlt, hc.pos _ (getD_mem_lt hi), sameSetting_linear (hs gp rfl i hi)⟩
    show poolSeq (padSeq (lincomb a x b y) (sameOps _ gp x.shape axes)) _ = _
    rw [padSeq_lincomb hxy.symm (by rw [sameOps_fst]; exact hc.nodup) (fun o ho => (hops o ho).1) (fun o ho => (hops o ho).2.1)
      (fun o ho => (hops o ho).2.2)]
    have e := blurred_congr (g := g) (gp := some gp) h hxy
    rw [poolSeq_lincomb_fitting ?_ hc.poolOps.fitting]
    · show _ = lincomb a (blurred g (some gp) axes x) b (poolSeq (padSeq y (sameOps _ gp y.shape axes)) _)
      rw [hxy]
      rfl
    · exact padSeq_shape_congr hc.opsOK (by rw [sameOps_fst]; exact hc.nodup) (fun o ho => (hops o ho).1) hxy.symm

theorem totalWeight_unit (h : UnitSums g axes.length) : totalWeight ((PoolArgs.filter g).ops axes) = 1 := by
  apply List.prod_eq_one
  intro v hv
  obtain ⟨o, ho, rfl⟩ := List.mem_map.1 hv
  obtain ⟨i, hi, rfl⟩ := mem_ops.1 ho
  split_ifs with hk
  · rfl
  · exact h i hi hk

/-- the blur of a brighter image -/
theorem blurred_shifted (h : BlurCall g gp x ax axes p) (hs : Shifts gp axes.length) (hu : UnitSums g axes.length) :
    blurred g gp axes (x.map fun v => v + d) = (blurred g gp axes x).map fun v => v + d := by
  have e : (fun v : α => v + d) = fun v => 1 * v + d := by funext v; rw [one_mul]
  cases gp with
  | none =>
    show poolSeq _ _ = (poolSeq _ _).map _
    rw [e, poolSeq_map 1 d h.2.2, totalWeight_unit hu, mul_one]
  | some gp =>
    show poolSeq _ _ = (poolSeq _ _).map _
    rw [e, map_shape, same_map h.2 (fun i hi => (hs gp rfl i hi).follows d), totalWeight_unit hu, mul_one]

theorem times_shifted (h : y2.shape = y1.shape) : times (y1.map fun v => v + a) (y2.map fun v => v + d) =
    (lincomb 1 (times y1 y2) 1 (lincomb d y1 a y2)).map fun v => v + a * d := by
  apply ext_get (show (times (y1.map fun v => v + a) (y2.map fun v => v + d)).shape = ((lincomb 1 (times y1 y2) 1 (lincomb d y1 a y2)).map fun v => v + a * d).shape from rfl)
  intro ix hix
  have hix' : InB y1.shape ix := hix
  rw [get_map _ _ (show InB (lincomb 1 (times y1 y2) 1 (lincomb d y1 a y2)).shape ix from hix'), lincomb_get (show InB (times y1 y2).shape ix from hix'),
    lincomb_get hix', times, times, get_ofFn (show InB (y1.map _).shape ix from hix'), get_map _ _ hix', get_map _ _ (by rw [h]; exact hix'), get_ofFn hix']
  ring

theorem blurCall_congr (h : BlurCall g gp x ax axes p) (hz : y.shape = x.shape) : BlurCall g gp y ax axes p := by
  cases gp with
  | none => exact ⟨h.1, by rw [ndim, hz]; exact h.2.1, Fitting_congr hz.symm h.2.2⟩
  | some gp => exact ⟨h.1, h.2.congr hz⟩

theorem blurred_times_shifted (h : BlurCall g gp y1 ax axes p) (hs : Shifts gp axes.length) (hu : UnitSums g axes.length) (h12 : y2.shape = y1.shape)
    {ix : List Nat} (hix : InB (blurred g gp axes y1).shape ix) :
    (blurred g gp axes (times (y1.map fun v => v + a) (y2.map fun v => v + d))).get ix =
      (blurred g gp axes (times y1 y2)).get ix + d * (blurred g gp axes y1).get ix + a * (blurred g gp axes y2).get ix + a * d := by
  have ht := blurCall_congr h (show (times y1 y2).shape = y1.shape from rfl)
  rw [times_shifted h12, blurred_shifted (blurCall_congr h (show (lincomb 1 (times y1 y2) 1 (lincomb d y1 a y2)).shape = y1.shape from rfl)) hs hu,
    blurred_lincomb ht hs (show (lincomb d y1 a y2).shape = (times y1 y2).shape from rfl), blurred_lincomb h hs h12]
  have e := blurred_congr h (show (times y1 y2).shape = y1.shape from rfl)
  have hix' : InB (blurred g gp axes (times y1 y2)).shape ix := by rw [e]; exact hix
  rw [get_map _ _ (show InB (lincomb 1 (blurred g gp axes (times y1 y2)) 1 _).shape ix from hix'), lincomb_get hix', lincomb_get hix]
  ring

/-- a map for brighter images -/
theorem pointMap_shifted (F : α → α → α → α → α → α) (h : BlurCall g gp y1 ax axes p) (hs : Shifts gp axes.length) (hu : UnitSums g axes.length)
    (h12 : y2.shape = y1.shape) :
    pointMap F (blurred g gp axes) (y1.map fun v => v + a) (y2.map fun v => v + d) =
      pointMap (fun m1 m2 e11 e22 e12 => F (m1 + a) (m2 + d) (e11 + 2 * a * m1 + a ^ 2) (e22 + 2 * d * m2 + d ^ 2) (e12 + d * m1 + a * m2 + a * d))
        (blurred g gp axes) y1 y2 := by
  have h2 := blurCall_congr h h12
  have hsh := blurred_congr h h12
  rw [pointMap, pointMap, blurred_shifted h hs hu, blurred_shifted h2 hs hu, map_shape]
  apply ofFn_congr
  intro ix hix
  have hix2 : InB (blurred g gp axes y2).shape ix := by rw [hsh]; exact hix
  rw [get_map _ _ hix, get_map _ _ hix2, blurred_times_shifted h hs hu rfl hix, blurred_times_shifted h2 hs hu rfl hix2,
    blurred_times_shifted h hs hu h12 hix]
  congr 1 <;> ring

theorem csMap_shifted {k2 f : α} (h : BlurCall g gp y1 ax axes p) (hs : Shifts gp axes.length) (hu : UnitSums g axes.length) (h12 : y2.shape = y1.shape) :
    csMap k2 f (blurred g gp axes) (y1.map fun v => v + a) (y2.map fun v => v + d) = csMap k2 f (blurred g gp axes) y1 y2 := by
  have := pointMap_shifted (a := a) (d := d) (csIndex (k2 ^ 2) f) h hs hu h12
  refine (show csMap k2 f _ _ _ = _ from this).trans ?_
  apply ofFn_congr
  intro ix _
  simp only [csIndex]
  congr 1 <;> ring

theorem ssimMap_shifted {k1 k2 f : α} (h : BlurCall g gp y1 ax axes p) (hs : Shifts gp axes.length) (hu : UnitSums g axes.length) (h12 : y2.shape = y1.shape) :
    ssimMap k1 k2 f (blurred g gp axes) (y1.map fun v => v + a) (y2.map fun v => v + d) = shiftedMap k1 k2 f a d (blurred g gp axes) y1 y2 := by
  have := pointMap_shifted (a := a) (d := d) (ssimIndex (k1 ^ 2) (k2 ^ 2) f) h hs hu h12
  refine (show ssimMap k1 k2 f _ _ _ = _ from this).trans ?_
  apply ofFn_congr
  intro ix hix
  simp only [ssimIndex]
  rw [csMap, get_ofFn hix, csIndex, luminance, div_mul_div_comm]
  congr 1 <;> ring

end

end TI
