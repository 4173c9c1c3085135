import Verif.Proofs.Shift
import Verif.Proofs.MsOne
import Verif.Props.Grey
import Verif.Props.Mse

/-!
# Images that differ in brightness: C110
-/

set_option linter.unusedSectionVars false

namespace TI
open Tensor Spec

/-- an image of zeros -/
def Spec.zeroImage {α : Type} [Zero α] (S : List Nat) : Tensor α := Tensor.ofFn S fun _ => 0

section
variable {α : Type} [Field α] [LinearOrder α] [IsStrictOrderedRing α]
variable {x y y1 y2 : Tensor α} {ax rax : Axes} {axes raxes : List Nat}
variable {s : SSIM α} {pool : SepPool α} {g : PoolArgs α} {m : Nat} {gp : Option (PadArgs α)} {p : Option (Padder α)} {k1 k2 a d : α} {sc cr : Bool}

theorem zeroImage_get {S ix : List Nat} (h : InB S ix) : (zeroImage (α := α) S).get ix = 0 := get_ofFn h

theorem lincomb_zeroImage (S : List Nat) : lincomb 0 (zeroImage S) 0 (zeroImage S) = zeroImage (α := α) S := by
  apply ext_get (show (lincomb 0 (zeroImage S) 0 (zeroImage S)).shape = (zeroImage (α := α) S).shape from rfl)
  intro jx hjx
  rw [lincomb_get (show InB (zeroImage (α := α) S).shape jx from hjx), zeroImage_get (show InB S jx from hjx)]
  ring

theorem zero_of_lincomb {z : Tensor α} (h : z = lincomb 0 z 0 z) {ix : List Nat} (hix : InB z.shape ix) : z.get ix = 0 := by
  rw [h, lincomb_get hix]
  ring

theorem constant_eq (h : Constant a x) : x = (zeroImage x.shape).map fun v => v + a := by
  apply ext_get (show x.shape = ((zeroImage x.shape).map fun v => v + a).shape from rfl)
  intro ix hix
  rw [h ix hix, get_map _ _ (show InB (zeroImage (α := α) x.shape).shape ix from hix), zeroImage, get_ofFn hix, zero_add]

theorem blurred_zero {g : Given (List α)} {S : List Nat} (h : BlurCall g gp (zeroImage S) ax axes p) (hs : Shifts gp axes.length) {ix : List Nat}
    (hix : InB (blurred g gp axes (zeroImage S)).shape ix) : (blurred g gp axes (zeroImage S)).get ix = 0 := by
  have e2 := blurred_lincomb (a := 0) (b := 0) h hs (y := zeroImage S) rfl
  rw [lincomb_zeroImage] at e2
  exact zero_of_lincomb e2 hix

theorem times_zero (S : List Nat) : times (zeroImage S) (zeroImage S) = zeroImage (α := α) S := by
  apply ofFn_congr
  intro ix hix
  rw [zeroImage_get (show InB S ix from hix), mul_zero]

/-- maps of two constant images -/
theorem map_constant {g : Given (List α)} (h : BlurCall g gp y1 ax axes p) (hs : Shifts gp axes.length) (hu : UnitSums g axes.length)
    (h12 : y2.shape = y1.shape) (ha : Constant a y1) (hd : Constant d y2) (hk2 : k2 ≠ 0) (f : α) :
    (∀ ix, InB (blurred g gp axes y1).shape ix → (csMap k2 f (blurred g gp axes) y1 y2).get ix = 1) ∧
    ∀ ix, InB (blurred g gp axes y1).shape ix → (ssimMap k1 k2 f (blurred g gp axes) y1 y2).get ix = luminance (k1 ^ 2) a d := by
  have hz := blurCall_congr h (show (zeroImage (α := α) y1.shape).shape = y1.shape from rfl)
  have hsh := blurred_congr h (show (zeroImage (α := α) y1.shape).shape = y1.shape from rfl)
  have e1 : y1 = (zeroImage y1.shape).map fun v => v + a := constant_eq ha
  have e2 : y2 = (zeroImage y1.shape).map fun v => v + d := by rw [← h12]; exact constant_eq hd
  have hcs : ∀ ix, InB (blurred g gp axes y1).shape ix → (csMap k2 f (blurred g gp axes) (zeroImage y1.shape) (zeroImage y1.shape)).get ix = 1 := by
    intro ix hix
    rw [← hsh] at hix
    rw [csMap, get_ofFn hix, times_zero, blurred_zero hz hs hix, csIndex]
    have : k2 ^ 2 ≠ 0 := pow_ne_zero 2 hk2
    simp only [mul_zero, sub_zero, zero_add, ne_eq, OfNat.ofNat_ne_zero, not_false_eq_true, zero_pow, div_self this]
  have c1 := csMap_shifted (a := a) (d := d) (k2 := k2) (f := f) hz hs hu rfl
  have c2 := ssimMap_shifted (a := a) (d := d) (k1 := k1) (k2 := k2) (f := f) hz hs hu rfl
  rw [← e1, ← e2] at c1 c2
  refine ⟨fun ix hix => by rw [c1]; exact hcs ix hix, fun ix hix => ?_⟩
  have hix' := hix
  rw [← hsh] at hix'
  rw [c2, shiftedMap, get_ofFn hix', blurred_zero hz hs hix', hcs ix hix, mul_one, zero_add, zero_add]

/-- **C110.** If weights sum to one and the padder (if any) fills with values that grow with the samples, making the images `a` and `d` brighter
changes the comparison of the means only: the map is the luminance of the shifted means times the unchanged comparison of contrast and
structure. -/
theorem C110_shifted (hi : SSIM.init pool false k1 k2 sc cr = .ok s) (hb : Built pool g m) (hm : g.kernel.isMany = true → axes.length = m)
    (h : BlurCall g.kernel gp y1 ax axes p) (hs : Shifts gp axes.length) (hu : UnitSums g.kernel axes.length)
    (hN : sc = true → windowSize g.kernel axes.length ≠ 1) (h12 : y2.shape = y1.shape) (hr : axesOf y1.ndim rax = some raxes) (hrn : raxes.Nodup)
    (hcr : cr = false ∨ gp = none) (a d : α) (junk : List Nat → α) :
    s.forward junk (y1.map fun v => v + a) (y2.map fun v => v + d) ax rax p = (padderAfter g.kernel gp y1.shape axes,
      .ok (meanOver (shiftedMap k1 k2 (covFactor sc (windowSize g.kernel axes.length)) a d (blurred g.kernel gp axes) y1 y2) raxes,
        shiftedMap k1 k2 (covFactor sc (windowSize g.kernel axes.length)) a d (blurred g.kernel gp axes) y1 y2)) := by
  rw [C79_formula hi hb hm (blurCall_congr h (show (y1.map fun v => v + a).shape = y1.shape from rfl)) hN
    (show (y2.map fun v => v + d).shape = (y1.map fun v => v + a).shape from h12) hr hrn hcr junk, ssimMap_shifted h hs hu h12]
  rfl

/-- **C110**: an image and a brighter copy of it (averaging kernels, padding with samples or means of samples): the map shows the luminance of the
means, `(2 m (m + d) + K1²) / (m² + (m + d)² + K1²)`. -/
theorem C110_brighter (hi : SSIM.init pool false k1 k2 sc cr = .ok s) (hb : Built pool g m) (hm : g.kernel.isMany = true → axes.length = m)
    (h : BlurCall g.kernel gp x ax axes p) (hs : Shifts gp axes.length) (hav : Averages g.kernel axes) (hk : KeepsMoments gp axes)
    (hN : sc = true → windowSize g.kernel axes.length ≠ 1) (hr : axesOf x.ndim rax = some raxes) (hrn : raxes.Nodup)
    (hcr : cr = false ∨ gp = none) (hk2 : k2 ≠ 0) (d : α) (junk : List Nat → α) :
    ∃ q score full, s.forward junk x (x.map fun v => v + d) ax rax p = (q, .ok (score, full)) ∧ score = meanOver full raxes ∧
      full.shape = (blurred g.kernel gp axes x).shape ∧ ∀ ix, InB full.shape ix →
        full.get ix = luminance (k1 ^ 2) ((blurred g.kernel gp axes x).get ix) ((blurred g.kernel gp axes x).get ix + d) := by
  have e : x.map (fun v => v + 0) = x := by
    apply ext_get (show (x.map fun v => v + 0).shape = x.shape from rfl)
    intro ix hix
    rw [get_map _ _ (show InB x.shape ix from hix), add_zero]
  have hu : UnitSums g.kernel axes.length := fun i hi' hne => (hav i hi' hne).2
  have := C110_shifted hi hb hm h hs hu hN rfl hr hrn hcr 0 d junk
  rw [e] at this
  refine ⟨_, _, _, this, rfl, rfl, ?_⟩
  intro ix hix
  have hix' : InB (blurred g.kernel gp axes x).shape ix := hix
  rw [shiftedMap, get_ofFn hix', csMap_self h hav hk hk2 _ ix hix', mul_one, add_zero]

/-- **C110**: two constant images `a` and `d`: map and score are `(2 a d + K1²) / (a² + d² + K1²)`. -/
theorem C110_constant (hi : SSIM.init pool false k1 k2 sc cr = .ok s) (hb : Built pool g m) (hm : g.kernel.isMany = true → axes.length = m)
    (h : BlurCall g.kernel gp y1 ax axes p) (hs : Shifts gp axes.length) (hu : UnitSums g.kernel axes.length)
    (hN : sc = true → windowSize g.kernel axes.length ≠ 1) (h12 : y2.shape = y1.shape) (hr : axesOf y1.ndim rax = some raxes) (hrn : raxes.Nodup)
    (hcr : cr = false ∨ gp = none) (ha : Constant a y1) (hd : Constant d y2) (hk2 : k2 ≠ 0)
    (hpos : ∀ k ∈ reducedAxes y1.ndim raxes, 0 < y1.shape.getD k 0) (junk : List Nat → α) :
    ∃ q score full, s.forward junk y1 y2 ax rax p = (q, .ok (score, full)) ∧
      (∀ ix, InB full.shape ix → full.get ix = luminance (k1 ^ 2) a d) ∧ ∀ jx, InB score.shape jx → score.get jx = luminance (k1 ^ 2) a d := by
  have hmap := (map_constant (k1 := k1) h hs hu h12 ha hd hk2 (covFactor sc (windowSize g.kernel axes.length))).2
  exact ⟨_, _, _, C79_formula hi hb hm h hN h12 hr hrn hcr junk, hmap, meanOver_constant hmap (ssimMap_pos h hpos)⟩

/-- **C110**: the mean squared error of an image and a `d` brighter one is `d ^ 2`. -/
theorem C110_mse (hax : axesOf x.ndim ax = some axes) (hnd : axes.Nodup) (hpos : ∀ k < x.ndim, 0 < x.shape.getD k 0) (d : α) :
    ∃ e, mse .mean x (x.map fun v => v + d) ax = .ok e ∧ ∀ jx, InB e.shape jx → e.get jx = d ^ 2 := by
  refine ⟨_, C55_mean (y := x.map fun v => v + d) rfl hax hnd, ?_⟩
  have hc : ∀ ix, InB x.shape ix → (x.get ix - (x.map fun v => v + d).get ix) ^ 2 = d ^ 2 := by
    intro ix hix
    rw [get_map _ _ hix]
    ring
  have := meanOver_constant (x := Tensor.ofFn x.shape fun ix => (x.get ix - (x.map fun v => v + d).get ix) ^ 2) (raxes := axes) (c := d ^ 2)
    (fun ix hix => by rw [get_ofFn (show InB x.shape ix from hix)]; exact hc ix hix) (fun k hk _ => hpos k hk)
  intro jx hjx
  have hjx' : InB (onKept (reducedAxes x.ndim axes) x.shape) jx := hjx
  rw [← this jx hjx, get_ofFn hjx']
  refine Eq.trans ?_ (get_ofFn hjx').symm
  congr 1
  apply List.map_congr_left
  intro ix hix
  rw [get_ofFn (mem_collected.1 hix).1]

end

section
variable {x y1 y2 : Tensor ℝ} {ax rax : Axes} {axes raxes : List Nat}
variable {s : SSIM ℝ} {pool : SepPool ℝ} {g : PoolArgs ℝ} {m : Nat} {gp : Option (PadArgs ℝ)} {p : Option (Padder ℝ)} {k1 k2 a d : ℝ} {sc cr : Bool}
  {ws : List ℝ}

/-- **C110**: the peak signal-to-noise ratio of an image and a `d` brighter one is `20 log10 (max_value / |d|)` decibels. -/
theorem C110_psnr (hax : axesOf x.ndim ax = some axes) (hnd : axes.Nodup) (hpos : ∀ k < x.ndim, 0 < x.shape.getD k 0) {maxValue : ℝ}
    (hmax : 0 < maxValue) (hd : d ≠ 0) :
    ∃ z, psnr maxValue 0 .mean x (x.map fun v => v + d) ax = .ok z ∧ ∀ jx, InB z.shape jx → z.get jx = 20 * Real.logb 10 (maxValue / |d|) := by
  obtain ⟨e, he, hed⟩ := C110_mse hax hnd hpos d
  obtain ⟨z, hz, hsh, hv⟩ := C56_formula he hmax 0 (fun jx hjx => by rw [hed jx hjx, max_self, add_zero]; positivity)
  refine ⟨z, hz, fun jx hjx => ?_⟩
  rw [hsh] at hjx
  rw [hv jx hjx, hed jx hjx, max_self, add_zero, ← sq_abs d, ← div_pow, Real.logb_pow]
  ring

theorem halver_weight (axes : List Nat) : totalWeight ((halver (α := ℝ)).ops axes) = 1 := by
  apply List.prod_eq_one
  intro v hv
  obtain ⟨o, ho, rfl⟩ := List.mem_map.1 hv
  obtain ⟨i, hi, rfl⟩ := mem_ops.1 ho
  change (if ([1 / 2, 1 / 2] : List ℝ) = [] then (1 : ℝ) else ([1 / 2, 1 / 2] : List ℝ).sum) = 1
  norm_num

theorem atLevel_shifted {g : Given (List ℝ)} : ∀ (n : Nat) {r : Nat} {x : Tensor ℝ}, MsAt g gp cr (r + n) x axes p →
    atLevel axes n (x.map fun v => v + d) = (atLevel axes n x).map fun v => v + d
  | 0, _, _, _ => rfl
  | n + 1, r, x, h => by
    have h' : MsAt g gp cr (r + n + 1) x axes p := h
    have e : (fun v : ℝ => v + d) = fun v => 1 * v + d := by funext v; rw [one_mul]
    have e2 : halved axes (x.map fun v => v + d) = (halved axes x).map fun v => v + d := by
      rw [e]
      have := poolSeq_map 1 d (halver_poolOps (α := ℝ) h'.nodup h'.lt h'.two_le).fitting
      refine (show halved axes (x.map fun v => 1 * v + d) = _ from this).trans ?_
      rw [halver_weight, mul_one]
      rfl
    rw [atLevel, atLevel, e2]
    exact atLevel_shifted n h'.next

theorem atLevel_constant {g : Given (List ℝ)} (n : Nat) {r : Nat} (h : MsAt g gp cr (r + n) x axes p) (hc : Constant a x) :
    Constant a (atLevel axes n x) := by
  intro ix hix
  have hz : MsAt g gp cr (r + n) (zeroImage x.shape) axes p := h.congr rfl
  have e := atLevel_shifted (d := a) n hz
  rw [← constant_eq hc] at e
  have h0 : ∀ (n : Nat) {r : Nat} {S : List Nat}, MsAt g gp cr (r + n) (zeroImage S) axes p → ∀ ix, InB (atLevel axes n (zeroImage (α := ℝ) S)).shape ix →
      (atLevel axes n (zeroImage (α := ℝ) S)).get ix = 0 := by
    intro n r S h ix hix
    have e4 := atLevel_lincomb (c := 0) (d := 0) n h (y2 := zeroImage S) rfl
    rw [lincomb_zeroImage] at e4
    exact zero_of_lincomb e4 hix
  rw [e] at hix ⊢
  have hix' : InB (atLevel axes n (zeroImage (α := ℝ) x.shape)).shape ix := hix
  rw [get_map _ _ hix', h0 n hz ix hix', zero_add]

theorem score_shifts (h : cr = false → Shifts gp axes.length) {gp' : Option (PadArgs ℝ)} (e1 : cr = true → gp' = none) (e2 : cr = false → gp' = gp) :
    Shifts gp' axes.length := by
  cases cr with
  | true => rw [e1 rfl]; intro a ha; cases ha
  | false => rw [e2 rfl]; exact h rfl

/-- scores of the levels for constant images -/
theorem levelScore_constant {g : Given (List ℝ)} {r : Nat} (h : MsAt g gp cr r y1 axes p) (hs : cr = false → Shifts gp axes.length)
    (hu : UnitSums g axes.length) (h12 : y2.shape = y1.shape) (ha : Constant a y1) (hd : Constant d y2) (hk2 : k2 ≠ 0) (f : ℝ) (last : Bool)
    {jx : List Nat} (hjx : InB (onesAt axes y1.shape) jx) :
    (levelScore k1 k2 f (scoreBlur g gp cr axes) axes last y1 y2).get jx = if last then luminance (k1 ^ 2) a d else 1 := by
  obtain ⟨gp', p', e, hb, e1, e2⟩ := h.scoreCall
  have hs' := score_shifts hs e1 e2
  have hin := (h.map_shape (y2 := y2) (ssimIndex (k1 ^ 2) (k2 ^ 2) f)).2
  rw [e] at hin ⊢
  obtain ⟨h1, h2⟩ := map_constant (k1 := k1) hb hs' hu h12 ha hd hk2 f
  have hb1 : Between (if last then luminance (k1 ^ 2) a d else 1) (if last then luminance (k1 ^ 2) a d else 1)
      (levelScore k1 k2 f (blurred g gp' axes) axes last y1 y2) := by
    rw [levelScore]
    apply meanKept_between
    · intro ix hix
      cases last with
      | true => exact ⟨(h2 ix hix).ge, (h2 ix hix).le⟩
      | false => exact ⟨(h1 ix hix).ge, (h1 ix hix).le⟩
    · intro k hk _
      have := blurred_pos hb (h.pos hk)
      cases last <;> exact this
  have hj : InB (levelScore k1 k2 f (blurred g gp' axes) axes last y1 y2).shape jx := by
    rw [← hin] at hjx
    cases last <;> exact hjx
  exact le_antisymm (hb1 jx hj).2 (hb1 jx hj).1

theorem msLevel_constant {g : Given (List ℝ)} (h : MsCall g gp cr ws.length y1 ax axes p) (hs : cr = false → Shifts gp axes.length)
    (hu : UnitSums g axes.length) (h12 : y2.shape = y1.shape) (ha : Constant a y1) (hd : Constant d y2) (hk2 : k2 ≠ 0) (f : ℝ)
    {i : Nat} (hi : i < ws.length) {jx : List Nat} (hjx : InB (onesAt axes y1.shape) jx) :
    (levelScore k1 k2 f (scoreBlur g gp cr axes) axes (decide (i + 1 = ws.length)) (atLevel axes i y1) (atLevel axes i y2)).get jx =
      if i + 1 = ws.length then luminance (k1 ^ 2) a d else 1 := by
  obtain ⟨L, hL⟩ : ∃ L, ws.length = L + 1 := ⟨ws.length - 1, by omega⟩
  have hat : MsAt g gp cr (L - i + i) y1 axes p := by
    rw [hL] at h
    rw [Nat.sub_add_cancel (by omega)]
    exact h.at
  rw [levelScore_constant (MsAt.level i hat) hs hu (atLevel_shape_congr i h12) (atLevel_constant i hat ha) (atLevel_constant i (hat.congr h12) hd) hk2 f _
    (by rw [onesAt_level i hat]; exact hjx)]
  by_cases hl : i + 1 = ws.length <;> simp [hl]

/-- **C110** for MS-SSIM, product form: two constant images get the luminance of their values (at least `eps`) to the power of the last weight. -/
theorem C110_ms_constant (hi : SSIM.init pool false k1 k2 sc cr = .ok s) (hb : Built pool g m) (hm : g.kernel.isMany = true → axes.length = m)
    (hw : 2 ≤ ws.length) (h : MsCall g.kernel gp cr ws.length y1 ax axes p) (hs : cr = false → Shifts gp axes.length)
    (hu : UnitSums g.kernel axes.length) (hN : sc = true → windowSize g.kernel axes.length ≠ 1)
    (h12 : y2.shape = y1.shape) (hr : axesOf y1.ndim rax = some raxes) (hrn : raxes.Nodup) (ha : Constant a y1) (hd : Constant d y2) (hk2 : k2 ≠ 0)
    {eps : ℝ} (heps : eps ≤ 1) (hpos : ∀ k ∈ reducedAxes y1.ndim raxes, 0 < y1.shape.getD k 0) (junk : List Nat → ℝ) :
    ∃ q t, (⟨s, ws, true, eps⟩ : MsSsim).forward junk y1 y2 ax rax p = (q, .ok t) ∧
      ∀ jx, InB t.shape jx → t.get jx = max (luminance (k1 ^ 2) a d) eps ^ ws.getD (ws.length - 1) 0 := by
  refine ⟨_, _, C80_formula hi hb hm hw h hN h12 hr hrn true eps junk, meanOver_constant ?_ (onesAt_pos rfl hpos)⟩
  intro jx hjx
  have hjx' : InB (onesAt axes y1.shape) jx := hjx
  rw [msMap, get_ofFn hjx', msTotal, if_pos rfl]
  obtain ⟨L, hL⟩ : ∃ L, ws.length = L + 1 := ⟨ws.length - 1, by omega⟩
  have hlev : ∀ i < ws.length, msLevel true eps k1 k2 (covFactor sc (windowSize g.kernel axes.length)) (scoreBlur g.kernel gp cr axes) axes ws y1 y2 i jx =
      (if i + 1 = ws.length then max (luminance (k1 ^ 2) a d) eps ^ ws.getD i 0 else 1) := by
    intro i hi'
    rw [msLevel, msLevel_constant h hs hu h12 ha hd hk2 _ hi' hjx', msTerm, if_pos rfl]
    split_ifs
    · rfl
    · rw [max_eq_left heps, Real.one_rpow]
  rw [List.map_congr_left fun i hi' => hlev i (List.mem_range.1 hi'), hL, List.range_succ, List.map_append, List.prod_append, List.map_singleton,
    List.prod_singleton, if_pos rfl, Nat.add_sub_cancel, List.prod_eq_one, one_mul]
  intro v hv
  obtain ⟨i, hi', rfl⟩ := List.mem_map.1 hv
  have := List.mem_range.1 hi'
  rw [if_neg (by omega)]

/-- **C110** for MS-SSIM, sum form -/
theorem C110_ms_constant_sum (hi : SSIM.init pool false k1 k2 sc cr = .ok s) (hb : Built pool g m) (hm : g.kernel.isMany = true → axes.length = m)
    (hw : 2 ≤ ws.length) (h : MsCall g.kernel gp cr ws.length y1 ax axes p) (hs : cr = false → Shifts gp axes.length)
    (hu : UnitSums g.kernel axes.length) (hN : sc = true → windowSize g.kernel axes.length ≠ 1)
    (h12 : y2.shape = y1.shape) (hr : axesOf y1.ndim rax = some raxes) (hrn : raxes.Nodup) (ha : Constant a y1) (hd : Constant d y2) (hk2 : k2 ≠ 0)
    {eps : ℝ} (hpos : ∀ k ∈ reducedAxes y1.ndim raxes, 0 < y1.shape.getD k 0) (junk : List Nat → ℝ) :
    ∃ q t, (⟨s, ws, false, eps⟩ : MsSsim).forward junk y1 y2 ax rax p = (q, .ok t) ∧
      ∀ jx, InB t.shape jx → t.get jx = (ws.take (ws.length - 1)).sum + luminance (k1 ^ 2) a d * ws.getD (ws.length - 1) 0 := by
  refine ⟨_, _, C80_formula hi hb hm hw h hN h12 hr hrn false eps junk, meanOver_constant ?_ (onesAt_pos rfl hpos)⟩
  intro jx hjx
  have hjx' : InB (onesAt axes y1.shape) jx := hjx
  rw [msMap, get_ofFn hjx', msTotal, if_neg (by simp)]
  obtain ⟨L, hL⟩ : ∃ L, ws.length = L + 1 := ⟨ws.length - 1, by omega⟩
  have hlev : ∀ i < ws.length, msLevel false eps k1 k2 (covFactor sc (windowSize g.kernel axes.length)) (scoreBlur g.kernel gp cr axes) axes ws y1 y2 i jx =
      (if i + 1 = ws.length then luminance (k1 ^ 2) a d * ws.getD i 0 else ws.getD i 0) := by
    intro i hi'
    rw [msLevel, msLevel_constant h hs hu h12 ha hd hk2 _ hi' hjx', msTerm, if_neg (by simp)]
    split_ifs
    · rfl
    · rw [one_mul]
  rw [List.map_congr_left fun i hi' => hlev i (List.mem_range.1 hi'), hL, List.range_succ, List.map_append, List.sum_append, List.map_singleton,
    List.sum_singleton, if_pos rfl, Nat.add_sub_cancel]
  congr 1
  have : (List.range L).map (fun i => if i + 1 = L + 1 then luminance (k1 ^ 2) a d * ws.getD i 0 else ws.getD i 0) = ws.take L := by
    apply List.ext_getElem (by simp [hL])
    intro i h1 h2
    simp only [List.length_map, List.length_range] at h1
    simp only [List.getElem_map, List.getElem_range, List.getElem_take]
    rw [if_neg (by omega), List.getD_eq_getElem?_getD, List.getElem?_eq_getElem (by omega), Option.getD_some]
  rw [this]

/-- **C110** for MS-SSIM: making the images brighter changes the score of the last level only. -/
theorem C110_ms_shifted (hi : SSIM.init pool false k1 k2 sc cr = .ok s) (hb : Built pool g m) (hm : g.kernel.isMany = true → axes.length = m)
    (hw : 2 ≤ ws.length) (h : MsCall g.kernel gp cr ws.length y1 ax axes p) (hs : cr = false → Shifts gp axes.length)
    (hu : UnitSums g.kernel axes.length) (hN : sc = true → windowSize g.kernel axes.length ≠ 1)
    (h12 : y2.shape = y1.shape) (hr : axesOf y1.ndim rax = some raxes) (hrn : raxes.Nodup) (up : Bool) (eps a d : ℝ) (junk : List Nat → ℝ) :
    ∃ q t, (⟨s, ws, up, eps⟩ : MsSsim).forward junk (y1.map fun v => v + a) (y2.map fun v => v + d) ax rax p = (q, .ok t) ∧
      t = meanOver (Tensor.ofFn (onesAt axes y1.shape) fun jx => msTotal up ((List.range ws.length).map fun i => msTerm up eps (ws.getD i 0)
        ((meanKept (if i + 1 = ws.length
          then shiftedMap k1 k2 (covFactor sc (windowSize g.kernel axes.length)) a d (scoreBlur g.kernel gp cr axes) (atLevel axes i y1) (atLevel axes i y2)
          else csMap k2 (covFactor sc (windowSize g.kernel axes.length)) (scoreBlur g.kernel gp cr axes) (atLevel axes i y1) (atLevel axes i y2))
          axes).get jx))) raxes := by
  have h' : MsCall g.kernel gp cr ws.length (y1.map fun v => v + a) ax axes p := ⟨h.axes_eq, h.ne, h.nodup, h.fits, h.kernel, h.large, h.padder⟩
  refine ⟨_, _, C80_formula hi hb hm hw h' hN (show (y2.map fun v => v + d).shape = (y1.map fun v => v + a).shape from h12) hr hrn up eps junk, ?_⟩
  obtain ⟨L, hL⟩ : ∃ L, ws.length = L + 1 := ⟨ws.length - 1, by omega⟩
  have hat : MsAt g.kernel gp cr L y1 axes p := by rw [hL] at h; exact h.at
  congr 1
  rw [msMap]
  apply ofFn_congr
  intro jx _
  congr 1
  apply List.map_congr_left
  intro i hi'
  have hi' : i ≤ L := by have := List.mem_range.1 hi'; omega
  have hat' : MsAt g.kernel gp cr (L - i + i) y1 axes p := by rw [Nat.sub_add_cancel hi']; exact hat
  obtain ⟨gp', p', e, hb', e1, e2⟩ := (MsAt.level i hat').scoreCall
  have hs' := score_shifts hs e1 e2
  rw [msLevel, atLevel_shifted i hat', atLevel_shifted i (hat'.congr h12), levelScore, e]
  by_cases hl : i + 1 = ws.length
  · simp only [hl, decide_true, if_true]
    rw [ssimMap_shifted hb' hs' hu (atLevel_shape_congr i h12)]
  · simp only [hl, decide_false, Bool.false_eq_true, if_false]
    rw [csMap_shifted hb' hs' hu (atLevel_shape_congr i h12)]

/-- **C110** for `SSIM()` and `MS_SSIM()` (Gaussian blur over 11 samples, five levels, no padder) on two constant images -/
theorem C110_gaussian {eps : ℝ} (sc cr : Bool) (hax : axesOf y1.ndim ax = some axes) (hne : axes ≠ []) (hnd : axes.Nodup)
    (hsz : ∀ k ∈ axes, 176 < y1.shape.getD k 0) (h12 : y2.shape = y1.shape) (hr : axesOf y1.ndim rax = some raxes) (hrn : raxes.Nodup)
    (ha : Constant a y1) (hd : Constant d y2) (hk2 : k2 ≠ 0) (heps : eps ≤ 1) (hpos : ∀ k ∈ reducedAxes y1.ndim raxes, 0 < y1.shape.getD k 0)
    (junk : List Nat → ℝ) :
    ∃ s, SSIM.initGaussian k1 k2 sc cr = .ok s ∧
      (∃ q score full, s.forward junk y1 y2 ax rax none = (q, .ok (score, full)) ∧ ∀ jx, InB score.shape jx → score.get jx = luminance (k1 ^ 2) a d) ∧
      ∃ q t, (⟨s, MsSsim.defaultWeights, true, eps⟩ : MsSsim).forward junk y1 y2 ax rax none = (q, .ok t) ∧
        ∀ jx, InB t.shape jx → t.get jx = max (luminance (k1 ^ 2) a d) eps ^ (0.1333 : ℝ) := by
  obtain ⟨s, pool, w, h1, h2, h3, h4, h5, h6⟩ := ssim_gaussian k1 k2 sc cr
  have hl : MsSsim.defaultWeights.length = 5 := by simp [MsSsim.defaultWeights]
  have hcall : MsCall (.one w) none cr MsSsim.defaultWeights.length y1 ax axes none := by
    apply msCall_one (by rintro rfl; simp at h5) hax hne hnd
    intro k hk
    have := hsz k hk
    rw [hl, h5]
    omega
  have hblur : BlurCall (.one w) none y1 ax axes none := by
    apply blurCall_one hax hnd
    intro k hk
    have := hsz k hk
    omega
  have hN : sc = true → windowSize (.one w) axes.length ≠ 1 := fun _ => windowSize_ne_one (by omega) (by simpa using hne)
  have hu : UnitSums (.one w) axes.length := fun _ _ _ => h4.2
  have hs : Shifts (none : Option (PadArgs ℝ)) axes.length := fun g hg => by cases hg
  obtain ⟨q, score, full, e1, _, e2⟩ := C110_constant h2 h3 (by intro h; cases h) hblur hs hu hN h12 hr hrn (Or.inr rfl) ha hd hk2 hpos junk
  obtain ⟨q', t, e3, e4⟩ := C110_ms_constant h2 h3 (by intro h; cases h) (by rw [hl]; omega) hcall (fun _ => hs) hu hN h12 hr hrn ha hd hk2 heps hpos junk
  exact ⟨s, h1, ⟨q, score, full, e1, e2⟩, q', t, e3, e4⟩

end

/-! ### examples -/

/-- a black and a white image under `SSIM()` and `MS_SSIM()`: `0.01² / (1 + 0.01²)`, and at the most `0.0001 ^ 0.1333` -/
example (x y : Tensor ℝ) (hx : x.shape = [1, 3, 256, 256]) (hy : y.shape = [1, 3, 256, 256]) (h0 : Constant 0 x) (h1 : Constant 1 y) (junk : List Nat → ℝ) :
    ∃ s, SSIM.initGaussian (1 / 100) (3 / 100) true true = .ok s ∧
      (∃ q score full, s.forward junk x y (.slice (.from 2)) (.slice (.from 1)) none = (q, .ok (score, full)) ∧
        ∀ jx, InB score.shape jx → score.get jx = 1 / 10001) ∧
      ∃ q t, (⟨s, MsSsim.defaultWeights, true, 1 / 100000000⟩ : MsSsim).forward junk x y (.slice (.from 2)) (.slice (.from 1)) none = (q, .ok t) ∧
        ∀ jx, InB t.shape jx → t.get jx = (1 / 10001) ^ (0.1333 : ℝ) := by
  have := C110_gaussian (k1 := 1 / 100) (k2 := 3 / 100) (eps := 1 / 100000000) (ax := .slice (.from 2)) (rax := .slice (.from 1)) true true (axes := [2, 3])
    (raxes := [1, 2, 3]) (by rw [ndim, hx]; rfl) (by decide) (by decide) (by rw [hx]; decide) (by rw [hx, hy])
    (by rw [ndim, hx]; rfl) (by decide) h0 h1 (by norm_num) (by norm_num) (by rw [ndim, hx]; decide) junk
  rw [show luminance ((1 / 100 : ℝ) ^ 2) 0 1 = 1 / 10001 by norm_num [luminance],
    show max (1 / 10001 : ℝ) (1 / 100000000) = 1 / 10001 from max_eq_left (by norm_num)] at this
  exact this

/-- an image and a brighter one by 5 -/
example (x : Tensor ℚ) (hx : x.shape = [4, 6]) :
    ∃ e, mse .mean x (x.map fun v => v + 5) (.seq [1]) = .ok e ∧ ∀ jx, InB e.shape jx → e.get jx = 5 ^ 2 :=
  C110_mse (axes := [1]) (by rw [ndim, hx]; rfl) (by decide) (by rw [ndim, hx]; decide) 5

example (x : Tensor ℝ) (hx : x.shape = [4, 6]) :
    ∃ z, psnr 255 0 .mean x (x.map fun v => v + 5) (.seq [1]) = .ok z ∧ ∀ jx, InB z.shape jx → z.get jx = 20 * Real.logb 10 (255 / |5|) :=
  C110_psnr (axes := [1]) (by rw [ndim, hx]; rfl) (by decide) (by rw [ndim, hx]; decide) (by norm_num) (by norm_num)

end TI
