import Verif.Proofs.Strides
import Verif.Props.Wider
import Verif.Props.Compose
import Verif.Props.Energy

/-!
# Strided pooling is filtering and keeping every s-th entry: C119
-/

set_option linter.unusedSectionVars false

namespace TI
open Tensor Spec

section
variable {α : Type} [Field α] [LinearOrder α] [IsStrictOrderedRing α]
variable {pool pool' : SepPool α} {g : PoolArgs α} {m : Nat} {gp : PadArgs α} {p : Padder α} {x y : Tensor α} {ax : Axes} {axes : List Nat}

theorem filter_ops (g : PoolArgs α) (axes : List Nat) : PoolArgs.ops { g with stride := .one (some 1) } axes = (g.ops axes).map unstrided := by
  simp [PoolArgs.ops, PoolArgs.op, unstrided, Given.entry, Function.comp_def]

/-- **C119.** Without a padder a module keeps every `s`-th entry of what the same module returns after `to_filter`. -/
theorem C119_valid (hb : Built pool g m) (hf : pool.toFilter = .ok pool') (hax : axesOf x.ndim ax = some axes)
    (hm : g.isMany = true → axes.length = m) (hnd : axes.Nodup)
    (hsz : ∀ o ∈ g.ops axes, o.kernel.length ≤ x.shape.getD o.axis 0) (junk junk' : List Nat → α) :
    ∃ y z, SepPool.forward pool none junk x ax = (none, .ok y) ∧ SepPool.forward pool' none junk' x ax = (none, .ok z) ∧
      EveryOf (strideAt (g.ops axes)) (fun _ => 0) y z := by
  have hP := hb.poolOps hax hm hnd hsz
  have hm' : PoolArgs.isMany { g with stride := .one (some 1) } = true → axes.length = m := by
    intro h
    have h : (g.kernel.isMany || false) = true := h
    rw [Bool.or_false] at h
    exact hm (by rw [PoolArgs.isMany, h]; rfl)
  have hP' := (Built.filter hb hf).poolOps (x := x) hax hm' hnd (by
    rw [filter_ops]
    intro o ho
    obtain ⟨q, hq, rfl⟩ := List.mem_map.1 ho
    exact hsz q hq)
  refine ⟨_, _, hb.poolIs.1.forward_none hax hm hP.fitting junk, (Built.filter hb hf).poolIs.1.forward_none hax hm' hP'.fitting junk', ?_⟩
  have key := poolSeq_every (ops := g.ops axes) (y := x) (z := x) (st := fun _ => 1) (off := fun _ => 0)
    (fun ix hix => by rw [spread_one (fun _ => rfl), further_zero (fun _ => rfl)]; exact ⟨hix, rfl⟩) rfl hP.nodup
    (fun o ho hk => ⟨hP.axis o ho hk, hP.stride o ho hk, rfl⟩)
  simp only [Nat.one_mul] at key
  rw [filter_ops]
  exact key

theorem centre_offset (hnd : axes.Nodup) {shape : List Nat} (k : Nat) :
    beforeAt (sameOps { g with stride := .one (some 1) } gp shape axes) k - beforeAt (sameOps g gp shape axes) k = centreAt (g.ops axes) shape k := by
  have hdup : ((g.ops axes).map (·.axis)).Nodup := by rw [ops_axis]; exact hnd
  by_cases hk : k ∈ axes
  · obtain ⟨i, hi, rfl⟩ := List.mem_iff_getElem.1 hk
    have e : axes[i] = axes.getD i 0 := by simp [hi]
    rw [e, beforeAt, beforeAt, settingAt_some (o := (axes.getD i 0, sameSetting g gp shape axes i)) (by rw [sameOps_fst]; exact hnd) (mem_sameOps hi),
      settingAt_some (o := (axes.getD i 0, sameSetting { g with stride := .one (some 1) } gp shape axes i)) (by rw [sameOps_fst]; exact hnd) (mem_sameOps hi)]
    simp only [sameSetting]
    have e1 : (PoolArgs.op { g with stride := .one (some 1) } axes i).stride = 1 := rfl
    have e2 : (PoolArgs.op { g with stride := .one (some 1) } axes i).kernel = (g.op axes i).kernel := rfl
    have e3 : (PoolArgs.samePair (g.op axes i).kernel.length 1 (shape.getD (axes.getD i 0) 0)).1 = (g.op axes i).kernel.length / 2 := by
      rw [PoolArgs.samePair, sameTotal_one]; show (g.op axes i).kernel.length - 1 - _ = _; omega
    simp only [e1, e2, e3]
    by_cases hk0 : (g.op axes i).kernel = []
    · rw [centreAt, find_op_none]
      · simp [hk0]
      · intro o ho ho'
        obtain ⟨j, hj, rfl⟩ := mem_ops.1 ho
        have hji : j = i := by
          have h1 : axes.getD j 0 = axes.getD i 0 := ho'
          have h2 : axes[j] = axes[i] := by simpa [hi, hj] using h1
          exact (List.Nodup.getElem_inj_iff hnd).1 h2
        rw [hji]; exact hk0
    · have := find_op hdup (mem_ops.2 ⟨i, hi, rfl⟩) hk0
      rw [centreAt, show axes.getD i 0 = (g.op axes i).axis from rfl, this]
      rfl
  · rw [sameOps, sameOps, beforeAt_zip_not_mem hk, beforeAt_zip_not_mem hk, centreAt, find_op_none]
    · rfl
    · intro o ho ho'
      obtain ⟨j, hj, rfl⟩ := mem_ops.1 ho
      exact absurd (ho' ▸ getD_mem_lt hj) hk

/-- **C119.** With same padding a module keeps every `s`-th entry of what the same module returns after `to_filter`, starting from the sample at which its first
window is centred; ramps are excluded. -/
theorem C119_same (hb : Built pool g m) (hf : pool.toFilter = .ok pool') (hc : SameCall g gp x ax axes)
    (hc' : SameCall { g with stride := .one (some 1) } gp x ax axes) (hm : g.isMany = true → axes.length = m) (hp : Holds p gp) {p' : Padder α} (hp' : Holds p' gp)
    (hr : ∀ i < axes.length, gp.mode.entry .unknown i ≠ .linearRamp) (junk junk' : List Nat → α) :
    ∃ q q' y z, SepPool.forward pool (some p) junk x ax = (q, .ok y) ∧ SepPool.forward pool' (some p') junk' x ax = (q', .ok z) ∧
      EveryOf (strideAt (g.ops axes)) (centreAt (g.ops axes) x.shape) y z := by
  have hm' : PoolArgs.isMany { g with stride := .one (some 1) } = true → axes.length = m := by
    intro h
    have h : (g.kernel.isMany || false) = true := h
    rw [Bool.or_false] at h
    exact hm (by rw [PoolArgs.isMany, h]; rfl)
  refine ⟨_, _, _, _, hb.poolIs.1.forward_same hc hm hp junk, (Built.filter hb hf).poolIs.1.forward_same hc' hm' hp' junk', ?_⟩
  have hw : ∀ i (h : i < axes.length), (sameSetting g gp x.shape axes i).Wider (sameSetting { g with stride := .one (some 1) } gp x.shape axes i) := by
    intro i hi
    have := samePair_le (g.op axes i).kernel.length (hc.stride i hi) (hc.pos _ (getD_mem_lt hi))
    exact ⟨this.1, this.2, rfl, rfl, rfl, hr i hi⟩
  have hpart : PartOf (centreAt (g.ops axes) x.shape) (padSeq x (sameOps g gp x.shape axes))
      (padSeq x (sameOps { g with stride := .one (some 1) } gp x.shape axes)) := by
    have := padSeq_partOf (axes := axes) (ss := (List.range axes.length).map (gp.withWidths (g.widths x.shape axes)).entry)
      (ss' := (List.range axes.length).map (gp.withWidths (PoolArgs.widths { g with stride := .one (some 1) } x.shape axes)).entry) (y := x) (z := x)
      (off := fun _ => 0) (by simp) (by simp) (by
        intro j h1 h2
        have hj : j < axes.length := by simpa using h1
        simp only [List.getElem_map, List.getElem_range, withWidths_entry _ _ _ _ hj]
        exact hw j hj)
      (fun ix hix => by rw [further_zero (fun _ => rfl)]; exact ⟨hix, rfl⟩) rfl
      (fun d hd => ⟨(checkAxes_spec hc.axes_eq).2 _ hd, rfl, rfl⟩) hc.nodup (by
        intro o ho hz
        refine ⟨(hc'.valued o ho hz).1, ?_⟩
        obtain ⟨i, hi, rfl⟩ := sameOps_mem (g := { g with stride := .one (some 1) }) ho
        exact hc.pos _ (getD_mem_lt hi))
    simp only [Nat.zero_add] at this
    have e : (fun k => beforeAt (axes.zip ((List.range axes.length).map (gp.withWidths (PoolArgs.widths { g with stride := .one (some 1) } x.shape axes)).entry)) k -
        beforeAt (axes.zip ((List.range axes.length).map (gp.withWidths (g.widths x.shape axes)).entry)) k) = centreAt (g.ops axes) x.shape := by
      funext k
      exact centre_offset hc.nodup k
    rwa [e] at this
  have hP := hc.poolOps
  have key := poolSeq_every (ops := g.ops axes) (st := fun _ => 1) (off := centreAt (g.ops axes) x.shape)
    (fun ix hix => by rw [spread_one (fun _ => rfl)]; exact hpart ix hix) (by rw [padSeq_ndim', padSeq_ndim']) hP.nodup
    (fun o ho hk => ⟨hP.axis o ho hk, hP.stride o ho hk, rfl⟩)
  simp only [Nat.one_mul] at key
  rw [filter_ops]
  exact key

/-- **C119.** Averaging blocks which cover the image keeps the mean brightness, and does not increase the mean squared error of two images. -/
theorem C119_blocks (hb : Built pool g m) (hax : axesOf x.ndim ax = some axes) (hm : g.isMany = true → axes.length = m) (hnd : axes.Nodup)
    (hB : ∀ o ∈ g.ops axes, o.kernel = [] ∨ Blocks x.shape o) (hy : y.shape = x.shape) (junk junk' : List Nat → α) :
    ∃ z z' e e', SepPool.forward pool none junk x ax = (none, .ok z) ∧ SepPool.forward pool none junk' y ax = (none, .ok z') ∧
      Spec.mean z.data = Spec.mean x.data ∧ mse .mean x y .none = .ok (Tensor.scalar e) ∧ mse .mean z z' .none = .ok (Tensor.scalar e') ∧ e' ≤ e := by
  have hdup : ((g.ops axes).map (·.axis)).Nodup := by rw [ops_axis]; exact hnd
  have hB' : ∀ o ∈ g.ops axes, o.kernel = [] ∨ Blocks y.shape o := by rw [hy]; exact hB
  obtain ⟨h1, h2, h3⟩ := poolSeq_blocks hy hdup hB
  have e1 := (C55_total (x := x) (y := y) hy.symm).2
  have e2 := (C55_total h1.symm).2
  refine ⟨_, _, _, _, hb.poolIs.1.forward_none hax hm (blocks_poolOps hdup hB).fitting junk,
    hb.poolIs.1.forward_none (by rw [ndim, hy, ← ndim]; exact hax) hm (blocks_poolOps hdup hB').fitting junk', h2, e1, e2, ?_⟩
  rw [Spec.mean, Spec.mean, List.length_map, List.length_map, indices_length, indices_length] at h3
  exact h3

/-- **C119**, MS-SSIM: halving images of even sizes keeps their mean brightness and does not increase their mean squared error. -/
theorem C119_downsample (hnd : axes.Nodup) (hlt : ∀ a ∈ axes, a < x.ndim) (hev : ∀ a ∈ axes, ∃ c, 0 < c ∧ x.shape.getD a 0 = c * 2)
    (hy : y.shape = x.shape) (junk junk' : List Nat → α) :
    ∃ z z' e e', SSIM.downsample junk x (castV axes) = .ok z ∧ SSIM.downsample junk' y (castV axes) = .ok z' ∧
      Spec.mean z.data = Spec.mean x.data ∧ mse .mean x y .none = .ok (Tensor.scalar e) ∧ mse .mean z z' .none = .ok (Tensor.scalar e') ∧ e' ≤ e := by
  have h2 : ∀ a ∈ axes, 2 ≤ x.shape.getD a 0 := by
    intro a ha
    obtain ⟨c, h1, h2⟩ := hev a ha
    omega
  have hB : ∀ o ∈ (halver (α := α)).ops axes, o.kernel = [] ∨ Blocks x.shape o := by
    intro o ho
    obtain ⟨i, hi, rfl⟩ := mem_ops.1 ho
    obtain ⟨c, hc, e⟩ := hev _ (getD_mem_lt hi)
    exact .inr ⟨hlt _ (getD_mem_lt hi), 2, c, by decide, hc, by simp [halver_op, List.replicate], rfl, e⟩
  have hdup : (((halver (α := α)).ops axes).map (·.axis)).Nodup := by rw [ops_axis]; exact hnd
  obtain ⟨q1, q2, q3⟩ := poolSeq_blocks hy hdup hB
  refine ⟨_, _, _, _, downsample_eq hnd hlt h2 junk, downsample_eq hnd (by rw [ndim, hy, ← ndim]; exact hlt) (by rw [hy]; exact h2) junk', q2,
    (C55_total (x := x) (y := y) hy.symm).2, (C55_total q1.symm).2, ?_⟩
  rw [Spec.mean, Spec.mean, List.length_map, List.length_map, indices_length, indices_length] at q3
  exact q3

end

namespace StridesExample
open SsimExample

/-- a module with the given stride along the axis, and the same module after `to_filter` -/
def run (w : List ℚ) (s : Option Nat) (pad : Option (Padder ℚ)) (x : Tensor ℚ) : Option (List ℚ × List ℚ) := do
  let pool ← (SepPool.init (PoolArgs.pyKernel w) (PoolArgs.pyStride s)).toOption
  let pool' ← pool.toFilter.toOption
  let y ← (SepPool.forward pool pad (fun _ => 7) x .none).2.toOption
  let z ← (SepPool.forward pool' pad (fun _ => 7) x .none).2.toOption
  some (y.data, z.data)

/-- without padding: entries 0 and 2 -/
example : run [1, 2, 3] (some 2) none (sig [1, 2, 4, 8, 16, 32]) = some ([17, 68], [17, 34, 68, 136]) := by decide +kernel

/-- with same padding: a kernel of three samples at distance three on six samples is centred at 1 and 4 -/
example : run [1, 2, 3] (some 3) (some ((args .circular).padder 1)) (sig [1, 2, 4, 8, 16, 32]) = some ([17, 136], [40, 17, 34, 68, 136, 83]) ∧
    centreAt ((⟨.one [1, 2, 3], .one (some 3)⟩ : PoolArgs ℚ).ops [0]) [6] 0 = 1 ∧ strideAt ((⟨.one [1, 2, 3], .one (some 3)⟩ : PoolArgs ℚ).ops [0]) 0 = 3 := by
  decide +kernel

theorem sameCall_ring (s : Nat) (hs : 0 < s) : SameCall (⟨.one [1, 2, 3], .one (some s)⟩ : PoolArgs ℚ) (args .circular) (sig [1, 2, 4, 8, 16, 32]) .none [0] where
  axes_eq := by decide
  ne := by decide
  nodup := by decide
  fits := by intro h; cases h
  rest := ⟨trivial, trivial, trivial, trivial⟩
  stride := by intro i _; exact hs
  pos := by decide
  valued := by
    intro o ho _
    obtain ⟨i, _, rfl⟩ := sameOps_mem ho
    exact ⟨by simp [sameSetting, AxisPad.rule?, args, Given.entry], by simp [sameSetting, args, Given.entry]⟩

/-- the hypotheses hold for this kernel at any distance -/
example (s : Nat) (hs : 0 < s) {pool pool' : SepPool ℚ} (e : SepPool.init (PoolArgs.pyKernel [1, 2, 3]) (PoolArgs.pyStride (some s)) = .ok pool)
    (hf : pool.toFilter = .ok pool') (junk junk' : List Nat → ℚ) :
    ∃ q q' y z, SepPool.forward pool (some ((args .circular).padder 1)) junk (sig [1, 2, 4, 8, 16, 32]) .none = (q, .ok y) ∧
      SepPool.forward pool' (some ((args .circular).padder 1)) junk' (sig [1, 2, 4, 8, 16, 32]) .none = (q', .ok z) ∧
      EveryOf (strideAt ((⟨.one [1, 2, 3], .one (some s)⟩ : PoolArgs ℚ).ops [0])) (centreAt ((⟨.one [1, 2, 3], .one (some s)⟩ : PoolArgs ℚ).ops [0]) [6]) y z :=
  C119_same (g := ⟨.one [1, 2, 3], .one (some s)⟩) (m := 1) (.separable (by decide) ⟨trivial, trivial⟩ (by
    intro t ht
    simp only [Given.values, List.mem_singleton] at ht
    rw [ht]; simp; omega) e) hf (sameCall_ring s hs) (sameCall_ring 1 Nat.one_pos) (fun h => nomatch h) (holds_padder _ 1) (holds_padder _ 1) (by
      intro i _; simp [args, Given.entry]) junk junk'

/-- blocks of 2×3 samples of an image of 4×6 -/
example {x y : Tensor ℚ} (hx : x.shape = [4, 6]) (hy : y.shape = x.shape) (junk junk' : List Nat → ℚ) :
    ∃ pool : SepPool ℚ, SepPool.avgInit (.seq [.leaf (some 2), .leaf (some 3)]) (.leaf none) = .ok pool ∧
    ∃ z z' e e', SepPool.forward pool none junk x .none = (none, .ok z) ∧ SepPool.forward pool none junk' y .none = (none, .ok z') ∧
      Spec.mean z.data = Spec.mean x.data ∧ mse .mean x y .none = .ok (Tensor.scalar e) ∧ mse .mean z z' .none = .ok (Tensor.scalar e') ∧ e' ≤ e := by
  obtain ⟨pool, e, h⟩ := C90_built (α := ℚ) (k := .many [2, 3]) (m := 2) (by decide) rfl
  refine ⟨pool, e, C119_blocks (axes := [0, 1]) h (by simp only [ndim, hx]; decide) (fun _ => rfl) (by decide) ?_ hy junk junk'⟩
  intro o ho
  obtain ⟨i, hi, rfl⟩ := mem_ops.1 ho
  have hi : i < 2 := hi
  rw [hx]
  interval_cases i
  · exact .inr ⟨by decide, 2, 2, by decide, by decide, by decide +kernel, rfl, rfl⟩
  · exact .inr ⟨by decide, 3, 2, by decide, by decide, by decide +kernel, rfl, rfl⟩

end StridesExample

open StridesExample SsimExample in
/-- **C119**, ramps are excluded: they are shorter when less is padded. -/
theorem C119_ramps_differ : run [1, 0, 0, 0] (some 3) (some ((args .linearRamp).padder 1)) (sig [4, 4, 4]) = some ([0], [0, 2, 4]) ∧
    centreAt ((⟨.one [1, 0, 0, 0], .one (some 3)⟩ : PoolArgs ℚ).ops [0]) [3] 0 = 1 := by decide +kernel

open SsimExample in
/-- **C119**, the blocks must cover the image: halving three samples forgets the last one. -/
theorem C119_blocks_conditions : (SSIM.downsample (fun _ => 0) (sig [0, 0, 3]) [0]).map (fun z => z.data) = .ok [0] ∧ Spec.mean (sig [0, 0, 3]).data = 1 ∧
    (SSIM.downsample (fun _ => 0) (sig [3, 3, 0]) [0]).map (fun z => z.data) = .ok [3] := by decide +kernel

end TI
