import Verif.Proofs.Roll
import Verif.Props.Axiswise
import Verif.Props.FlipMetrics
import Verif.Props.Grey

/-!
# Filters on a ring (C104)
-/

set_option linter.unusedSectionVars false

namespace TI
open Tensor Spec

section
variable {α : Type} [Field α] [LinearOrder α] [IsStrictOrderedRing α]
variable {pool : SepPool α} {g : PoolArgs α} {m : Nat} {gp : PadArgs α} {p : Padder α} {x y : Tensor α} {ax : Axes} {axes : List Nat} {i d : Nat}

theorem same_widths_one (hs : (g.op axes i).stride = 1) :
    (sameSetting g gp x.shape axes i).before + (sameSetting g gp x.shape axes i).after = (g.op axes i).kernel.length - 1 := by
  simp only [sameSetting, PoolArgs.samePair, hs]
  rw [sameTotal_one]
  omega

theorem same_rolled (hc : SameCall g gp x ax axes) (hi : i < axes.length) (hmode : gp.mode.entry .unknown i = .circular)
    (hs : (g.op axes i).stride = 1) : poolSeq (padSeq (rolled (axes.getD i 0) d x) (sameOps g gp x.shape axes)) (g.ops axes) =
      rolled (axes.getD i 0) d (poolSeq (padSeq x (sameOps g gp x.shape axes)) (g.ops axes)) := by
  have hO : g.op axes i ∈ g.ops axes := mem_ops.2 ⟨i, hi, rfl⟩
  obtain ⟨P₁, P₂, eP⟩ := List.append_of_mem (mem_sameOps (g := g) (gp := gp) (shape := x.shape) hi)
  obtain ⟨O₁, O₂, eO⟩ := List.append_of_mem hO
  have hw := same_widths_one (gp := gp) (x := x) hs
  have hlt := hc.lt
  have hst : ∀ o ∈ g.ops axes, o.kernel ≠ [] → o.axis < x.ndim ∧ 0 < o.stride := by
    intro o ho _
    obtain ⟨j, hj, rfl⟩ := mem_ops.1 ho
    exact ⟨hc.lt _ (mem_sameOps hj), hc.stride j hj⟩
  have hpos : ∀ o ∈ sameOps g gp x.shape axes, 0 < x.shape.getD o.1 0 := by
    intro o ho
    obtain ⟨j, hj, rfl⟩ := sameOps_mem ho
    exact hc.pos _ (by simp [hj])
  have hndP := sameOps_fst g gp x.shape axes
  have hndO := ops_axis g axes
  have hn1 := hc.nodup
  rw [eP] at hlt hpos hndP ⊢
  rw [eO] at hst hndO ⊢
  have hopx : g.op axes i = ⟨axes.getD i 0, (g.op axes i).kernel, 1⟩ := by rw [← hs]; rfl
  have hn2 := hn1
  rw [← hndP] at hn1
  rw [← hndO] at hn2
  simp only [List.map_append, List.map_cons] at hn1 hn2
  rw [List.nodup_middle, List.nodup_cons] at hn1 hn2
  simp only [List.mem_append, not_or] at hn1 hn2
  rw [hopx]
  refine around_rolled (hlt (axes.getD i 0, sameSetting g gp x.shape axes i) (by simp)) (hpos (axes.getD i 0, sameSetting g gp x.shape axes i) (by simp)) hmode hw
    (fun o ho e => hn1.1.1 (e ▸ List.mem_map_of_mem ho)) (fun o ho e => hn1.1.2 (e ▸ List.mem_map_of_mem ho)) hn1.2 ?_
    (fun o ho e => hn2.1.1 (by rw [show (g.op axes i).axis = o.axis from e.symm]; exact List.mem_map_of_mem (f := (·.axis)) ho))
    (fun o ho e => hn2.1.2 (by rw [show (g.op axes i).axis = o.axis from e.symm]; exact List.mem_map_of_mem (f := (·.axis)) ho)) ?_
  · intro o ho
    apply hpos
    simp only [List.mem_append, List.mem_cons] at ho ⊢
    tauto
  · intro o ho
    apply hst
    simp only [List.mem_append, List.mem_cons] at ho ⊢
    tauto

/-- **C104**: if the padding of an axis is circular and its stride is one, moving the image around that axis moves the pooled image by as many
positions, whatever happens on the other axes. -/
theorem C104_roll (hb : Built pool g m) (hm : g.isMany = true → axes.length = m) (hc : SameCall g gp x ax axes) (hp : Holds p gp)
    (hi : i < axes.length) (hmode : gp.mode.entry .unknown i = .circular) (hs : (g.op axes i).stride = 1) (d : Nat) (junk junk' : List Nat → α) :
    ∃ q z, SepPool.forward pool (some p) junk x ax = (q, .ok z) ∧
      SepPool.forward pool (some p) junk' (rolled (axes.getD i 0) d x) ax = (q, .ok (rolled (axes.getD i 0) d z)) := by
  refine ⟨_, _, hb.poolIs.1.forward_same hc hm hp junk, ?_⟩
  rw [hb.poolIs.1.forward_same (hc.congr (rolled_shape _ d x)) hm hp junk', rolled_shape, same_rolled hc hi hmode hs]

/-! ## sums -/

theorem sameEach_sum : ∀ {l : List (PoolOp α × (Nat × AxisPad α))} {x : Tensor α}, (∀ q ∈ l, q.1.axis = q.2.1 ∧ q.1.stride = 1 ∧
    q.2.2.mode = .circular ∧ q.2.2.before + q.2.2.after = q.1.kernel.length - 1 ∧ q.2.1 < x.ndim ∧ 0 < x.shape.getD q.2.1 0) →
    (sameEach x l).shape = x.shape ∧ (sameEach x l).data.sum = totalWeight (l.map Prod.fst) * x.data.sum
  | [], x, _ => by simp [sameEach, totalWeight]
  | q :: l, x, h => by
    obtain ⟨h1, h2, h3, h4, h5, h6⟩ := h q (by simp)
    have e : sameStep x q = ring q.2.1 q.1.kernel q.2.2.before x := by
      obtain ⟨⟨a, w, t⟩, b, s⟩ := q
      simp only at h1 h2 h3 h4 h5 h6
      subst h1
      subst h2
      rw [sameStep]
      simp only
      rw [padStep_circular h5 h3, slide_ring h5 h6 h4]
    have es : (ring q.2.1 q.1.kernel q.2.2.before x).shape = x.shape := ring_shape
    obtain ⟨i1, i2⟩ := sameEach_sum (l := l) (x := ring q.2.1 q.1.kernel q.2.2.before x) (by
      intro r hr
      rw [ndim, es]
      exact h r (by simp [hr]))
    have e' : sameEach x (q :: l) = sameEach (ring q.2.1 q.1.kernel q.2.2.before x) l := by rw [← e]; rfl
    rw [e', i1, i2, ring_sum h5]
    refine ⟨es, ?_⟩
    rw [totalWeight, totalWeight, List.map_cons, List.map_cons, List.prod_cons]
    ring

/-- **C104**: if all paddings are circular and all strides are one, the sum over the pooled image is the sum over the image times the product
of the total weights of the kernels.  With average kernels the mean is kept. -/
theorem C104_mass (hb : Built pool g m) (hm : g.isMany = true → axes.length = m) (hc : SameCall g gp x ax axes) (hp : Holds p gp)
    (hmode : ∀ i < axes.length, gp.mode.entry .unknown i = .circular) (hs : ∀ i < axes.length, (g.op axes i).stride = 1) (junk : List Nat → α) :
    ∃ q z, SepPool.forward pool (some p) junk x ax = (q, .ok z) ∧ z.shape = x.shape ∧ z.data.sum = totalWeight (g.ops axes) * x.data.sum := by
  have hl : ∀ o ∈ g.ops axes, ∀ q ∈ sameOps g gp x.shape axes, Passes o q.2 := by
    intro o _ q hq
    obtain ⟨i, hi, rfl⟩ := sameOps_mem hq
    left
    simp only [AxisPad.Linear, sameSetting, hmode i hi]
  have hz : ((g.ops axes).zip (sameOps g gp x.shape axes)).map Prod.fst = g.ops axes := List.map_fst_zip (by simp [PoolArgs.ops, sameOps_length])
  obtain ⟨h1, h2⟩ := sameEach_sum (x := x) (l := (g.ops axes).zip (sameOps g gp x.shape axes)) (by
    intro q hq
    obtain ⟨i, hi, rfl⟩ := List.mem_iff_getElem.1 hq
    have hi' : i < axes.length := by simpa [PoolArgs.ops, sameOps_length] using hi
    have e1 : ((g.ops axes).zip (sameOps g gp x.shape axes))[i] = (g.op axes i, axes.getD i 0, sameSetting g gp x.shape axes i) := by
      simp [PoolArgs.ops, sameOps, withWidths_entry _ _ _ _ hi', hi']
    rw [e1]
    exact ⟨rfl, hs i hi', hmode i hi', same_widths_one (hs i hi'), hc.lt _ (mem_sameOps hi'), hc.pos _ (by simp [hi'])⟩)
  rw [hz] at h2
  refine ⟨_, _, hb.poolIs.1.forward_same hc hm hp junk, ?_⟩
  rw [poolSeq_each (hc.eachOK hl)]
  exact ⟨h1, h2⟩

/-! ## metrics -/

variable {rax : Axes} {raxes : List Nat} {a : Nat}

/-- **C104**: moving both images around a reduced axis does not change the squared error; without reduction the error moves as well. -/
theorem C104_mse (h : x.shape = y.shape) (hax : axesOf x.ndim ax = some axes) (hnd : axes.Nodup) (ha : a ∈ reducedAxes x.ndim axes) (d : Nat) :
    mse .mean (rolled a d x) (rolled a d y) ax = mse .mean x y ax ∧ mse .sum (rolled a d x) (rolled a d y) ax = mse .sum x y ax ∧
    ∃ e, mse .none x y ax = .ok e ∧ mse .none (rolled a d x) (rolled a d y) ax = .ok (rolled a d e) := by
  have key : ∀ jx, ((collected x.shape (reducedAxes x.ndim axes) jx).map fun ix => ((rolled a d x).get ix - (rolled a d y).get ix) ^ 2).Perm
      ((collected x.shape (reducedAxes x.ndim axes) jx).map fun ix => (x.get ix - y.get ix) ^ 2) := by
    intro jx
    have e1 : (collected x.shape (reducedAxes x.ndim axes) jx).map (fun ix => ((rolled a d x).get ix - (rolled a d y).get ix) ^ 2) =
        (collected x.shape (reducedAxes x.ndim axes) jx).map (rolled a d (squaredError x y)).get := by
      apply List.map_congr_left
      intro ix hix
      rw [← squaredError_roll h, squaredError, get_ofFn (show InB (rolled a d x).shape ix from (mem_collected.1 hix).1)]
    have e2 : (collected x.shape (reducedAxes x.ndim axes) jx).map (fun ix => (x.get ix - y.get ix) ^ 2) =
        (collected x.shape (reducedAxes x.ndim axes) jx).map (squaredError x y).get := by
      apply List.map_congr_left
      intro ix hix
      rw [squaredError, get_ofFn (mem_collected.1 hix).1]
    rw [e1, e2]
    exact rolled_collected (x := squaredError x y) ha jx
  have h' : (rolled a d x).shape = (rolled a d y).shape := h
  refine ⟨?_, ?_, _, C55_none h hax, ?_⟩
  · rw [C55_mean h hax hnd, C55_mean (x := rolled a d x) h' hax hnd]
    congr 1
    apply ofFn_congr
    intro jx _
    exact mean_perm (key jx)
  · rw [C55_sum h hax hnd, C55_sum (x := rolled a d x) h' hax hnd]
    congr 1
    apply ofFn_congr
    intro jx _
    exact (key jx).sum_eq
  · rw [C55_none (x := rolled a d x) h' hax]
    exact congrArg Except.ok (squaredError_roll h)

/-- **C104**: with a circular padder on one axis, moving both images around that axis moves the SSIM map, and keeps the score if the axis is
reduced. -/
theorem C104_ssim {s : SSIM α} {k1 k2 : α} {sc : Bool} {y1 y2 : Tensor α} (hi : SSIM.init pool false k1 k2 sc false = .ok s) (hb : Built pool g m)
    (hm : g.kernel.isMany = true → axes.length = m) (hc : SameCall (PoolArgs.filter g.kernel) gp y1 ax axes) (hp : Holds p gp)
    (hN : sc = true → windowSize g.kernel axes.length ≠ 1) (h12 : y2.shape = y1.shape) (hr : axesOf y1.ndim rax = some raxes) (hrn : raxes.Nodup)
    (hil : i < axes.length) (hmode : gp.mode.entry .unknown i = .circular) (hd : axes.getD i 0 ∈ reducedAxes y1.ndim raxes) (d : Nat)
    (junk junk' : List Nat → α) :
    ∃ q score full, s.forward junk y1 y2 ax rax (some p) = (q, .ok (score, full)) ∧
      s.forward junk' (rolled (axes.getD i 0) d y1) (rolled (axes.getD i 0) d y2) ax rax (some p) =
        (q, .ok (score, rolled (axes.getD i 0) d full)) := by
  have h : BlurCall g.kernel (some gp) y1 ax axes (some p) := ⟨⟨p, rfl, hp⟩, hc⟩
  have h' : BlurCall g.kernel (some gp) (rolled (axes.getD i 0) d y1) ax axes (some p) := ⟨⟨p, rfl, hp⟩, hc.congr (rolled_shape _ d y1)⟩
  refine ⟨_, _, _, C79_formula hi hb hm h hN h12 hr hrn (.inl rfl) junk, ?_⟩
  rw [C79_formula hi hb hm h' hN (show (rolled (axes.getD i 0) d y2).shape = (rolled (axes.getD i 0) d y1).shape from h12)
    (show axesOf (rolled (axes.getD i 0) d y1).ndim rax = some raxes from hr) hrn (.inl rfl) junk']
  have e : ssimMap k1 k2 (covFactor sc (windowSize g.kernel axes.length)) (blurred g.kernel (some gp) axes) (rolled (axes.getD i 0) d y1)
      (rolled (axes.getD i 0) d y2) =
      rolled (axes.getD i 0) d (ssimMap k1 k2 (covFactor sc (windowSize g.kernel axes.length)) (blurred g.kernel (some gp) axes) y1 y2) := by
    refine pointMap_roll (ssimIndex (k1 ^ 2) (k2 ^ 2) (covFactor (α := α) sc (windowSize g.kernel axes.length))) h12 (fun z hz => blurred_congr h hz) ?_
    intro z hz
    exact same_rolled (hc.congr hz) hil hmode rfl
  have hn : (ssimMap k1 k2 (covFactor sc (windowSize g.kernel axes.length)) (blurred g.kernel (some gp) axes) y1 y2).ndim = y1.ndim := by
    show (blurred g.kernel (some gp) axes y1).ndim = y1.ndim
    rw [blurred, filtered, poolSeq_ndim, padSeq_ndim h.2.opsOK]
  rw [e, meanOver_roll (by rw [hn]; exact hd)]
  rfl

end

namespace RollExample
open SsimExample

/-- `SeparablePoolNd([1, 2, 4], 1)` with circular padding -/
def run (x : Tensor ℚ) : Option (List ℚ) := do
  let pool ← (SepPool.init (PoolArgs.pyKernel [1, 2, 4]) (PoolArgs.pyStride (some 1))).toOption
  let y ← (SepPool.forward pool (some ((args .circular).padder 1)) (fun _ => 7) x .none).2.toOption
  some y.data

/-- weights 1, 2, 4 on a ring of four samples: moving by one sample; the sum 15 becomes 7 · 15 -/
example : run (sig [1, 2, 4, 8]) = some [18, 21, 42, 24] ∧ rolled 0 1 (sig [1, 2, 4, 8]) = sig [2, 4, 8, 1] ∧
    run (sig [2, 4, 8, 1]) = some [21, 42, 24, 18] ∧ (18 + 21 + 42 + 24 : ℚ) = 7 * 15 := by decide +kernel

theorem sameCall_ring : SameCall (PoolArgs.filter (.one (avgKernel (α := ℚ) 3))) (args .circular) (sig [1, 2, 4, 8]) .none [0] where
  axes_eq := by decide
  ne := by decide
  nodup := by decide
  fits := by intro h; cases h
  rest := ⟨trivial, trivial, trivial, trivial⟩
  stride := by intro i _; exact Nat.one_pos
  pos := by decide
  valued := by
    intro o ho _
    obtain ⟨i, _, rfl⟩ := sameOps_mem ho
    exact ⟨by simp [sameSetting, AxisPad.rule?, args, Given.entry], by simp [sameSetting, args, Given.entry]⟩

/-- the hypotheses hold for averages of three samples on a ring of four samples -/
example (d : Nat) (junk junk' : List Nat → ℚ) : ∃ pool : SepPool ℚ, SepPool.avgInit (.leaf (some 3)) (.leaf (some 1)) = .ok pool ∧
    (∃ q z, SepPool.forward pool (some ((args .circular).padder 1)) junk (sig [1, 2, 4, 8]) .none = (q, .ok z) ∧
      SepPool.forward pool (some ((args .circular).padder 1)) junk' (rolled 0 d (sig [1, 2, 4, 8])) .none = (q, .ok (rolled 0 d z))) ∧
    ∃ q z, SepPool.forward pool (some ((args .circular).padder 1)) junk (sig [1, 2, 4, 8]) .none = (q, .ok z) ∧ z.shape = [4] ∧ z.data.sum = 15 := by
  obtain ⟨pool, h1, h2, _⟩ := C34_average_kernels (α := ℚ) (size := .one 3) (st := .one (some 1)) (m := 1) (by decide) trivial trivial
    (by intro s hs; simp [Given.values] at hs; simp [hs])
  refine ⟨pool, h1, C104_roll h2 (by intro h; cases h) sameCall_ring (holds_padder _ 1) (i := 0) (by decide) rfl rfl d junk junk', ?_⟩
  obtain ⟨q, z, e1, e2, e3⟩ := C104_mass h2 (by intro h; cases h) sameCall_ring (holds_padder _ 1) (fun _ _ => rfl) (fun _ _ => rfl) junk
  refine ⟨q, z, e1, e2, ?_⟩
  rw [e3]
  decide +kernel

end RollExample

end TI
