import Verif.Proofs.RoundingMore
import Verif.Props.Rounding
import Verif.Props.Sharpen
import Verif.Props.EdgeChange
import Verif.Spec.SharpenSym

/-!
# Rounding errors of unsharp masking and of edge filters: C141
-/

set_option linter.unusedSectionVars false

namespace TI
open Tensor Spec

section
variable {α : Type} [Field α] [LinearOrder α] [IsStrictOrderedRing α] {u : α} {dot dot' : Nat → List Nat → List α → List α → α}
variable {pool : SepPool α} {q : PoolArgs α} {m : Nat} {gp : PadArgs α} {p : Padder α} {x y : Tensor α}
variable {ax : Axes} {axes : List Nat} {add sub : α → α → α} {scale twice : α → α}

theorem bop_kind {f h : α → α → α} {x y x' y' : Tensor α} (hx : x'.shape = x.shape) (hy : y'.shape = y.shape) : SameKind (bop f x' y') (bop h x y) := by
  rw [bop, bop, hx, hy]
  cases bshape x.shape y.shape with
  | none => exact rfl
  | some s => exact rfl

theorem sameKind_of {r r' : Except Err (Tensor α)} (h : (∀ e, r' = .error e ↔ r = .error e) ∧ ∀ z' z, r' = .ok z' → r = .ok z → z'.shape = z.shape) : SameKind r' r := by
  cases r' with
  | error e => rw [(h.1 e).1 rfl]; exact rfl
  | ok z' =>
    cases r with
    | error e => cases (h.1 e).2 rfl
    | ok z => exact h.2 z' z rfl rfl

theorem sameKind_out {r r' : Except Err (Tensor α)} (h : SameKind r' r) :
    (∀ e, r' = .error e ↔ r = .error e) ∧ ∀ z' z, r' = .ok z' → r = .ok z → z'.shape = z.shape := by
  cases r' with
  | error e' =>
    cases r with
    | error e =>
      obtain rfl : e' = e := h
      exact ⟨fun _ => Iff.rfl, fun z' z h => by cases h⟩
    | ok z => exact absurd h (by simp [SameKind])
  | ok z' =>
    cases r with
    | error e => exact absurd h (by simp [SameKind])
    | ok z =>
      refine ⟨fun e => Iff.intro (fun h => nomatch h) (fun h => nomatch h), fun a b e1 e2 => ?_⟩
      cases e1
      cases e2
      exact h

theorem forwardWith_kind (dot : Nat → List Nat → List α → List α → α) (pool : SepPool α) (padder : Option (Padder α)) (junk : List Nat → α) (x : Tensor α)
    (ax : Axes) : (SepPool.forwardWith dot pool padder junk x ax).1 = (SepPool.forward pool padder junk x ax).1 ∧
      SameKind (SepPool.forwardWith dot pool padder junk x ax).2 (SepPool.forward pool padder junk x ax).2 :=
  have h := C130_outcome dot pool padder junk x ax
  ⟨h.1, sameKind_of h.2⟩

/-- **C141**, unsharp masking: whatever the arithmetic, the same exception or a result of the same shape, and the same state of the padder. -/
theorem C141_sharpen_outcome (dot : Nat → List Nat → List α → List α → α) (add sub : α → α → α) (scale : α → α) (k : UnsharpMask α) (padder : Option (Padder α))
    (junk : List Nat → α) (x : Tensor α) (ax : Axes) :
    (k.forwardRounded dot add sub scale padder junk x ax).1 = (k.forward padder junk x ax).1 ∧
      (∀ e, (k.forwardRounded dot add sub scale padder junk x ax).2 = .error e ↔ (k.forward padder junk x ax).2 = .error e) ∧
      ∀ z' z, (k.forwardRounded dot add sub scale padder junk x ax).2 = .ok z' → (k.forward padder junk x ax).2 = .ok z → z'.shape = z.shape := by
  have key : (k.forwardRounded dot add sub scale padder junk x ax).1 = (k.forward padder junk x ax).1 ∧
      SameKind (k.forwardRounded dot add sub scale padder junk x ax).2 (k.forward padder junk x ax).2 := by
    rw [UnsharpMask.forwardRounded, UnsharpMask.forward, UnsharpMask.forwardWith]
    cases checkAxes x.ndim ax with
    | error e => exact ⟨rfl, rfl⟩
    | ok axes =>
      simp only
      obtain ⟨h1, h2⟩ := forwardWith_kind dot k.blur padder junk x (.seq axes)
      obtain ⟨⟨p', r'⟩, hr'⟩ : ∃ z, k.blur.forwardWith dot padder junk x (.seq axes) = z := ⟨_, rfl⟩
      obtain ⟨⟨p, r⟩, hr⟩ : ∃ z, k.blur.forward padder junk x (.seq axes) = z := ⟨_, rfl⟩
      rw [hr, hr'] at h1 h2
      rw [hr, hr']
      obtain rfl : p' = p := h1
      cases r' with
      | error e' =>
        cases r with
        | error e =>
          obtain rfl : e' = e := h2
          exact ⟨rfl, rfl⟩
        | ok b => exact absurd h2 (by simp [SameKind])
      | ok b' =>
        cases r with
        | error e => exact absurd h2 (by simp [SameKind])
        | ok b =>
          refine ⟨rfl, ?_⟩
          have hb : b'.shape = b.shape := h2
          have h3 := bop_kind (f := sub) (h := fun u v : α => u - v) (x := x) (x' := x) rfl hb
          simp only
          generalize bop sub x b' = s' at *
          generalize bop (fun u v : α => u - v) x b = s at *
          cases s' with
          | error e' =>
            cases s with
            | error e => exact h3
            | ok b => exact absurd h3 (by simp [SameKind])
          | ok y' =>
            cases s with
            | error e => exact absurd h3 (by simp [SameKind])
            | ok y =>
              have h3 : y'.shape = y.shape := h3
              exact bop_kind rfl (by simp only [Tensor.map, dropSmall_shape, h3])
  exact ⟨key.1, sameKind_out key.2⟩

/-- **C141**: with exact operations it is the code of C45. -/
theorem C141_sharpen_exact (k : UnsharpMask α) (padder : Option (Padder α)) (junk : List Nat → α) (x : Tensor α) (ax : Axes) :
    k.forwardRounded (fun _ _ xs w => ((List.range w.length).map fun j => xs.getD j 0 * w.getD j 0).sum) (· + ·) (· - ·) (fun v => k.amount * v) padder junk x ax =
      k.forward padder junk x ax := by
  rw [UnsharpMask.forwardRounded, UnsharpMask.forward, UnsharpMask.forwardWith]
  simp only [C130_exact]
  cases checkAxes x.ndim ax with
  | error e => rfl
  | ok axes => rfl

/-- one sample of a sharpened image, before the threshold -/
theorem sharpen_near (hu : 0 ≤ u) {amount : α} (ho : AccurateSharpen u amount add sub scale) {n : Nat} {v b' b M : α} (h : Near1 (roundingBound u n) b' b M) :
    Near1 (roundingBound u (n + 1)) (sub v b') (v - b) (|v| + M) ∧
      Near1 (roundingBound u (n + 4)) (add v (scale (sub v b'))) (v + amount * (v - b)) (|v| + |amount| * (|v| + M)) := by
  have h0 := roundingBound_nonneg hu n
  have n1 : Near1 (roundingBound u (n + 1)) (sub v b') (v - b) (|v| + M) := by
    have := (((Near1.refl v).mono h0).sub h).round hu (ho.sub _ _)
    rwa [bound_step] at this
  refine ⟨n1, ?_⟩
  obtain ⟨c, c1, c2⟩ := ho.scale (sub v b')
  have n2 := (n1.mul hu c1).round hu c2
  rw [bound_step, bound_step] at n2
  have n3 := (((Near1.refl v).mono (roundingBound_nonneg hu (n + 1 + 1 + 1))).add n2).round hu (ho.add _ _)
  rwa [bound_step] at n3

theorem scale_zero (hu : 0 ≤ u) {amount : α} (ho : AccurateSharpen u amount add sub scale) : scale 0 = 0 := by
  obtain ⟨c, -, h⟩ := ho.scale 0
  rw [mul_zero, Rounds, abs_zero, mul_zero, sub_zero] at h
  exact abs_nonpos_iff.1 h

/-- one sample, with the threshold -/
theorem sharpen_sample (hu : 0 ≤ u) {amount t : α} (ho : AccurateSharpen u amount add sub scale) {n : Nat} {v b' b M : α} (h : Near1 (roundingBound u n) b' b M) :
    ((t ≤ 0 ∨ roundingBound u (n + 1) * (|v| + M) < |(|v - b|) - t|) →
      |add v (scale (if |sub v b'| < t then 0 else sub v b')) - sharpened amount t v b| ≤ roundingBound u (n + 4) * (|v| + |amount| * (|v| + M))) ∧
    |add v (scale (if |sub v b'| < t then 0 else sub v b')) - sharpened amount t v b| ≤
      roundingBound u (n + 4) * (|v| + |amount| * (|v| + M)) + |amount| * max t 0 := by
  obtain ⟨n1, n2⟩ := sharpen_near hu ho (v := v) h
  have hM : 0 ≤ M := h.nonneg
  have hS : 0 ≤ |v| + M := add_nonneg (abs_nonneg v) hM
  have ha : 0 ≤ |amount| := abs_nonneg _
  have ht : 0 ≤ |amount| * max t 0 := mul_nonneg ha (le_max_right _ _)
  have hz := scale_zero hu ho
  have hb1 : u ≤ roundingBound u (n + 4) := by
    have := bound_le hu (n := 1) (k := n + 4) (by omega)
    rwa [bound_one] at this
  have hb0 := roundingBound_nonneg hu (n + 4)
  have hadd : |add v 0 - v| ≤ u * |v| := by
    have := ho.add v 0
    rwa [add_zero] at this
  have hd : |(|sub v b'|) - (|v - b|)| ≤ roundingBound u (n + 1) * (|v| + M) := (abs_abs_sub_abs_le_abs_sub _ _).trans n1.err
  have hd' := abs_le.1 hd
  have h14 : roundingBound u (n + 1) ≤ roundingBound u (n + 4) := bound_le hu (by omega)
  have h15 := mul_le_mul_of_nonneg_right h14 (mul_nonneg ha hS)
  have h16 := mul_le_mul_of_nonneg_right hb1 (abs_nonneg v)
  have h17 := mul_nonneg hb0 (mul_nonneg ha hS)
  rw [sharpened]
  by_cases k1 : |v - b| < t
  · rw [if_pos k1]
    have ht0 : 0 < t := (abs_nonneg _).trans_lt k1
    by_cases k2 : |sub v b'| < t
    · rw [if_pos k2, hz]
      have : |add v 0 - v| ≤ roundingBound u (n + 4) * (|v| + |amount| * (|v| + M)) := by linarith
      exact ⟨fun _ => this, by linarith⟩
    · rw [if_neg k2]
      refine ⟨fun hh => ?_, ?_⟩
      · exfalso
        rcases hh with hh | hh
        · linarith
        · rw [abs_of_neg (show |v - b| - t < 0 by linarith)] at hh
          linarith
      · have e1 := n2.err
        have e2 : |amount * (v - b)| ≤ |amount| * max t 0 := by
          rw [abs_mul]
          exact mul_le_mul_of_nonneg_left (k1.le.trans (le_max_left _ _)) ha
        have e3 := abs_add_le (add v (scale (sub v b')) - (v + amount * (v - b))) (amount * (v - b))
        rw [show add v (scale (sub v b')) - (v + amount * (v - b)) + amount * (v - b) = add v (scale (sub v b')) - v by ring] at e3
        linarith
  · rw [if_neg k1]
    by_cases k2 : |sub v b'| < t
    · rw [if_pos k2, hz]
      have ht0 : 0 < t := (abs_nonneg _).trans_lt k2
      refine ⟨fun hh => ?_, ?_⟩
      · exfalso
        push Not at k1
        rcases hh with hh | hh
        · linarith
        · rw [abs_of_nonneg (show 0 ≤ |v - b| - t by linarith)] at hh
          linarith
      · have e2 : |amount * (v - b)| ≤ |amount| * (t + roundingBound u (n + 1) * (|v| + M)) := by
          rw [abs_mul]
          exact mul_le_mul_of_nonneg_left (by linarith) ha
        have e3 := abs_sub (add v 0 - v) (amount * (v - b))
        rw [show add v 0 - v - amount * (v - b) = add v 0 - (v + amount * (v - b)) by ring] at e3
        rw [max_eq_left ht0.le]
        have e4 : |amount| * (t + roundingBound u (n + 1) * (|v| + M)) = |amount| * t + roundingBound u (n + 1) * (|amount| * (|v| + M)) := by ring
        linarith
    · rw [if_neg k2]
      exact ⟨fun _ => n2.err, by linarith [n2.err]⟩

/-- **C141.** The error of unsharp masking with a same-padded blur, where every operation has a relative error of at most `u`: with `M` the absolute weights applied to
the absolute values of the padded image, every sample is off by at most `(1 + u)^(n + 4) - 1` times `|x| + |amount| (|x| + M)`, unless its difference to the
blurred image is as close to a positive threshold as rounding; then by at most the amount times the threshold more. -/
theorem C141_sharpen (hu : 0 ≤ u) (hd : AccurateDot u dot) (hb : Built pool q m) {amount threshold : α} {k : UnsharpMask α}
    (hk : UnsharpMask.init pool amount threshold = .ok k) (ho : AccurateSharpen u amount add sub scale) (h : SharpenCall q.kernel m gp x ax axes) (hp : Holds p gp)
    (junk : List Nat → α) :
    ∃ p' z z', k.forward (some p) junk x ax = (p', .ok z) ∧ k.forwardRounded dot add sub scale (some p) junk x ax = (p', .ok z') ∧ z.shape = x.shape ∧
      z'.shape = x.shape ∧ ∀ ix, InB x.shape ix →
        ∀ M, M = (magnitudeOf (padSeq x (sameOps (PoolArgs.filter q.kernel) gp x.shape axes)) ((PoolArgs.filter q.kernel).ops axes)).get ix →
        ∀ n, n = roundings ((PoolArgs.filter q.kernel).ops axes) →
        ((threshold ≤ 0 ∨ roundingBound u (n + 1) * (|x.get ix| + M) < |(|x.get ix - (filtered q.kernel gp x axes).get ix|) - threshold|) →
          |z'.get ix - z.get ix| ≤ roundingBound u (n + 4) * (|x.get ix| + |amount| * (|x.get ix| + M))) ∧
        |z'.get ix - z.get ix| ≤ roundingBound u (n + 4) * (|x.get ix| + |amount| * (|x.get ix| + M)) + |amount| * max threshold 0 := by
  obtain ⟨k0, e0, key⟩ := C45_pooling hb amount threshold
  rw [hk] at e0
  cases e0
  obtain ⟨p', z, q1, q2, q3⟩ := key h.axes_eq h.call h.many hp h.keep junk
  obtain ⟨pool', f1, f2⟩ := hb.poolIs.1.toFilter
  have f2 : PoolIs pool' (PoolArgs.filter q.kernel) m := f2
  have hk' : k = ⟨pool', amount, threshold⟩ := by
    rw [UnsharpMask.init, f1, ok_bind] at hk
    exact (Except.ok.inj hk).symm
  have hm' : (PoolArgs.filter q.kernel).isMany = true → axes.length = m := by
    intro hh
    apply h.many
    simpa [PoolArgs.filter, PoolArgs.isMany, Given.isMany] using hh
  have hw := f2.forwardWith_same (dot := dot) h.call hm' hp junk
  have hfw := f2.forward_same h.call hm' hp junk
  have hn := seqWith_near hu hd (padSeq x (sameOps (PoolArgs.filter q.kernel) gp x.shape axes)) ((PoolArgs.filter q.kernel).ops axes)
  set B' := seqWith dot 0 (padSeq x (sameOps (PoolArgs.filter q.kernel) gp x.shape axes)) ((PoolArgs.filter q.kernel).ops axes) with hB'
  have hBs : (filtered q.kernel gp x axes).shape = x.shape := by
    obtain ⟨p'', z'', r1, r2⟩ := C31_filter_shape_partial hb f1 h.call h.many hp h.keep junk
    rw [hfw] at r1
    simp only [Prod.mk.injEq, Except.ok.injEq] at r1
    rw [← r2, ← r1.2]
    rfl
  have hB's : B'.shape = x.shape := hn.shape.trans hBs
  have hp' : p' = some ((gp.withWidths ((PoolArgs.filter q.kernel).widths x.shape axes)).padder axes.length) := by
    have := congrArg Prod.fst q1
    rw [hk'] at this
    simp only [UnsharpMask.forward, UnsharpMask.forwardWith, (checkAxes_spec h.axes_eq).1, hfw] at this
    exact this.symm
  refine ⟨p', z, ofFn x.shape fun ix => add (x.get ix) (scale (if |sub (x.get ix) (B'.get ix)| < threshold then 0 else sub (x.get ix) (B'.get ix))), q1, ?_, q2, rfl, ?_⟩
  · rw [hk', hp']
    simp only [UnsharpMask.forwardRounded, (checkAxes_spec h.axes_eq).1, hw]
    rw [bop_same hB's.symm, ok_bind, bop_same (by simp [dropSmall_shape])]
    congr 2
    apply ofFn_congr
    intro ix hix
    have hdx : InB (UnsharpMask.dropSmall threshold (ofFn x.shape fun ix => sub (x.get ix) (B'.get ix))).shape ix := by
      rw [dropSmall_shape]
      exact hix
    rw [get_map _ _ hdx, dropSmall_get _ (by simpa using hix), get_ofFn hix]
  · rintro ix hix _ rfl _ rfl
    rw [get_ofFn hix, q3 ix hix]
    exact sharpen_sample hu ho (hn.one ix)

/-! ### edge filters -/

section
variable [FloorRing α] {f : EdgeFilter α} {w : List α} {g : Given (List α)} {ps : EdgePadders α} {a : Nat} {ea sa : Axes}

/-- **C141.** The error of a component of an edge filter where every operation has a relative error of at most `u` and the padder of the smoothing copies samples:
the roundings of the edge step and of the smoothing add up, and the scale is the absolute smoothing weights applied to the scale of the edge step.  For kernels taken
for `(-1, 0, 1)`, that is the smoothed absolute value of the difference itself. -/
theorem C141_component (hu : 0 ≤ u) (hd : AccurateDot u dot) (hd' : AccurateDot u dot') (ho : AccurateDiff u add sub twice) (hf : EdgeBuilt f w g m)
    (hps : HoldsBoth ps gp) (hea : axesOf x.ndim ea = some [a]) (hsa : axesOf x.ndim sa = some axes) (hc : EdgeCall (usedKernel w) g gp x axes a)
    (hm : g.isMany = true → (axes.filter fun b => b ≠ a).length = m)
    (hcp : ∀ o ∈ sameOps (PoolArgs.filter g) gp (filtered (.one (usedKernel w)) gp x [a]).shape (axes.filter fun b => b ≠ a), copies o.2.mode = true)
    (junk : List Nat → α) :
    ∃ ps' z', f.component ps junk x ea sa = (ps', .ok (edgeResponse (usedKernel w) g gp x axes a)) ∧
      f.componentWith dot dot' add sub twice ps junk x ea sa = (ps', .ok z') ∧ z'.shape = (edgeResponse (usedKernel w) g gp x axes a).shape ∧
      ∀ ix, |z'.get ix - (edgeResponse (usedKernel w) g gp x axes a).get ix| ≤
          roundingBound u (edgeRoundings w + roundings ((PoolArgs.filter g).ops (axes.filter fun b => b ≠ a))) *
            (filteredScale g gp (edgeScale w gp x a) (axes.filter fun b => b ≠ a)).get ix ∧
        |(edgeResponse (usedKernel w) g gp x axes a).get ix| ≤ (filteredScale g gp (edgeScale w gp x a) (axes.filter fun b => b ≠ a)).get ix := by
  have h := hf.edgeIs
  obtain ⟨ps1, y', e1, e2, hp1, hn⟩ := convEdgeWith_same hu hd ho h hps (sameCall_congr (usedKernel_length w) hc.edge) junk
  obtain ⟨e, s, q1, q2, q3, q4⟩ := id hp1
  have hm' : (PoolArgs.filter g).isMany = true → (axes.filter fun b => b ≠ a).length = m := by
    intro hh
    apply hm
    simpa [PoolArgs.filter, PoolArgs.isMany, Given.isMany] using hh
  have hfw := h.smooth.forward_same hc.smooth hm' q4 junk
  have hfw' := h.smooth.forwardWith_same (dot := dot') (hc.smooth.congr hn.shape) hm' q4 junk
  have ce := (checkAxes_spec hea).1
  have cs := (checkAxes_spec hsa).1
  rw [hn.shape] at hfw'
  have hpn := Near.padSeq (roundingBound_nonneg hu (edgeRoundings w)) hn (by rw [sameOps_fst]; exact hc.smooth.nodup) hc.smooth.lt hcp (by
    intro o ho hz
    have hv := (hc.smooth.valued o ho hz).1
    obtain ⟨i, hi, rfl⟩ := sameOps_mem ho
    exact ⟨hv, hc.smooth.pos _ (getD_mem_lt hi)⟩)
  have hsn := Near.seq hu hd' ((PoolArgs.filter g).ops (axes.filter fun b => b ≠ a)) 0 (roundingBound_nonneg hu (edgeRoundings w)) hpn
  rw [bound_seq] at hsn
  refine ⟨ps1.setSmooth (some ((gp.withWidths ((PoolArgs.filter g).widths (filtered (.one (usedKernel w)) gp x [a]).shape
    (axes.filter fun b => b ≠ a))).padder (axes.filter fun b => b ≠ a).length)), _, ?_, ?_, hsn.shape, fun ix => ?_⟩
  · simp only [EdgeFilter.component, ce, cs]
    rw [show castV [a] = [(a : Int)] from rfl]
    simp only [e1, EdgeFilter.convSmooth, castV_filter, q2, hfw]
    rfl
  · simp only [EdgeFilter.componentWith, ce, cs]
    rw [show castV [a] = [(a : Int)] from rfl]
    simp only [e2, EdgeFilter.convSmoothWith, castV_filter, q2, hfw']
  · have := hsn.get ix
    rw [filteredScale, hn.scale]
    exact this

/-- **C141**: where the scale is zero - for kernels taken for `(-1, 0, 1)`: where all differences in the smoothing window are zero - the computed value is exactly zero. -/
theorem C141_zero (hu : 0 ≤ u) (hd : AccurateDot u dot) (hd' : AccurateDot u dot') (ho : AccurateDiff u add sub twice) (hf : EdgeBuilt f w g m)
    (hps : HoldsBoth ps gp) (hea : axesOf x.ndim ea = some [a]) (hsa : axesOf x.ndim sa = some axes) (hc : EdgeCall (usedKernel w) g gp x axes a)
    (hm : g.isMany = true → (axes.filter fun b => b ≠ a).length = m)
    (hcp : ∀ o ∈ sameOps (PoolArgs.filter g) gp (filtered (.one (usedKernel w)) gp x [a]).shape (axes.filter fun b => b ≠ a), copies o.2.mode = true)
    (junk : List Nat → α) :
    ∃ ps' z', f.componentWith dot dot' add sub twice ps junk x ea sa = (ps', .ok z') ∧
      ∀ ix, (filteredScale g gp (edgeScale w gp x a) (axes.filter fun b => b ≠ a)).get ix = 0 → z'.get ix = 0 := by
  obtain ⟨ps', z', -, h2, -, h4⟩ := C141_component hu hd hd' ho hf hps hea hsa hc hm hcp junk
  refine ⟨ps', z', h2, fun ix h0 => ?_⟩
  have h5 := h4 ix
  rw [h0, mul_zero] at h5
  have h6 := abs_nonpos_iff.1 h5.2
  rw [h6, sub_zero] at h5
  exact abs_nonpos_iff.1 h5.1

/-- **C141**: with exact operations it is the code of the other properties of edge filters. -/
theorem C141_component_exact (f : EdgeFilter α) (ps : EdgePadders α) (junk : List Nat → α) (x : Tensor α) (ea sa : Axes) :
    f.componentWith (fun _ _ xs w => ((List.range w.length).map fun j => xs.getD j 0 * w.getD j 0).sum)
      (fun _ _ xs w => ((List.range w.length).map fun j => xs.getD j 0 * w.getD j 0).sum) (· + ·) (· - ·) (2 * ·) ps junk x ea sa =
      f.component ps junk x ea sa := by
  have h1 : ∀ (ps : EdgePadders α) (x : Tensor α) (a : Int), f.convEdgeWith (fun _ _ xs w => ((List.range w.length).map fun j => xs.getD j 0 * w.getD j 0).sum)
      (· + ·) (· - ·) (2 * ·) ps junk x a = f.convEdge ps junk x a := by
    intro ps x a
    rw [EdgeFilter.convEdgeWith, EdgeFilter.convEdge]
    simp only [C130_exact]
    rfl
  have h2 : ∀ (ps : EdgePadders α) (x : Tensor α) (l : List Int), f.convSmoothWith (fun _ _ xs w => ((List.range w.length).map fun j => xs.getD j 0 * w.getD j 0).sum)
      ps junk x l = f.convSmooth ps junk x l := by
    intro ps x l
    rw [EdgeFilter.convSmoothWith, EdgeFilter.convSmooth, C130_exact]
  rw [EdgeFilter.componentWith, EdgeFilter.component]
  simp only [h1, h2]
  rfl

end

end

/-! ### examples -/

namespace RoundingMoreExample
open RoundingExample SsimExample AdjointExample EnergyExample

theorem sharpen_up (amount : ℚ) : AccurateSharpen (1 / 10 : ℚ) amount (fun a b => 11 / 10 * (a + b)) (fun a b => 9 / 10 * (a - b)) (fun v => 11 / 10 * (amount * v)) where
  add := fun a b => by
    have := rounds_up (u := (1 / 10 : ℚ)) (by norm_num) (a + b)
    rwa [show (1 + 1 / 10 : ℚ) = 11 / 10 by norm_num] at this
  sub := fun a b => by
    rw [Rounds, show (9 / 10 : ℚ) * (a - b) - (a - b) = -(1 / 10 * (a - b)) by ring, abs_neg, abs_mul]
    norm_num
  scale := fun v => ⟨amount, rounds_exact (by norm_num) _, by
    have := rounds_up (u := (1 / 10 : ℚ)) (by norm_num) (amount * v)
    rwa [show (1 + 1 / 10 : ℚ) = 11 / 10 by norm_num] at this⟩

theorem diff_up : AccurateDiff (1 / 10 : ℚ) (fun a b => 11 / 10 * (a + b)) (fun a b => 9 / 10 * (a - b)) (fun a => 2 * a) where
  add := (sharpen_up 0).add
  sub := (sharpen_up 0).sub
  twice := fun a => rounds_exact (by norm_num) _

theorem sharpenCall (w : List ℚ) : SharpenCall (.one w) 1 (args .circular) (sig [1, 2, 4, 8]) .none [0] where
  axes_eq := rfl
  call := SameCall_seq (sameCall (Or.inl rfl) w)
  many := by intro h; cases h
  keep := fun i _ => .inl (by simp [args, Given.entry, Mode.isPeriodize])

/-- unsharp masking with an average of three samples -/
example (junk : List Nat → ℚ) : ∃ (pool : SepPool ℚ) (k : UnsharpMask ℚ) (q : Option (Padder ℚ)) (z z' : Tensor ℚ), UnsharpMask.init pool 2 1 = .ok k ∧
    k.forward (some ((args .circular).padder 1)) junk (sig [1, 2, 4, 8]) .none = (q, .ok z) ∧
    k.forwardRounded (upDot (1 / 10)) (fun a b => 11 / 10 * (a + b)) (fun a b => 9 / 10 * (a - b)) (fun v => 11 / 10 * (2 * v)) (some ((args .circular).padder 1)) junk
      (sig [1, 2, 4, 8]) .none = (q, .ok z') := by
  obtain ⟨pool, e1, b1⟩ := one_built [1 / 3, 1 / 3, 1 / 3]
  obtain ⟨k, hk, _⟩ := C45_pooling b1 2 1
  obtain ⟨q, z, z', h1, h2, _⟩ := C141_sharpen (by norm_num) (upDot_accurate (by norm_num)) b1 hk (sharpen_up 2) (sharpenCall _) (holds_padder _ 1) junk
  exact ⟨pool, k, q, z, z', hk, h1, h2⟩

section
open EdgeCase
variable {f : EdgeFilter ℚ} (hb : EdgeBuilt f [-1, 0, 1] (.one [1, 2, 1]) 1) {x : Tensor ℚ} (hx : x.shape = [2, 6, 9]) (j : List Nat → ℚ)

example := C141_component (u := 1 / 10) (by norm_num) (upDot_accurate (by norm_num)) (upDot_accurate (by norm_num)) diff_up hb (holds mirror)
  (ea := .int 1) (sa := .seq (castV [1, 2])) (normAxes_castV (axes := [1]) (by simp [ndim, hx])) (normAxes_castV (by simp [ndim, hx]))
  ((setupMirror hx rfl).edgeCall _ (a := 1) (by decide)) (by intro h; cases h)
  (by
    intro o ho
    obtain ⟨i, _, rfl⟩ := sameOps_mem ho
    rfl) j

end

/-- Sobel: one rounding for the difference, four for the smoothing -/
example : edgeRoundings ([-1, 0, 1] : List ℚ) + roundings ((PoolArgs.filter (.one [1, 2, 1])).ops [0] : List (PoolOp ℚ)) = 5 := by
  rw [edgeRoundings, if_pos (by norm_num [TakenForFirst])]
  decide +kernel

/-- the results of `forward` and `forwardRounded` -/
def sharpenBoth (w : List ℚ) (amount threshold : ℚ) (add sub : ℚ → ℚ → ℚ) (l : List ℚ) : Option (List ℚ) :=
  match (SepPool.init (PoolArgs.pyKernel w) (PoolArgs.pyStride (some 1))).bind fun pool => UnsharpMask.init pool amount threshold with
  | .ok k => match (k.forward (some ((args .circular).padder 1)) (fun _ => 0) (sig l) .none).2,
      (k.forwardRounded (fun _ _ xs w => ((List.range w.length).map fun j => xs.getD j 0 * w.getD j 0).sum) add sub (fun v => amount * v)
        (some ((args .circular).padder 1)) (fun _ => 0) (sig l) .none).2 with
    | .ok z, .ok z' => some (z.data ++ z'.data)
    | _, _ => none
  | .error _ => none

end RoundingMoreExample

open RoundingMoreExample RoundingExample in
/-- **C141**: the additional error at the threshold is real: here a difference which equals the threshold is kept by exact arithmetic, and dropped after a relative error
of one part in a thousand, which changes the result by the amount times the threshold.  And the order of kernels matters: an edge kernel which is not taken for
`(-1, 0, 1)` may turn a constant image into something that is not zero, where the difference is exactly zero. -/
theorem C141_conditions : AccurateSharpen (1 / 1000 : ℚ) 3 (· + ·) (fun a b => 999 / 1000 * (a - b)) (fun v => 3 * v) ∧
    sharpenBoth [1 / 2, 1 / 2] 3 2 (· + ·) (fun a b => 999 / 1000 * (a - b)) [0, 4] = some ([-6, 10] ++ [0, 4]) ∧
    ((EdgeFilter.firstDiffWith (fun a b : ℚ => 11 / 10 * (a - b)) (SsimExample.sig [10, 10, 10]) 0).toOption.map Tensor.data = some [0]) ∧
    ∃ dot : Nat → List Nat → List ℚ → List ℚ → ℚ, AccurateDot (1 / 10) dot ∧ dot 0 [] [10, 10, 10] [-2, 0, 2] ≠ 0 := by
  refine ⟨⟨fun a b => rounds_exact (by norm_num) _, fun a b => ?_, fun v => ⟨3, rounds_exact (by norm_num) _, rounds_exact (by norm_num) _⟩⟩, by decide +kernel, by decide +kernel, ?_⟩
  · rw [Rounds, show (999 / 1000 : ℚ) * (a - b) - (a - b) = -(1 / 1000 * (a - b)) by ring, abs_neg, abs_mul]
    norm_num
  · refine ⟨fun i ix xs w => if w = [-2, 0, 2] then ((List.range 3).map fun j => ([-22 / 10, 0, 2] : List ℚ).getD j 0 * xs.getD j 0).sum
      else upDot (1 / 10) i ix xs w, ?_, by decide +kernel⟩
    intro i ix xs w hw hx
    by_cases h : w = [-2, 0, 2]
    · refine ⟨[-22 / 10, 0, 2], by simp [h], ?_, ?_⟩
      · rw [h]
        intro j hj
        have : j = 0 ∨ j = 1 ∨ j = 2 := by simp at hj; omega
        rcases this with rfl | rfl | rfl
        · norm_num [Rounds, abs_le]
        · norm_num [Rounds]
        · norm_num [Rounds]
      · simp only [h, if_true]
        exact evaluates_exact (by norm_num) (by simp)
    · simp only [if_neg h]
      exact upDot_accurate (by norm_num) i ix xs w hw hx

end TI
