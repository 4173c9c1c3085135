import Verif.Proofs.Grey
import Verif.Props.Transpose

/-!
# Changing the grey values: C96
-/

set_option linter.unusedSectionVars false

namespace TI
open Tensor Spec

section
variable {α : Type} [Field α] [LinearOrder α] [IsStrictOrderedRing α]
variable {x y y1 y2 : Tensor α} {ax rax : Axes} {axes raxes : List Nat}

/-! ## padding -/

theorem zipRight_follows {f : α → α} {ss ss' : List (AxisPad α)} (hl : ss'.length = ss.length)
    (h : ∀ j (h1 : j < ss.length) (h2 : j < ss'.length), ss'[j].before = ss[j].before ∧ ss'[j].after = ss[j].after ∧
      (¬ (ss[j].before = 0 ∧ ss[j].after = 0) → ss[j].Follows f ss'[j])) :
    List.Forall₂ (fun o o' => o'.1 = o.1 ∧ o'.2.before = o.2.before ∧ o'.2.after = o.2.after ∧
      (¬ (o.2.before = 0 ∧ o.2.after = 0) → o.2.Follows f o'.2)) (zipRight axes ss) (zipRight axes ss') := by
  rw [zipRight, zipRight, List.forall₂_iff_get, hl]
  refine ⟨by simp [hl], ?_⟩
  intro i h1 h2
  simp only [List.length_zip, List.length_drop, hl] at h1 h2
  simp only [List.get_eq_getElem, List.getElem_zip]
  exact ⟨trivial, h i (by omega) (by omega)⟩

/-- **C96.** Changing every grey value by a function `f`, and the settings of the padder accordingly, changes every grey value of the padded tensor by `f`:
any `f` for modes that copy samples and for constants, an odd one for `antisymmetric`, an order-preserving one for largest, smallest and median
samples, and an affine one for all other modes that define values. -/
theorem C96_pad {f : α → α} {p p' : Padder α} {ss ss' : List (AxisPad α)} (h : PadCall p x ax axes ss) (h' : PadCall p' (x.map f) ax axes ss')
    (hf : ∀ j (h1 : j < ss.length) (h2 : j < ss'.length), ss'[j].before = ss[j].before ∧ ss'[j].after = ss[j].after ∧
      (¬ (ss[j].before = 0 ∧ ss[j].after = 0) → ss[j].Follows f ss'[j])) (hl : ss'.length = ss.length) (junk junk' : List Nat → α) :
    ∃ z, p.forward junk x ax = .ok z ∧ p'.forward junk' (x.map f) ax = .ok (z.map f) := by
  refine ⟨_, forward_call h junk, ?_⟩
  rw [forward_call h' junk', padSeq_map (zipRight_nodup h.nodup h.len_le) (zipRight_follows hl hf)
    fun o ho hw => ⟨(h.valued o ho hw).1, (h.valued o ho hw).2.2⟩]

/-- **C96**: a padder that only copies samples commutes with every change of the grey values. -/
theorem C96_pad_copy {f : α → α} {p : Padder α} {ss : List (AxisPad α)} (h : PadCall p x ax axes ss)
    (hc : ∀ s ∈ ss, s.mode = .replicate ∨ s.mode = .circular ∨ s.mode = .periodize ∨ s.mode = .symmetric ∨ s.mode = .reflect)
    (junk junk' : List Nat → α) :
    ∃ z, p.forward junk x ax = .ok z ∧ p.forward junk' (x.map f) ax = .ok (z.map f) := by
  refine C96_pad h ⟨h.ndim_ne, h.axes_eq, h.nodup, h.len, h.reads, h.valued⟩ (fun j h1 _ => ⟨rfl, rfl, fun _ => ⟨rfl, rfl, ?_⟩⟩) rfl junk junk'
  rcases hc _ (List.getElem_mem h1) with e | e | e | e | e <;> rw [e] <;> trivial

/-! ## pooling -/

section
variable {pool : SepPool α} {g : PoolArgs α} {m : Nat}

/-- **C96**: pooling `c * x + d` gives `c` times the pooled `x` plus `d` times the sum of all weights. -/
theorem C96_pool (hb : Built pool g m) (hax : axesOf x.ndim ax = some axes) (hnd : axes.Nodup) (hm : g.isMany = true → axes.length = m)
    (hsz : ∀ i < axes.length, (g.op axes i).kernel.length ≤ x.shape.getD (axes.getD i 0) 0) (c d : α) (junk junk' : List Nat → α) :
    ∃ y, SepPool.forward pool none junk x ax = (none, .ok y) ∧
      SepPool.forward pool none junk' (x.map fun v => c * v + d) ax = (none, .ok (y.map fun v => c * v + d * totalWeight (g.ops axes))) := by
  have hpo := poolOps_of hb.poolIs.2.2 (hb.poolIs.1.fits_axes hm) hnd (checkAxes_spec hax).2 (by
    intro o ho
    obtain ⟨i, hi, rfl⟩ := mem_ops.1 ho
    exact hsz i hi)
  refine ⟨_, hb.poolIs.1.forward_none hax hm hpo.fitting junk, ?_⟩
  rw [hb.poolIs.1.forward_none (x := x.map fun v => c * v + d) hax hm (Fitting_congr (map_shape x _).symm hpo.fitting) junk', poolSeq_map c d hpo.fitting]

/-- **C96** with a same padder whose settings follow the change. -/
theorem C96_pool_same {gp gp' : PadArgs α} {p p' : Padder α} (hb : Built pool g m) (hc : SameCall g gp x ax axes)
    (hm : g.isMany = true → axes.length = m) (hp : Holds p gp) (hp' : Holds p' gp') {c d : α} (hc' : SameCall g gp' (x.map fun v => c * v + d) ax axes)
    (hf : gp.Follows (fun v => c * v + d) axes.length gp') (junk junk' : List Nat → α) :
    ∃ q q' y, SepPool.forward pool (some p) junk x ax = (q, .ok y) ∧
      SepPool.forward pool (some p') junk' (x.map fun v => c * v + d) ax = (q', .ok (y.map fun v => c * v + d * totalWeight (g.ops axes))) := by
  refine ⟨_, some ((gp'.withWidths (g.widths x.shape axes)).padder axes.length), _, hb.poolIs.1.forward_same hc hm hp junk, ?_⟩
  rw [hb.poolIs.1.forward_same hc' hm hp' junk', map_shape, same_map hc hf]

end

/-- the sum of all weights is one if the weights of every axis have sum one -/
theorem totalWeight_one {ops : List (PoolOp α)} (h : ∀ o ∈ ops, o.kernel ≠ [] → o.kernel.sum = 1) : totalWeight ops = 1 := by
  rw [totalWeight]
  apply List.prod_eq_one
  intro v hv
  obtain ⟨o, ho, rfl⟩ := List.mem_map.1 hv
  split_ifs with hk
  · rfl
  · exact h o ho hk

/-! ## squared errors -/

/-- **C96**: the squared errors of `c * x + d` and `c * y + d` are `c ^ 2` times the squared errors of `x` and `y`. -/
theorem C96_mse (h : x.shape = y.shape) (hax : axesOf x.ndim ax = some axes) (hnd : axes.Nodup) {r : Reduction} (hr : r ≠ .unknown) (c d : α) :
    ∃ e, mse r x y ax = .ok e ∧ mse r (x.map fun v => c * v + d) (y.map fun v => c * v + d) ax = .ok (e.map fun v => c ^ 2 * v) := by
  have hp : ∀ ix, InB x.shape ix → ((x.map fun v => c * v + d).get ix - (y.map fun v => c * v + d).get ix) ^ 2 = c ^ 2 * (x.get ix - y.get ix) ^ 2 := by
    intro ix hix
    rw [get_map _ _ hix, get_map _ _ (by rw [← h]; exact hix)]
    ring
  have hs : ∀ ds jx, ((collected x.shape ds jx).map fun ix => ((x.map fun v => c * v + d).get ix - (y.map fun v => c * v + d).get ix) ^ 2) =
      ((collected x.shape ds jx).map fun ix => (x.get ix - y.get ix) ^ 2).map fun v => c ^ 2 * v := by
    intro ds jx
    rw [List.map_map]
    exact List.map_congr_left fun ix hix => hp ix (mem_collected.1 hix).1
  have hsum : ∀ l : List α, (l.map fun v => c ^ 2 * v).sum = c ^ 2 * l.sum := by
    intro l
    induction l with
    | nil => simp
    | cons a l ih => simp only [List.map_cons, List.sum_cons, ih]; ring
  have hof : ∀ (s : List Nat) (F F' : List Nat → α), (∀ ix, InB s ix → F' ix = c ^ 2 * F ix) → ofFn s F' = (ofFn s F).map fun v => c ^ 2 * v := by
    intro s F F' hF
    apply ext_get (show (ofFn s F').shape = ((ofFn s F).map fun v => c ^ 2 * v).shape from rfl)
    intro ix hix
    have hix' : InB s ix := hix
    rw [get_map _ _ (show InB (ofFn s F).shape ix from hix'), get_ofFn hix', get_ofFn hix', hF ix hix']
  cases r with
  | unknown => exact absurd rfl hr
  | mean =>
    refine ⟨_, C55_mean h hax hnd, ?_⟩
    rw [C55_mean (x := x.map fun v => c * v + d) (y := y.map fun v => c * v + d) h hax hnd]
    refine congrArg Except.ok (hof _ _ _ fun jx _ => ?_)
    show Spec.mean ((collected x.shape _ jx).map _) = _
    rw [hs, mean, mean, hsum, List.length_map, mul_div_assoc]
    rfl
  | sum =>
    refine ⟨_, C55_sum h hax hnd, ?_⟩
    rw [C55_sum (x := x.map fun v => c * v + d) (y := y.map fun v => c * v + d) h hax hnd]
    refine congrArg Except.ok (hof _ _ _ fun jx _ => ?_)
    show ((collected x.shape _ jx).map _).sum = _
    rw [hs, hsum]
    rfl
  | none =>
    refine ⟨_, C55_none h hax, ?_⟩
    rw [C55_none (x := x.map fun v => c * v + d) (y := y.map fun v => c * v + d) h hax]
    exact congrArg Except.ok (hof _ _ _ hp)

/-! ## SSIM -/

section
variable {s s' : SSIM α} {pool : SepPool α} {g : PoolArgs α} {m : Nat} {gp : Option (PadArgs α)} {p : Option (Padder α)} {k1 k2 c : α} {sc cr : Bool}

/-- **C96**: multiplying both images and both constants by `c ≠ 0` changes neither the SSIM map nor the scores, for padding settings that may stay
(samples, means, ramps to zero, zero; largest, smallest and median samples if `c` is positive). -/
theorem C96_ssim (hi : SSIM.init pool false k1 k2 sc cr = .ok s) (hi' : SSIM.init pool false (c * k1) (c * k2) sc cr = .ok s') (hc : c ≠ 0)
    (hb : Built pool g m) (hm : g.kernel.isMany = true → axes.length = m)
    (h : BlurCall g.kernel gp y1 ax axes p) (hs : Scales c gp axes.length) (hN : sc = true → windowSize g.kernel axes.length ≠ 1)
    (h12 : y2.shape = y1.shape) (hr : axesOf y1.ndim rax = some raxes) (hrn : raxes.Nodup) (hcr : cr = false ∨ gp = none) (junk junk' : List Nat → α) :
    ∃ q r, s.forward junk y1 y2 ax rax p = (q, .ok r) ∧
      s'.forward junk' (y1.map fun v => c * v) (y2.map fun v => c * v) ax rax p = (q, .ok r) := by
  have h' : BlurCall g.kernel gp (y1.map fun v => c * v) ax axes p := by
    cases gp with
    | none => exact ⟨h.1, h.2.1, Fitting_congr (map_shape y1 _).symm h.2.2⟩
    | some gp => exact ⟨h.1, h.2.congr rfl⟩
  refine ⟨_, _, C79_formula hi hb hm h hN h12 hr hrn hcr junk, ?_⟩
  rw [C79_formula hi' hb hm h' hN (show (y2.map _).shape = (y1.map _).shape from h12) hr hrn hcr junk']
  have e : ssimMap (c * k1) (c * k2) (covFactor sc (windowSize g.kernel axes.length)) (blurred g.kernel gp axes) (y1.map fun v => c * v)
      (y2.map fun v => c * v) = ssimMap k1 k2 (covFactor sc (windowSize g.kernel axes.length)) (blurred g.kernel gp axes) y1 y2 :=
    pointMap_scaled (F := ssimIndex (k1 ^ 2) (k2 ^ 2) (covFactor (α := α) sc (windowSize g.kernel axes.length))) (ssimIndex_scaled hc) h h12 hs
  rw [e]
  rfl

end
end

section
variable {y1 y2 : Tensor ℝ} {ax rax : Axes} {axes raxes : List Nat}
variable {s s' : SSIM ℝ} {pool : SepPool ℝ} {g : PoolArgs ℝ} {m : Nat} {gp : Option (PadArgs ℝ)} {p : Option (Padder ℝ)} {k1 k2 c : ℝ} {sc cr : Bool}
  {ws : List ℝ}

/-- **C96**: the same for MS-SSIM. -/
theorem C96_msssim (hi : SSIM.init pool false k1 k2 sc cr = .ok s) (hi' : SSIM.init pool false (c * k1) (c * k2) sc cr = .ok s') (hc : c ≠ 0)
    (hb : Built pool g m) (hm : g.kernel.isMany = true → axes.length = m)
    (hw : 2 ≤ ws.length) (h : MsCall g.kernel gp cr ws.length y1 ax axes p) (hs : Scales c gp axes.length)
    (hN : sc = true → windowSize g.kernel axes.length ≠ 1)
    (h12 : y2.shape = y1.shape) (hr : axesOf y1.ndim rax = some raxes) (hrn : raxes.Nodup) (up : Bool) (eps : ℝ) (junk junk' : List Nat → ℝ) :
    (⟨s', ws, up, eps⟩ : MsSsim).forward junk' (y1.map fun v => c * v) (y2.map fun v => c * v) ax rax p =
      (⟨s, ws, up, eps⟩ : MsSsim).forward junk y1 y2 ax rax p := by
  have h' : MsCall g.kernel gp cr ws.length (y1.map fun v => c * v) ax axes p := ⟨h.axes_eq, h.ne, h.nodup, h.fits, h.kernel, h.large, h.padder⟩
  rw [C80_formula hi hb hm hw h hN h12 hr hrn up eps junk, C80_formula hi' hb hm hw h' hN (show (y2.map _).shape = (y1.map _).shape from h12) hr hrn up eps junk']
  obtain ⟨L, hL⟩ : ∃ L, ws.length = L + 1 := ⟨ws.length - 1, by omega⟩
  have hat : MsAt g.kernel gp cr L y1 axes p := by rw [hL] at h; exact h.at
  have e : ∀ f, msMap up eps (c * k1) (c * k2) f (scoreBlur g.kernel gp cr axes) axes ws (y1.map fun v => c * v) (y2.map fun v => c * v) =
      msMap up eps k1 k2 f (scoreBlur g.kernel gp cr axes) axes ws y1 y2 := by
    intro f
    rw [msMap, msMap]
    apply ofFn_congr
    intro jx _
    congr 1
    apply List.map_congr_left
    intro i hi
    have hi' : i ≤ L := by have := List.mem_range.1 hi; omega
    have hat' : MsAt g.kernel gp cr (L - i + i) y1 axes p := by rw [Nat.sub_add_cancel hi']; exact hat
    rw [msLevel, msLevel, atLevel_scaled i hat', atLevel_scaled i (hat'.congr h12), levelScore_scaled hc (MsAt.level i hat') (atLevel_shape_congr i h12) hs]
  rw [e, atLevel_scaled (r := 0) (ws.length - 1) (by rw [hL, Nat.add_sub_cancel, Nat.zero_add]; exact hat)]
  rfl

end

/-! ## concrete cases meeting the hypotheses, and where the conditions are needed -/

namespace GreyExample
open SsimExample FlipExample

/-- C96: ramps from and to changed end values -/
example : padded (⟨.one (2, 1), .one .linearRamp, .one (0, 0), .one (8, 9), .one (none, none)⟩) (sig [1, 2, 4]) = some [8, 9 / 2, 1, 2, 4, 9] ∧
    padded (⟨.one (2, 1), .one .linearRamp, .one (0, 0), .one (-15, -17), .one (none, none)⟩) ((sig [1, 2, 4]).map fun v => -2 * v + 1) =
      some [-15, -8, -1, -3, -7, -17] := by decide +kernel

/-- C96: the hypotheses hold for the median and an order-preserving change, here squares of non-negative samples clipped at zero -/
example : ∃ z, ((request (2, 1) (.stat .median)).padder 1).forward (fun _ => 0) (sig [1, 2, 4]) .none = .ok z ∧
    ((request (2, 1) (.stat .median)).padder 1).forward (fun _ => 0) ((sig [1, 2, 4]).map fun v => (max v 0) ^ 2) .none = .ok (z.map fun v => (max v 0) ^ 2) := by
  refine C96_pad (call (2, 1) (.stat .median) _ _ _ _ rfl (by simp [AxisPad.rule?]) (by simp)) (call (2, 1) (.stat .median) _ _ _ _ rfl (by simp [AxisPad.rule?]) (by simp)) ?_ rfl _ _
  intro j h1 h2
  refine ⟨rfl, rfl, fun _ => ⟨rfl, rfl, ?_⟩⟩
  have hj : j = 0 := by simpa using h1
  subst hj
  intro u v huv
  exact pow_le_pow_left₀ (le_max_right _ _) (max_le_max huv le_rfl) 2

/-- Order matters: negating 1, 2, 4 turns the largest sample 4 into -4, the smallest one. -/
example : padded (request (0, 1) (.stat .maximum)) (sig [1, 2, 4]) = some [1, 2, 4, 4] ∧
    padded (request (0, 1) (.stat .maximum)) ((sig [1, 2, 4]).map fun v => -v) = some [-1, -2, -4, -1] := by decide +kernel

/-- C96: the SSIM of two signals, and of the signals and constants multiplied by a number -/
example (junk junk' : List Nat → ℚ) (y : Tensor ℚ) (hy : y.shape = [4]) (c : ℚ) (hc : c ≠ 0) : ∃ (pool : SepPool ℚ) (s s' : SSIM ℚ),
    SepPool.avgInit (.leaf (some 3)) (.leaf none) = .ok pool ∧ SSIM.init pool false 1 2 false false = .ok s ∧
    SSIM.init pool false (c * 1) (c * 2) false false = .ok s' ∧
    ∃ q r, s.forward junk (sig [1, 2, 4, 9]) y .none .none (some ((args .replicate).padder 1)) = (q, .ok r) ∧
      s'.forward junk' ((sig [1, 2, 4, 9]).map fun v => c * v) (y.map fun v => c * v) .none .none (some ((args .replicate).padder 1)) = (q, .ok r) := by
  obtain ⟨pool, h1, h2, _⟩ := C34_average_kernels (α := ℚ) (size := .one 3) (st := .one none) (m := 1) (by decide) trivial trivial
    (by intro s hs; simp [Given.values] at hs; simp [hs])
  obtain ⟨f, hf, _⟩ := h2.poolIs.1.toFilter
  have hi : ∀ a b, SSIM.init pool false a b false false = .ok (⟨f, false, a, b, false, false⟩ : SSIM ℚ) := by
    intro a b
    simp only [SSIM.init, hf, ok_bind]
  obtain ⟨q, r, e1, e2⟩ := C96_ssim (hi 1 2) (hi (c * 1) (c * 2)) hc h2 (by intro h; cases h) (gp := some (args .replicate))
    (p := some ((args .replicate).padder 1)) (ax := .none) (axes := [0]) (y1 := sig [1, 2, 4, 9]) (y2 := y) ⟨⟨_, rfl, holds_padder _ 1⟩, sameCall_sig⟩ (by
      intro a ha
      cases ha
      intro i _
      exact ⟨rfl, rfl, trivial⟩) (by intro h; cases h) hy
    (rax := .none) (raxes := [0]) rfl (by decide) (Or.inl rfl) junk junk'
  exact ⟨pool, _, _, h1, hi 1 2, hi _ _, q, r, e1, e2⟩

end GreyExample
end TI
