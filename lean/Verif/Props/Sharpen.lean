import Verif.Props.EdgesGauss

/-!
# Properties of unsharp masking (C45)
-/

set_option linter.unusedSectionVars false

namespace TI
open Tensor Spec

variable {α : Type} [Field α] [LinearOrder α] [IsStrictOrderedRing α] {x b : Tensor α} {ax : Axes} {axes : List Nat}

/-- `x + amount * (x - blurred)` for one sample, where differences smaller than the threshold count as zero -/
def Spec.sharpened (amount threshold v blurred : α) : α :=
  if |v - blurred| < threshold then v else v + amount * (v - blurred)

section
variable {blur : Option (Padder α) → Tensor α → Axes → Option (Padder α) × Except Err (Tensor α)} {p p' : Option (Padder α)}

theorem dropSmall_get {y : Tensor α} (t : α) {ix : List Nat} (h : InB y.shape ix) :
    (UnsharpMask.dropSmall t y).get ix = if |y.get ix| < t then 0 else y.get ix := by
  rw [UnsharpMask.dropSmall]
  split_ifs with h1 h2 h2
  · rw [get_map _ _ h, if_pos h2]
  · rw [get_map _ _ h, if_neg h2]
  · exact absurd (lt_of_le_of_lt (abs_nonneg _) h2) h1
  · rfl

theorem dropSmall_shape (y : Tensor α) (t : α) : (UnsharpMask.dropSmall t y).shape = y.shape := by
  rw [UnsharpMask.dropSmall]
  split_ifs <;> rfl

/-- **C45**, any blur: if the blurred image has the shape of the image, so has the result, and every entry is
`x + amount * (x - blur(x))` with differences below the threshold dropped. -/
theorem C45_formula (hax : axesOf x.ndim ax = some axes) (hb : blur p x (.seq (castV axes)) = (p', .ok b)) (hs : b.shape = x.shape)
    (amount threshold : α) :
    ∃ z, UnsharpMask.forwardWith blur amount threshold p x ax = (p', .ok z) ∧ z.shape = x.shape ∧
      ∀ ix, InB x.shape ix → z.get ix = sharpened amount threshold (x.get ix) (b.get ix) := by
  have h1 := bop_same (f := fun u v : α => u - v) (x := x) (y := b) hs.symm
  have h2 := bop_same (f := fun u v : α => u + v) (x := x)
    (y := (UnsharpMask.dropSmall threshold (ofFn x.shape fun ix => x.get ix - b.get ix)).map fun v => amount * v)
    (by simp [dropSmall_shape])
  refine ⟨ofFn x.shape fun ix => x.get ix +
    ((UnsharpMask.dropSmall threshold (ofFn x.shape fun ix => x.get ix - b.get ix)).map fun v => amount * v).get ix,
    by simp only [UnsharpMask.forwardWith, (checkAxes_spec hax).1, hb, h1, ok_bind, h2], rfl, ?_⟩
  intro ix hix
  have hd : InB (UnsharpMask.dropSmall threshold (ofFn x.shape fun ix => x.get ix - b.get ix)).shape ix := by
    rw [dropSmall_shape]
    exact hix
  rw [get_ofFn hix, get_map _ _ hd, dropSmall_get _ (by simpa using hix), get_ofFn hix, sharpened]
  split_ifs
  · rw [mul_zero, add_zero]
  · rfl

/-- **C45**: amount zero changes nothing, whatever the blur and the threshold. -/
theorem C45_amount_zero (hax : axesOf x.ndim ax = some axes) (hb : blur p x (.seq (castV axes)) = (p', .ok b)) (hs : b.shape = x.shape)
    (threshold : α) : UnsharpMask.forwardWith blur 0 threshold p x ax = (p', .ok x) := by
  obtain ⟨z, h1, h2, h3⟩ := C45_formula hax hb hs 0 threshold
  rw [h1]
  congr 2
  apply ext_get h2
  intro ix hix
  rw [h3 ix (by rw [← h2]; exact hix), sharpened]
  split_ifs <;> simp

/-- **C45**: an image that the blur does not change is not changed. -/
theorem C45_fixed_by_blur (hax : axesOf x.ndim ax = some axes) (hb : blur p x (.seq (castV axes)) = (p', .ok x)) (amount threshold : α) :
    UnsharpMask.forwardWith blur amount threshold p x ax = (p', .ok x) := by
  obtain ⟨z, h1, h2, h3⟩ := C45_formula hax hb rfl amount threshold
  rw [h1]
  congr 2
  apply ext_get h2
  intro ix hix
  rw [h3 ix (by rw [← h2]; exact hix), sharpened]
  simp

/-- **C45**: the threshold only matters if it is positive. -/
theorem C45_threshold_nonpos (amount : α) {threshold : α} (h : threshold ≤ 0) (v blurred : α) :
    sharpened amount threshold v blurred = v + amount * (v - blurred) := by
  rw [sharpened, if_neg]
  exact not_lt.2 (h.trans (abs_nonneg _))

/-- an exception of the blur is passed on -/
theorem C45_blur_error (hax : axesOf x.ndim ax = some axes) {e : Err} (hb : blur p x (.seq (castV axes)) = (p', .error e)) (amount threshold : α) :
    UnsharpMask.forwardWith blur amount threshold p x ax = (p', .error e) := by
  simp only [UnsharpMask.forwardWith, (checkAxes_spec hax).1, hb]

end

/-! ## with pooling modules -/

variable {pool : SepPool α} {g : PoolArgs α} {m : Nat} {gp : PadArgs α} {p : Padder α}

/-- **C45** for every pooling module and every same padder (`periodize` on even axes only): the module is accepted, made a filter,
and the result is given by the formula. -/
theorem C45_pooling (hb : Built pool g m) (amount threshold : α) :
    ∃ u, UnsharpMask.init pool amount threshold = .ok u ∧
      ∀ {gp : PadArgs α} {p : Padder α} {x : Tensor α} {ax : Axes} {axes : List Nat}, axesOf x.ndim ax = some axes →
        SameCall (PoolArgs.filter g.kernel) gp x (.seq (castV axes)) axes →
        (g.kernel.isMany = true → axes.length = m) → Holds p gp →
        (∀ i < axes.length, (gp.mode.entry .unknown i).isPeriodize = false ∨ x.shape.getD (axes.getD i 0) 0 % 2 = 0) → ∀ junk : List Nat → α,
        ∃ p' z, u.forward (some p) junk x ax = (p', .ok z) ∧ z.shape = x.shape ∧
          ∀ ix, InB x.shape ix → z.get ix = sharpened amount threshold (x.get ix) ((filtered g.kernel gp x axes).get ix) := by
  obtain ⟨pool', e1, h1⟩ := hb.poolIs.1.toFilter
  refine ⟨⟨pool', amount, threshold⟩, by simp only [UnsharpMask.init, e1, ok_bind], ?_⟩
  intro gp p x ax axes hax hc hm hp hper junk
  have hbf : Built pool' (PoolArgs.filter g.kernel) m := Built.filter hb e1
  have hfw := h1.forward_same hc (by
    intro hh
    apply hm
    simpa [PoolArgs.isMany, Given.isMany] using hh) hp junk
  have hsh : (filtered g.kernel gp x axes).shape = x.shape := by
    obtain ⟨p', z, q1, q2⟩ := C31_filter_shape_partial hb e1 hc hm hp hper junk
    rw [hfw] at q1
    simp only [Prod.mk.injEq, Except.ok.injEq] at q1
    rw [← q2, ← q1.2]
    rfl
  obtain ⟨z, q1, q2, q3⟩ := C45_formula (blur := fun p x ax => pool'.forward p junk x ax) hax hfw hsh amount threshold
  exact ⟨_, z, q1, q2, q3⟩

/-- **C45** on flat images: averaging kernels and a padder that fills with samples (or that constant). -/
theorem C45_flat (hb : Built pool g m) (amount threshold : α) (hw : ∀ k ∈ g.kernel.values, k ≠ [] → IsAverage k) :
    ∃ u, UnsharpMask.init pool amount threshold = .ok u ∧
      ∀ {gp : PadArgs α} {p : Padder α} {x : Tensor α} {ax : Axes} {axes : List Nat}, axesOf x.ndim ax = some axes →
        SameCall (PoolArgs.filter g.kernel) gp x (.seq (castV axes)) axes →
        (g.kernel.isMany = true → axes.length = m) → Holds p gp →
        (∀ i < axes.length, (gp.mode.entry .unknown i).isPeriodize = false ∨ x.shape.getD (axes.getD i 0) 0 % 2 = 0) →
        ∀ {c : α}, (∀ o ∈ sameOps (PoolArgs.filter g.kernel) gp x.shape axes, o.2.Within c c) →
        (∀ ix, InB x.shape ix → x.get ix = c) → ∀ junk : List Nat → α,
        ∃ p', u.forward (some p) junk x ax = (p', .ok x) := by
  obtain ⟨pool', e1, h1⟩ := hb.poolIs.1.toFilter
  refine ⟨⟨pool', amount, threshold⟩, by simp only [UnsharpMask.init, e1, ok_bind], ?_⟩
  intro gp p x ax axes hax hc hm hp hper c hfill hx junk
  have hbf : Built pool' (PoolArgs.filter g.kernel) m := Built.filter hb e1
  have hm' : (PoolArgs.filter g.kernel).isMany = true → axes.length = m := by
    intro hh
    apply hm
    simpa [PoolArgs.filter, PoolArgs.isMany, Given.isMany] using hh
  obtain ⟨p1, z1, q1, q2⟩ := C34_constant_same hbf hc hm' hp hfill (by
    intro o ho hk
    obtain ⟨i, hi, rfl⟩ := mem_ops.1 ho
    have hfit : g.kernel.Fits axes.length := by
      cases hh : g.kernel.isMany with
      | true => exact (hc.fits (by simpa [PoolArgs.filter, PoolArgs.isMany, Given.isMany] using hh)).1
      | false =>
        cases hgk : g.kernel with
        | one b => trivial
        | many l => rw [hgk] at hh; cases hh
    exact hw _ (given_entry_mem hfit hi []) hk) hx junk
  obtain ⟨p2, z2, q3, q4⟩ := C31_filter_shape_partial hb e1 hc hm hp hper junk
  rw [q1] at q3
  simp only [Prod.mk.injEq, Except.ok.injEq] at q3
  obtain ⟨rfl, rfl⟩ := q3
  have hz : z1 = x := by
    apply ext_get q4
    intro ix hix
    rw [q2 ix hix, hx ix (by rw [← q4]; exact hix)]
  rw [hz] at q1
  exact ⟨_, C45_fixed_by_blur (blur := fun p x ax => pool'.forward p junk x ax) hax q1 amount threshold⟩

namespace Example

/-- one row, amount 2, threshold 1/2, three-sample box blur of weight 1 with a reflecting border -/
def boxArgs : PoolArgs ℚ := ⟨.one [1 / 3, 1 / 3, 1 / 3], .one none⟩

theorem sameCall_box {x : Tensor ℚ} (h : x.shape = [1, 3]) : SameCall (PoolArgs.filter boxArgs.kernel) (modeArgs .reflect) x (.seq (castV [1])) [1] where
  axes_eq := by
    rw [Tensor.ndim, h]
    decide
  ne := by decide
  nodup := by decide
  fits := by intro h; cases h
  rest := ⟨trivial, trivial, trivial, trivial⟩
  stride := fun _ _ => Nat.one_pos
  pos := by rw [h]; decide
  valued := by
    intro o ho _
    obtain ⟨i, _, rfl⟩ := sameOps_mem ho
    exact ⟨by simp [sameSetting, AxisPad.rule?, modeArgs, Given.entry], by simp [sameSetting, modeArgs, Given.entry]⟩

end Example

/-- the samples 0, 3, 3: blurred 2, 2, 3, so with amount 2 the result is -4, 5, 3 -/
example (junk : List Nat → ℚ) : ∃ pool u, SepPool.init (Example.boxArgs.kernel.toPy PoolArgs.pyKernel) (Example.boxArgs.stride.toPy PoolArgs.pyStride) = .ok pool ∧
    UnsharpMask.init pool 2 (1 / 2) = .ok u ∧
    ∃ p' z, u.forward (some ((Example.modeArgs .reflect).padder 1)) junk ⟨[1, 3], [0, 3, 3], rfl⟩ (.int (-1)) = (p', .ok z) ∧
      z.shape = [1, 3] ∧ z.get [0, 0] = -4 ∧ z.get [0, 1] = 5 ∧ z.get [0, 2] = 3 := by
  have hv : Example.boxArgs.Valid := by
    intro s hs
    simp only [Example.boxArgs, Given.values, List.mem_singleton] at hs
    rw [hs]; simp
  obtain ⟨pool, e, _⟩ := poolIs_init (g := Example.boxArgs) Nat.one_pos ⟨trivial, trivial⟩ hv
  have hb : Built pool Example.boxArgs 1 := .separable Nat.one_pos ⟨trivial, trivial⟩ hv e
  obtain ⟨u, h1, h2⟩ := C45_pooling hb 2 (1 / 2)
  obtain ⟨p', z, q1, q2, q3⟩ := h2 (ax := .int (-1)) (axes := [1]) (by decide) (Example.sameCall_box (x := ⟨[1, 3], [0, 3, 3], rfl⟩) rfl) (by intro h; cases h)
    (holds_padder (Example.modeArgs .reflect) 1) (by intro i _; left; rfl) junk
  refine ⟨pool, u, e, h1, p', z, q1, q2, ?_, ?_, ?_⟩
  · rw [q3 [0, 0] (by decide)]; decide +kernel
  · rw [q3 [0, 1] (by decide)]; decide +kernel
  · rw [q3 [0, 2] (by decide)]; decide +kernel

end TI
