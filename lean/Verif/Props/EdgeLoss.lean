import Verif.Proofs.EdgeLoss

/-!
# Losses on edges: C85, C86
-/

set_option linter.unusedSectionVars false

namespace TI
open Tensor Spec

section
variable {α : Type} [Field α] [LinearOrder α] [IsStrictOrderedRing α] [FloorRing α]
variable {f : EdgeFilter α} {w : List α} {g : Given (List α)} {m n c h v : Nat}

/-- **C85**: the conditions on images of shape `(n, c, h, v)`: non-empty planes, and one smoothing kernel -/
structure Spec.EdgeImages (g : Given (List α)) (n c h v : Nat) (pred true : Tensor α) : Prop where
  pred_shape : pred.shape = [n, c, h, v]
  true_shape : true.shape = [n, c, h, v]
  height : 0 < h
  width : 0 < v
  single : g.isMany = false

theorem reflect_setup {x : Tensor α} (hg : g.isMany = false) (hx : x.shape = [n, c, h, v]) (hh : 0 < h) (hv : 0 < v) :
    EdgeSetup g reflectArgs x (.seq [2, 3]) [2, 3] where
  axes_eq := by rw [Tensor.ndim, hx]; rfl
  two := by simp
  nodup := by decide
  fits := by intro h; rw [hg] at h; cases h
  pos := by
    intro a ha
    simp only [List.mem_cons, List.not_mem_nil, or_false] at ha
    rcases ha with rfl | rfl <;> rw [hx]
    · exact hh
    · exact hv
  uniform := ⟨rfl, rfl, rfl, rfl⟩
  valued := by
    intro s hs
    have : s.mode = .reflect := hs
    exact ⟨by simp [AxisPad.rule?, this], by rw [this]; simp⟩
  keep := Or.inl rfl

/-- entries of the two edge images, one after the other along the channels -/
def stacked (E : Nat → Tensor α) (c : Nat) (ix : List Nat) : α :=
  if ix.getD 1 0 < c then (E 2).get ix else (E 3).get (ix.set 1 (ix.getD 1 0 - c))

theorem edgeTensor_eq (hb : EdgeBuilt f w g m) {ps : EdgePadders α} (hps : HoldsBoth ps reflectArgs) {x : Tensor α} (hg : g.isMany = false)
    (hx : x.shape = [n, c, h, v]) (hh : 0 < h) (hv : 0 < v) (junk : List Nat → α) :
    ∃ ps', EdgeLoss.edgeTensor f ps junk x = (ps', .ok (ofFn [n, c + c, h, v] (stacked (edges (usedKernel w) g x) c))) ∧ HoldsBoth ps' reflectArgs := by
  obtain ⟨ps', e, h1, h2⟩ := C75_components hb hps (reflect_setup hg hx hh hv) (by intro h; rw [hg] at h; cases h) junk
  refine ⟨ps', ?_, h1⟩
  simp only [EdgeLoss.edgeTensor, e, List.map_cons, List.map_nil]
  rw [cat_pair ((h2 2 (by simp)).trans hx) ((h2 3 (by simp)).trans hx)]
  rfl

theorem withEdges_eq {β : Type} (loss : Tensor α → Tensor α → Except Err β) (hb : EdgeBuilt f w g m) {ps : EdgePadders α}
    (hps : HoldsBoth ps reflectArgs) {p t : Tensor α} (hi : EdgeImages g n c h v p t) (junk : List Nat → α) :
    ∃ ps', EdgeLoss.withEdges loss f ps junk p t = (ps', loss (ofFn [n, c + c, h, v] (stacked (edges (usedKernel w) g p) c))
      (ofFn [n, c + c, h, v] (stacked (edges (usedKernel w) g t) c))) ∧ HoldsBoth ps' reflectArgs := by
  obtain ⟨ps1, e1, h1⟩ := edgeTensor_eq hb hps hi.single hi.pred_shape hi.height hi.width junk
  obtain ⟨ps2, e2, h2⟩ := edgeTensor_eq hb h1 hi.single hi.true_shape hi.height hi.width junk
  exact ⟨ps2, by simp only [EdgeLoss.withEdges, e1, e2], h2⟩

theorem stacked_apply2 (F : α → α → α) (E E' : Nat → Tensor α) (c : Nat) (ix : List Nat) :
    F (stacked E c ix) (stacked E' c ix) =
      if ix.getD 1 0 < c then F ((E 2).get ix) ((E' 2).get ix)
      else F ((E 3).get (ix.set 1 (ix.getD 1 0 - c))) ((E' 3).get (ix.set 1 (ix.getD 1 0 - c))) := by
  simp only [stacked]
  split_ifs <;> rfl

/-- the mean over a stack is the mean over both directions -/
theorem mean_stacked (F : α → α → α) (E E' : Nat → Tensor α) (n c h v : Nat) :
    Spec.mean ((indices [n, c + c, h, v]).map fun ix => F (stacked E c ix) (stacked E' c ix)) =
      overBoth [n, c, h, v] fun a ix => F ((E a).get ix) ((E' a).get ix) := by
  have := mean_cat (S := [n, c, h, v]) (d := 1) (by simp) (fun ix => F ((E 2).get ix) ((E' 2).get ix)) (fun ix => F ((E 3).get ix) ((E' 3).get ix))
  rw [overBoth, ← this]
  congr 1
  apply List.map_congr_left
  intro ix _
  exact stacked_apply2 F E E' c ix

/-- **C85.** `GaussianEdgeLoss`: the mean over both directions and all positions of the absolute difference of the edges.  The padders
may have any history. -/
theorem C85_edge_loss (hb : EdgeBuilt f w g m) {ps : EdgePadders α} (hps : HoldsBoth ps reflectArgs) {p t : Tensor α}
    (hi : EdgeImages g n c h v p t) (junk : List Nat → α) :
    ∃ ps', EdgeLoss.forward f ps junk p t = (ps', .ok (.scalar (overBoth [n, c, h, v] fun a ix =>
      |(edges (usedKernel w) g p a).get ix - (edges (usedKernel w) g t a).get ix|))) ∧ HoldsBoth ps' reflectArgs := by
  obtain ⟨ps', e, h'⟩ := withEdges_eq EdgeLoss.l1 hb hps hi junk
  refine ⟨ps', ?_, h'⟩
  rw [EdgeLoss.forward, e]
  congr 1
  rw [EdgeLoss.l1, bop_same (by simp), ok_bind, map_ofFn]
  simp only [shape_ofFn]
  rw [meanAll]
  congr 2
  rw [← mean_stacked (fun a b => |a - b|)]
  congr 1
  apply List.map_congr_left
  intro ix hix
  rw [get_ofFn (mem_indices.1 hix), get_ofFn (mem_indices.1 hix)]

/-- **C85.** `WeightedMul`: the absolute differences are weighted with the (signed) true edges. -/
theorem C85_weighted_mul (hb : EdgeBuilt f w g m) {ps : EdgePadders α} (hps : HoldsBoth ps reflectArgs) {p t : Tensor α}
    (hi : EdgeImages g n c h v p t) (junk : List Nat → α) :
    ∃ ps', EdgeLoss.weightedMul f ps junk p t = (ps', .ok (.scalar (overBoth [n, c, h, v] fun a ix =>
      |(edges (usedKernel w) g t a).get ix - (edges (usedKernel w) g p a).get ix| * (edges (usedKernel w) g t a).get ix))) ∧
      HoldsBoth ps' reflectArgs := by
  obtain ⟨ps', e, h'⟩ := withEdges_eq EdgeLoss.mulLoss hb hps hi junk
  refine ⟨ps', ?_, h'⟩
  rw [EdgeLoss.weightedMul, e]
  congr 1
  rw [EdgeLoss.mulLoss, bop_same (by simp), ok_bind, map_ofFn, bop_same (by simp), ok_bind]
  simp only [shape_ofFn]
  rw [meanAll]
  congr 2
  rw [← mean_stacked (fun a b => |b - a| * b)]
  congr 1
  apply List.map_congr_left
  intro ix hix
  have hin := mem_indices.1 hix
  simp only [get_ofFn hin]

/-- **C85.** `WeightedSum`: for every image, channel and direction the mean absolute edges are compared; the mean of these differences. -/
theorem C85_weighted_sum (hb : EdgeBuilt f w g m) {ps : EdgePadders α} (hps : HoldsBoth ps reflectArgs) {p t : Tensor α}
    (hi : EdgeImages g n c h v p t) (junk : List Nat → α) :
    ∃ ps', EdgeLoss.weightedSum f ps junk p t = (ps', .ok (.scalar (overBoth [n, c] fun a jx =>
      |planeMean [n, c, h, v] (fun ix => |(edges (usedKernel w) g t a).get ix|) jx -
        planeMean [n, c, h, v] (fun ix => |(edges (usedKernel w) g p a).get ix|) jx|))) ∧ HoldsBoth ps' reflectArgs := by
  obtain ⟨ps', e, h'⟩ := withEdges_eq EdgeLoss.sumLoss hb hps hi junk
  refine ⟨ps', ?_, h'⟩
  rw [EdgeLoss.weightedSum, e]
  congr 1
  have habs : ∀ E : Nat → Tensor α, (fun ix => |stacked E c ix|) = fun ix => if ix.getD 1 0 < c then |(E 2).get ix| else |(E 3).get (ix.set 1 (ix.getD 1 0 - c))| := by
    intro E
    funext ix
    exact stacked_apply2 (fun a _ => |a|) E E c ix
  rw [EdgeLoss.sumLoss, map_ofFn, map_ofFn, mean23, ok_bind, mean23, ok_bind, bop_same (by simp), ok_bind, map_ofFn]
  simp only [shape_ofFn]
  rw [meanAll]
  congr 2
  have := mean_cat (S := [n, c]) (d := 1) (by simp)
    (fun jx => |planeMean [n, c, h, v] (fun ix => |(edges (usedKernel w) g t 2).get ix|) jx - planeMean [n, c, h, v] (fun ix => |(edges (usedKernel w) g p 2).get ix|) jx|)
    (fun jx => |planeMean [n, c, h, v] (fun ix => |(edges (usedKernel w) g t 3).get ix|) jx - planeMean [n, c, h, v] (fun ix => |(edges (usedKernel w) g p 3).get ix|) jx|)
  rw [overBoth, ← this]
  congr 1
  apply List.map_congr_left
  intro jx hjx
  have hin : InB [n, c + c] jx := mem_indices.1 hjx
  simp only [get_ofFn hin, habs]
  have h1 := planeMean_cat n c h v (fun ix => |(edges (usedKernel w) g t 2).get ix|) (fun ix => |(edges (usedKernel w) g t 3).get ix|) hin
  have h2 := planeMean_cat n c h v (fun ix => |(edges (usedKernel w) g p 2).get ix|) (fun ix => |(edges (usedKernel w) g p 3).get ix|) hin
  rw [h1, h2]
  have e1 : ([n, c] : List Nat).getD 1 0 = c := rfl
  rw [e1]
  split_ifs <;> rfl

/-! ### consequences -/

theorem mean_nonneg {l : List α} (hl : ∀ a ∈ l, 0 ≤ a) : 0 ≤ Spec.mean l :=
  div_nonneg (List.sum_nonneg hl) (Nat.cast_nonneg _)

theorem overBoth_nonneg {S : List Nat} {u : Nat → List Nat → α} (hu : ∀ a ix, 0 ≤ u a ix) : 0 ≤ overBoth S u := by
  have h1 : ∀ a, 0 ≤ Spec.mean ((indices S).map (u a)) := by
    intro a
    apply mean_nonneg
    intro b hb
    obtain ⟨ix, _, rfl⟩ := List.mem_map.1 hb
    exact hu a ix
  exact div_nonneg (add_nonneg (h1 2) (h1 3)) (by norm_num)

theorem overBoth_congr {S : List Nat} {u u' : Nat → List Nat → α} (hu : ∀ a ix, u a ix = u' a ix) : overBoth S u = overBoth S u' := by
  have : u = u' := by funext a ix; exact hu a ix
  rw [this]

/-- **C85**: the plain loss and `WeightedSum` are symmetric, not negative, and zero for equal images. -/
theorem C85_distance (hb : EdgeBuilt f w g m) {ps : EdgePadders α} (hps : HoldsBoth ps reflectArgs) {p t : Tensor α}
    (hi : EdgeImages g n c h v p t) (junk : List Nat → α) :
    ∃ a b : α, (EdgeLoss.forward f ps junk p t).2 = .ok (.scalar a) ∧ (EdgeLoss.weightedSum f ps junk p t).2 = .ok (.scalar b) ∧
      (EdgeLoss.forward f ps junk t p).2 = .ok (.scalar a) ∧ (EdgeLoss.weightedSum f ps junk t p).2 = .ok (.scalar b) ∧
      0 ≤ a ∧ 0 ≤ b ∧ (p = t → a = 0 ∧ b = 0) := by
  have hi' : EdgeImages g n c h v t p := ⟨hi.true_shape, hi.pred_shape, hi.height, hi.width, hi.single⟩
  obtain ⟨_, e1, _⟩ := C85_edge_loss hb hps hi junk
  obtain ⟨_, e2, _⟩ := C85_weighted_sum hb hps hi junk
  obtain ⟨_, e3, _⟩ := C85_edge_loss hb hps hi' junk
  obtain ⟨_, e4, _⟩ := C85_weighted_sum hb hps hi' junk
  have hz : ∀ S : List Nat, overBoth S (fun _ _ => (0 : α)) = 0 := by intro S; simp [overBoth, Spec.mean]
  refine ⟨_, _, by rw [e1], by rw [e2], ?_, ?_, overBoth_nonneg fun _ _ => abs_nonneg _, overBoth_nonneg fun _ _ => abs_nonneg _, ?_⟩
  · rw [e3]
    exact congrArg (fun r => Except.ok (Tensor.scalar r)) (overBoth_congr fun _ _ => abs_sub_comm _ _)
  · rw [e4]
    exact congrArg (fun r => Except.ok (Tensor.scalar r)) (overBoth_congr fun _ _ => abs_sub_comm _ _)
  · rintro rfl
    simp only [sub_self, abs_zero, hz, and_self]

theorem mean_zero {l : List (List Nat)} {u : List Nat → α} (hu : ∀ ix ∈ l, 0 ≤ u ix) (h0 : Spec.mean (l.map u) = 0) : ∀ ix ∈ l, u ix = 0 := by
  intro ix hix
  have hlen : ((l.map u).length : α) ≠ 0 := by
    rw [List.length_map, Nat.cast_ne_zero]
    intro h
    rw [List.length_eq_zero_iff] at h
    rw [h] at hix
    simp at hix
  rw [Spec.mean, div_eq_zero_iff] at h0
  have h2 : (l.map u).sum = 0 := h0.resolve_right hlen
  have h3 : u ix ≤ (l.map u).sum := List.single_le_sum (by
    intro b hb
    obtain ⟨jx, hj, rfl⟩ := List.mem_map.1 hb
    exact hu jx hj) _ (List.mem_map.2 ⟨ix, hix, rfl⟩)
  exact le_antisymm (h2 ▸ h3) (hu ix hix)

/-- **C85**: the plain loss is zero exactly if the images have the same edges. -/
theorem C85_zero_iff (hb : EdgeBuilt f w g m) {ps : EdgePadders α} (hps : HoldsBoth ps reflectArgs) {p t : Tensor α}
    (hi : EdgeImages g n c h v p t) (junk : List Nat → α) :
    (EdgeLoss.forward f ps junk p t).2 = .ok (.scalar 0) ↔
      ∀ a ∈ [2, 3], ∀ ix, InB [n, c, h, v] ix → (edges (usedKernel w) g p a).get ix = (edges (usedKernel w) g t a).get ix := by
  obtain ⟨_, e, _⟩ := C85_edge_loss hb hps hi junk
  rw [e]
  have hnn : ∀ a, 0 ≤ Spec.mean ((indices [n, c, h, v]).map fun ix => |(edges (usedKernel w) g p a).get ix - (edges (usedKernel w) g t a).get ix|) := by
    intro a
    apply mean_nonneg
    intro b hb
    obtain ⟨ix, _, rfl⟩ := List.mem_map.1 hb
    exact abs_nonneg _
  constructor
  · intro h0 a ha ix hix
    have h1 : overBoth [n, c, h, v] (fun a ix => |(edges (usedKernel w) g p a).get ix - (edges (usedKernel w) g t a).get ix|) = 0 := by
      have h4 := congrArg Tensor.data (Except.ok.inj h0)
      simpa [Tensor.scalar] using h4
    rw [overBoth, div_eq_zero_iff] at h1
    have h2 := h1.resolve_right two_ne_zero
    have h3 : Spec.mean ((indices [n, c, h, v]).map fun ix => |(edges (usedKernel w) g p a).get ix - (edges (usedKernel w) g t a).get ix|) = 0 := by
      have q2 := hnn 2
      have q3 := hnn 3
      simp only [List.mem_cons, List.not_mem_nil, or_false] at ha
      rcases ha with rfl | rfl <;> linarith
    have := mean_zero (fun ix _ => abs_nonneg _) h3 ix (mem_indices.2 hix)
    exact sub_eq_zero.1 (abs_eq_zero.1 this)
  · intro hall
    have : ∀ a ∈ [2, 3], ((indices [n, c, h, v]).map fun ix => |(edges (usedKernel w) g p a).get ix - (edges (usedKernel w) g t a).get ix|) =
        (indices [n, c, h, v]).map fun _ => 0 := by
      intro a ha
      apply List.map_congr_left
      intro ix hix
      rw [hall a ha ix (mem_indices.1 hix), sub_self, abs_zero]
    rw [overBoth, this 2 (by simp), this 3 (by simp)]
    simp [Spec.mean]

theorem mean_add_le {l : List (List Nat)} {u u' u'' : List Nat → α} (hu : ∀ ix, u ix ≤ u' ix + u'' ix) :
    Spec.mean (l.map u) ≤ Spec.mean (l.map u') + Spec.mean (l.map u'') := by
  simp only [Spec.mean, List.length_map, ← add_div]
  apply div_le_div_of_nonneg_right _ (Nat.cast_nonneg _)
  induction l with
  | nil => simp
  | cons a l ih =>
    simp only [List.map_cons, List.sum_cons]
    linarith [hu a]

/-- **C85**: triangle inequality for the plain loss. -/
theorem C85_triangle (hb : EdgeBuilt f w g m) {ps : EdgePadders α} (hps : HoldsBoth ps reflectArgs) {p q t : Tensor α}
    (h1 : EdgeImages g n c h v p q) (h2 : EdgeImages g n c h v q t) (junk : List Nat → α) :
    ∃ a b d : α, (EdgeLoss.forward f ps junk p t).2 = .ok (.scalar a) ∧ (EdgeLoss.forward f ps junk p q).2 = .ok (.scalar b) ∧
      (EdgeLoss.forward f ps junk q t).2 = .ok (.scalar d) ∧ a ≤ b + d := by
  have h3 : EdgeImages g n c h v p t := ⟨h1.pred_shape, h2.true_shape, h1.height, h1.width, h1.single⟩
  obtain ⟨_, e1, _⟩ := C85_edge_loss hb hps h3 junk
  obtain ⟨_, e2, _⟩ := C85_edge_loss hb hps h1 junk
  obtain ⟨_, e3, _⟩ := C85_edge_loss hb hps h2 junk
  refine ⟨_, _, _, by rw [e1], by rw [e2], by rw [e3], ?_⟩
  have hm : ∀ a, Spec.mean ((indices [n, c, h, v]).map fun ix => |(edges (usedKernel w) g p a).get ix - (edges (usedKernel w) g t a).get ix|) ≤
      Spec.mean ((indices [n, c, h, v]).map fun ix => |(edges (usedKernel w) g p a).get ix - (edges (usedKernel w) g q a).get ix|) +
      Spec.mean ((indices [n, c, h, v]).map fun ix => |(edges (usedKernel w) g q a).get ix - (edges (usedKernel w) g t a).get ix|) :=
    fun a => mean_add_le fun ix => abs_sub_le _ _ _
  have e2 := hm 2
  have e3 := hm 3
  simp only [overBoth]
  linarith

theorem edges_constant (hb : EdgeBuilt f w g m) (hw : w ≠ []) (hone : ∀ u ∈ g.values, u ≠ [] → u.sum = 1) {x : Tensor α} (hg : g.isMany = false)
    (hx : x.shape = [n, c, h, v]) (hh : 0 < h) (hv : 0 < v) {k : α} (hk : Constant k x) {a : Nat} (ha : a ∈ [2, 3]) {ix : List Nat}
    (hix : InB [n, c, h, v] ix) : (edges (usedKernel w) g x a).get ix = (usedKernel w).sum * k := by
  have hs := reflect_setup hg hx hh hv
  have hm : g.isMany = true → [2, 3].length - 1 = m := by intro h; rw [hg] at h; cases h
  have hps : HoldsBoth (.separate (reflectArgs.padder 1) (reflectArgs.padder 1)) (reflectArgs : PadArgs α) :=
    ⟨_, _, rfl, rfl, holds_padder _ 1, holds_padder _ 1⟩
  obtain ⟨ps1, e1, _, _⟩ := C75_components hb hps hs hm (fun _ => 0)
  obtain ⟨ps2, cs, e2, _, h2⟩ := C76_constant_response hb hw hone hps hs hm trivial hk (fun _ => 0)
  rw [e1] at e2
  simp only [Prod.mk.injEq, Except.ok.injEq] at e2
  obtain ⟨_, rfl⟩ := e2
  obtain ⟨h3, h4⟩ := h2 (edges (usedKernel w) g x a) (List.mem_map.2 ⟨a, ha, rfl⟩)
  exact h4 ix (by rw [h3, hx]; exact hix)

end

/-! ### `WeightedDiv` and the constructor -/

section
variable {f : EdgeFilter ℝ} {w : List ℝ} {g : Given (List ℝ)} {m n c h v : Nat}

theorem any_stacked (E : Nat → Tensor ℝ) : (∃ ix ∈ indices [n, c + c, h, v], stacked E c ix = 0) ↔
    ∃ a ∈ [2, 3], ∃ ix, InB [n, c, h, v] ix ∧ (E a).get ix = 0 := by
  have hp : ((indices [n, c + c, h, v]).map (stacked E c)).Perm ((indices [n, c, h, v]).map (E 2).get ++ (indices [n, c, h, v]).map (E 3).get) :=
    map_cat (S := [n, c, h, v]) (d := 1) (by simp) (E 2).get (E 3).get
  have hm := hp.mem_iff (a := 0)
  simp only [List.mem_map, List.mem_append, mem_indices] at hm
  simp only [mem_indices, hm, List.mem_cons, List.not_mem_nil, or_false]
  constructor
  · rintro (⟨ix, h⟩ | ⟨ix, h⟩)
    · exact ⟨2, Or.inl rfl, ix, h⟩
    · exact ⟨3, Or.inr rfl, ix, h⟩
  · rintro ⟨a, rfl | rfl, ix, h⟩
    · exact Or.inl ⟨ix, h⟩
    · exact Or.inr ⟨ix, h⟩

theorem divLoss_eq (S : List Nat) (u u' : List Nat → ℝ) :
    ((∃ ix ∈ indices S, u' ix = 0) → EdgeLoss.divLoss (ofFn S u) (ofFn S u') = .ok .bad) ∧
    ((¬ ∃ ix ∈ indices S, u' ix = 0) → EdgeLoss.divLoss (ofFn S u) (ofFn S u') =
      .ok (.real (Spec.mean ((indices S).map fun ix => |u' ix - u ix| / u' ix)))) := by
  have e1 : bop (· - ·) (ofFn S u') (ofFn S u) = .ok (ofFn S fun ix => u' ix - u ix) := by
    rw [bop_same (by simp)]
    congr 1
    apply ofFn_congr
    intro ix hix
    have hix : InB S ix := by simpa using hix
    rw [get_ofFn hix, get_ofFn hix]
  have e2 : bop (fun a b : ℝ => (a / b, b)) (ofFn S fun ix => |u' ix - u ix|) (ofFn S u') = .ok (ofFn S fun ix => (|u' ix - u ix| / u' ix, u' ix)) := by
    rw [bop_same (by simp)]
    congr 1
    apply ofFn_congr
    intro ix hix
    have hix : InB S ix := by simpa using hix
    rw [get_ofFn hix, get_ofFn hix]
  have e3 : ((ofFn S fun ix => (|u' ix - u ix| / u' ix, u' ix)).data.any fun r => decide (r.2 = 0)) = true ↔ ∃ ix ∈ indices S, u' ix = 0 := by
    simp [ofFn]
  simp only [EdgeLoss.divLoss, e1, ok_bind, map_ofFn, e2, e3]
  constructor
  · intro h
    rw [if_pos h]
  · intro h
    rw [if_neg h, meanAll]
    rfl

/-- **C85.** `WeightedDiv`: if no true edge is zero, the absolute differences are divided by the (signed) true edges. -/
theorem C85_weighted_div (hb : EdgeBuilt f w g m) {ps : EdgePadders ℝ} (hps : HoldsBoth ps reflectArgs) {p t : Tensor ℝ}
    (hi : EdgeImages g n c h v p t) (hne : ∀ a ∈ [2, 3], ∀ ix, InB [n, c, h, v] ix → (edges (usedKernel w) g t a).get ix ≠ 0) (junk : List Nat → ℝ) :
    ∃ ps', EdgeLoss.weightedDiv f ps junk p t = (ps', .ok (.real (overBoth [n, c, h, v] fun a ix =>
      |(edges (usedKernel w) g t a).get ix - (edges (usedKernel w) g p a).get ix| / (edges (usedKernel w) g t a).get ix))) ∧
      HoldsBoth ps' reflectArgs := by
  obtain ⟨ps', e, h'⟩ := withEdges_eq EdgeLoss.divLoss hb hps hi junk
  refine ⟨ps', ?_, h'⟩
  rw [EdgeLoss.weightedDiv, e, (divLoss_eq _ _ _).2 (by
    rw [any_stacked]
    rintro ⟨a, ha, ix, hix, h0⟩
    exact hne a ha ix hix h0)]
  rw [mean_stacked (fun a b => |b - a| / b)]

/-- **C85**: if a true edge is zero, `WeightedDiv` is not a number. -/
theorem C85_weighted_div_zero (hb : EdgeBuilt f w g m) {ps : EdgePadders ℝ} (hps : HoldsBoth ps reflectArgs) {p t : Tensor ℝ}
    (hi : EdgeImages g n c h v p t) {a : Nat} (ha : a ∈ [2, 3]) {ix : List Nat} (hix : InB [n, c, h, v] ix)
    (h0 : (edges (usedKernel w) g t a).get ix = 0) (junk : List Nat → ℝ) : (EdgeLoss.weightedDiv f ps junk p t).2 = .ok .bad := by
  obtain ⟨ps', e, h'⟩ := withEdges_eq EdgeLoss.divLoss hb hps hi junk
  rw [EdgeLoss.weightedDiv, e, (divLoss_eq _ _ _).1 (any_stacked _ |>.2 ⟨a, ha, ix, hix, h0⟩)]

/-- the smoothing kernel of a loss -/
noncomputable def Spec.lossSmooth (ks : Nat) (sigma : ℝ) : Given (List ℝ) := .one (normalised (gaussWeights ks sigma 0))

/-- **C85**: the constructor.  The edge kernel is the Gaussian kernel of the given order, the smoothing kernel the normalised Gaussian, and
the padders reflect; all theorems above apply to it. -/
theorem C85_init (ks : Nat) {sigma : ℝ} (hs : sigma ≠ 0) (order : Nat) :
    ∃ f ps, EdgeLoss.init (.leaf ks) (.leaf sigma) order = .ok (f, ps) ∧ EdgeBuilt f (gaussWeights ks sigma order) (lossSmooth ks sigma) 1 ∧
      HoldsBoth ps reflectArgs ∧ (lossSmooth ks sigma).isMany = false := by
  obtain ⟨f, e, hb⟩ := gaussianGrad_built (size := .one ks) (sigma := .one sigma) (m := 1) Nat.one_pos trivial trivial
    (by intro s h; simp only [Given.values, List.mem_singleton] at h; rw [h]; exact hs) ks (es := sigma) hs true order none none
    (Or.inr ⟨rfl, rfl⟩) (Or.inr ⟨rfl, rfl⟩)
  have e' : EdgeFilter.gaussianGrad (.leaf ks) (.leaf sigma) none none true order = .ok f := e
  have ep : Padder.init (.leaf 0) (.leaf (.reflect : Mode ℝ)) (.leaf 0) (.leaf 0) (.leaf none) = .ok (reflectArgs.padder 1) := by
    rfl
  refine ⟨f, .separate (reflectArgs.padder 1) (reflectArgs.padder 1), ?_, ?_, ⟨_, _, rfl, rfl, holds_padder _ 1, holds_padder _ 1⟩, rfl⟩
  · simp only [EdgeLoss.init, e', ok_bind, ep]
  · exact hb

/-! ## C86: signs -/

/-- **C86** is false: `WeightedMul(3, 1, 2)` and `WeightedDiv(3, 1, 2)` are negative for a black prediction and any constant positive
image. -/
theorem C86_negative_false : ∃ f ps, EdgeLoss.init (.leaf 3) (.leaf 1) 2 = .ok (f, ps) ∧ ∀ {n c h v : Nat}, 0 < n → 0 < c → 0 < h → 0 < v →
    ∀ {k : ℝ}, 0 < k → ∀ {p t : Tensor ℝ}, p.shape = [n, c, h, v] → t.shape = [n, c, h, v] → Constant 0 p → Constant k t → ∀ junk,
    ∃ a : ℝ, a < 0 ∧ (EdgeLoss.weightedMul f ps junk p t).2 = .ok (.scalar a) ∧ (EdgeLoss.weightedDiv f ps junk p t).2 = .ok (.real (-1)) := by
  obtain ⟨f, ps, e, hb, hps, hg⟩ := C85_init 3 (sigma := 1) one_ne_zero 2
  refine ⟨f, ps, e, ?_⟩
  intro n c h v hn hc hh hv k hk p t hp ht hp0 ht0 junk
  have hw : gaussWeights 3 1 2 = [0, -(1 / (1 + 2 * bell 1 1)), 0] := by
    rw [gaussWeights_three]
    norm_num
    ring
  have hu : usedKernel (gaussWeights 3 1 2) = gaussWeights 3 1 2 := by
    rw [hw, usedKernel, if_neg, if_neg]
    · simp only [TakenForSecond]; norm_num
    · simp only [TakenForFirst]; norm_num
  have hbell := bell_pos 1 1
  set s : ℝ := (usedKernel (gaussWeights 3 1 2)).sum with hsdef
  have hs : s < 0 := by
    rw [hsdef, hu, hw]
    have : 0 < 1 / (1 + 2 * bell 1 1) := by positivity
    simp only [List.sum_cons, List.sum_nil, add_zero, zero_add]
    linarith
  have hi : EdgeImages (lossSmooth 3 1) n c h v p t := ⟨hp, ht, hh, hv, hg⟩
  have hone : ∀ u ∈ (lossSmooth 3 1).values, u ≠ [] → u.sum = 1 := by
    intro u hu _
    simp only [lossSmooth, Given.values, List.mem_singleton] at hu
    rw [hu]
    apply normalised_sum
    rw [gaussWeights_zero_sum one_ne_zero (by decide)]
    exact one_ne_zero
  have hwne : gaussWeights 3 1 2 ≠ [] := by rw [hw]; simp
  have ep : ∀ a ∈ [2, 3], ∀ ix, InB [n, c, h, v] ix → (edges (usedKernel (gaussWeights 3 1 2)) (lossSmooth 3 1) p a).get ix = 0 := by
    intro a ha ix hix
    rw [edges_constant hb hwne hone hg hp hh hv hp0 ha hix, mul_zero]
  have et : ∀ a ∈ [2, 3], ∀ ix, InB [n, c, h, v] ix → (edges (usedKernel (gaussWeights 3 1 2)) (lossSmooth 3 1) t a).get ix = s * k := by
    intro a ha ix hix
    rw [edges_constant hb hwne hone hg ht hh hv ht0 ha hix]
  have hsk : s * k < 0 := mul_neg_of_neg_of_pos hs hk
  have hne : indices [n, c, h, v] ≠ [] := by
    intro h0
    have : [0, 0, 0, 0] ∈ indices [n, c, h, v] := mem_indices.2 ⟨hn, hc, hh, hv, trivial⟩
    rw [h0] at this
    simp at this
  have hmean : ∀ (u : Nat → List Nat → ℝ) (r : ℝ), (∀ a ∈ [2, 3], ∀ ix, InB [n, c, h, v] ix → u a ix = r) → overBoth [n, c, h, v] u = r := by
    intro u r hur
    have : ∀ a ∈ [2, 3], Spec.mean ((indices [n, c, h, v]).map (u a)) = r := by
      intro a ha
      apply mean_constant (by simpa using hne)
      intro b hb
      obtain ⟨ix, hix, rfl⟩ := List.mem_map.1 hb
      exact hur a ha ix (mem_indices.1 hix)
    rw [overBoth, this 2 (by simp), this 3 (by simp)]
    ring
  obtain ⟨_, e1, _⟩ := C85_weighted_mul hb hps hi junk
  obtain ⟨_, e2, _⟩ := C85_weighted_div hb hps hi (by
    intro a ha ix hix
    rw [et a ha ix hix]
    exact hsk.ne) junk
  refine ⟨|s * k| * (s * k), mul_neg_of_pos_of_neg (abs_pos.2 hsk.ne) hsk, ?_, ?_⟩
  · rw [e1]
    rw [hmean _ (|s * k| * (s * k))]
    intro a ha ix hix
    rw [et a ha ix hix, ep a ha ix hix, sub_zero]
  · rw [e2]
    rw [hmean _ (-1)]
    intro a ha ix hix
    rw [et a ha ix hix, ep a ha ix hix, sub_zero, abs_of_neg hsk, neg_div, div_self hsk.ne]

/-- **C86**: with an odd kernel size and an odd order, `WeightedDiv` of a constant true image is never a number. -/
theorem C86_constant_truth {ks : Nat} (hk : ks % 2 = 1) {sigma : ℝ} (hs : sigma ≠ 0) {order : Nat} (ho : order % 2 = 1) :
    ∃ f ps, EdgeLoss.init (.leaf ks) (.leaf sigma) order = .ok (f, ps) ∧ ∀ {n c h v : Nat}, 0 < n → 0 < c → 0 < h → 0 < v →
    ∀ {k : ℝ} {p t : Tensor ℝ}, p.shape = [n, c, h, v] → t.shape = [n, c, h, v] → Constant k t → ∀ junk,
    (EdgeLoss.weightedDiv f ps junk p t).2 = .ok .bad := by
  obtain ⟨f, ps, e, hb, hps, hg⟩ := C85_init ks hs order
  refine ⟨f, ps, e, ?_⟩
  intro n c h v hn hc hh hv k p t hp ht ht0 junk
  have hone : ∀ u ∈ (lossSmooth ks sigma).values, u ≠ [] → u.sum = 1 := by
    intro u hu _
    simp only [lossSmooth, Given.values, List.mem_singleton] at hu
    rw [hu]
    apply normalised_sum
    rw [gaussWeights_zero_sum hs (by omega)]
    exact one_ne_zero
  have hsum : (usedKernel (gaussWeights ks sigma order)).sum = 0 := usedKernel_sum (gaussWeights_odd_sum hs hk ho)
  have hwne : gaussWeights ks sigma order ≠ [] := by
    intro h0
    have := congrArg List.length h0
    simp [gaussWeights] at this
    omega
  have hin : InB [n, c, h, v] [0, 0, 0, 0] := ⟨hn, hc, hh, hv, trivial⟩
  refine C85_weighted_div_zero hb hps ⟨hp, ht, hh, hv, hg⟩ (a := 2) (by simp) hin ?_ junk
  rw [edges_constant hb hwne hone hg ht hh hv ht0 (by simp) hin, hsum, zero_mul]

/-- **C86**, what holds instead: the weighted losses are not negative if the true edges are not negative (positive for `WeightedDiv`).
Missing: true images with negative edges, where the weights are negative. -/
theorem C86_nonneg_partial (hb : EdgeBuilt f w g m) {ps : EdgePadders ℝ} (hps : HoldsBoth ps reflectArgs) {p t : Tensor ℝ}
    (hi : EdgeImages g n c h v p t) (hnn : ∀ a ∈ [2, 3], ∀ ix, InB [n, c, h, v] ix → 0 ≤ (edges (usedKernel w) g t a).get ix) (junk : List Nat → ℝ) :
    ∃ a : ℝ, 0 ≤ a ∧ (EdgeLoss.weightedMul f ps junk p t).2 = .ok (.scalar a) ∧
      ((∀ a ∈ [2, 3], ∀ ix, InB [n, c, h, v] ix → (edges (usedKernel w) g t a).get ix ≠ 0) →
        ∃ b : ℝ, 0 ≤ b ∧ (EdgeLoss.weightedDiv f ps junk p t).2 = .ok (.real b)) := by
  have hob : ∀ u : Nat → List Nat → ℝ, (∀ a ∈ [2, 3], ∀ ix, InB [n, c, h, v] ix → 0 ≤ u a ix) → 0 ≤ overBoth [n, c, h, v] u := by
    intro u hu
    have h1 : ∀ a ∈ [2, 3], 0 ≤ Spec.mean ((indices [n, c, h, v]).map (u a)) := by
      intro a ha
      apply mean_nonneg
      intro b hb
      obtain ⟨ix, hix, rfl⟩ := List.mem_map.1 hb
      exact hu a ha ix (mem_indices.1 hix)
    exact div_nonneg (add_nonneg (h1 2 (by simp)) (h1 3 (by simp))) (by norm_num)
  obtain ⟨_, e1, _⟩ := C85_weighted_mul hb hps hi junk
  refine ⟨_, hob _ fun a ha ix hix => mul_nonneg (abs_nonneg _) (hnn a ha ix hix), by rw [e1], ?_⟩
  intro hne
  obtain ⟨_, e2, _⟩ := C85_weighted_div hb hps hi hne junk
  exact ⟨_, hob _ fun a ha ix hix => div_nonneg (abs_nonneg _) (hnn a ha ix hix), by rw [e2]⟩

/-! ## concrete cases -/

/-- C85: the loss of kernel size 5, sigma 2, order 1 on two images of shape (1, 3, 4, 6) -/
example : ∃ f ps, EdgeLoss.init (.leaf 5) (.leaf 2) 1 = .ok (f, ps) ∧ ∀ p t : Tensor ℝ, p.shape = [1, 3, 4, 6] → t.shape = [1, 3, 4, 6] → ∀ junk,
    ∃ a : ℝ, (EdgeLoss.forward f ps junk p t).2 = .ok (.scalar a) ∧ (EdgeLoss.forward f ps junk t p).2 = .ok (.scalar a) ∧ 0 ≤ a := by
  obtain ⟨f, ps, e, hb, hps, hg⟩ := C85_init 5 (sigma := 2) two_ne_zero 1
  refine ⟨f, ps, e, ?_⟩
  intro p t hp ht junk
  obtain ⟨a, _, h1, _, h2, _, h3, _⟩ := C85_distance hb hps ⟨hp, ht, by decide, by decide, hg⟩ junk
  exact ⟨a, h1, h2, h3⟩

end

end TI
