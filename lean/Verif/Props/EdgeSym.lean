import Verif.Proofs.EdgeSym
import Verif.Props.Edges
import Verif.Props.EdgesGauss

/-!
# Symmetries of the edge filters (C111)
-/

set_option linter.unusedSectionVars false

namespace TI
open Tensor Spec

section
variable {α : Type} [Field α] [LinearOrder α] [IsStrictOrderedRing α] [FloorRing α] {x : Tensor α} {b d : Nat} {f : EdgeFilter α} {m : Nat}
  {g : Given (List α)} {gp : PadArgs α} {ax : Axes} {axes : List Nat} {w : List α} {s c e : α} {ps : EdgePadders α}

/-- **C111**: if the edge kernel is multiplied by `s` when read backwards, the smoothing kernels and the padding settings are the same in both
directions and the padder follows a multiplication by `s`, then the components of the image with axis `d` reversed are the reversed components,
the one along axis `d` multiplied by `s`. -/
theorem C111_mirrored (hf : EdgeBuilt f w g m) (hps : HoldsBoth ps gp) (h : EdgeSetup g gp x ax axes) (hm : g.isMany = true → axes.length - 1 = m)
    (he : EvenHanded gp) (hw : Parity s (usedKernel w)) (hg : SmoothsEvenly g (axes.length - 1))
    (hs : gp.Follows (fun v => s * v) (axes.length - 1) gp) (d : Nat) (junk junk' : List Nat → α) :
    ∃ ps' ps'' cs, f.allComponents ps junk x ax = (ps', .ok cs) ∧ cs.length = axes.length ∧
      f.allComponents ps junk' (flipped d x) ax =
        (ps'', .ok (List.zipWith (fun a z => if a = d then (flipped d z).map (s * ·) else flipped d z) axes cs)) := by
  obtain ⟨ps', e, -⟩ := C75_components hf hps h hm junk
  obtain ⟨ps'', e', -⟩ := C75_components hf hps (h.congr (flipped_shape d x)) hm junk'
  refine ⟨ps', ps'', _, e, by simp, ?_⟩
  rw [e', List.zipWith_map_right, List.zipWith_self]
  congr 2
  apply List.map_congr_left
  intro a ha
  exact edgeResponse_flip h ha he hw hg hs

theorem magnitude_form (hf : EdgeBuilt f w g m) (hps : HoldsBoth ps gp) (h : EdgeSetup g gp x ax axes) (hm : g.isMany = true → axes.length - 1 = m)
    (root : α → α) (epsilon : α) {p : Nat} (hp : p ≠ 0) (hact : Acts w g axes.length p) (junk : List Nat → α) :
    ∃ ps', f.magnitude root ps junk x ax epsilon p = (ps', .ok ((powerSum x.shape p (edgeResponse (usedKernel w) g gp x axes) axes).map fun v =>
      if p = 1 then v + epsilon else root (v + epsilon))) := by
  obtain ⟨ps', e, _⟩ := magnitude_eq (f := f) (junk := junk) (Inv := fun ps => HoldsBoth ps gp) (root := root) hp (S := x.shape)
    (c := edgeResponse (usedKernel w) g gp x axes) h.axes_eq h.two hps
    (fun a ha ps hps => h.component hf.edgeIs hm ha hps junk) (fun a ha => h.response_shape _ ha) (h.own hf.edgeIs hm hact junk) epsilon
  exact ⟨ps', e⟩

/-- **C111**: for powers with `s ^ p = 1` the magnitude of the reversed image is the reversed magnitude. -/
theorem C111_magnitude_mirrored (hf : EdgeBuilt f w g m) (hps : HoldsBoth ps gp) (h : EdgeSetup g gp x ax axes)
    (hm : g.isMany = true → axes.length - 1 = m) (he : EvenHanded gp) (hw : Parity s (usedKernel w)) (hg : SmoothsEvenly g (axes.length - 1))
    (hs : gp.Follows (fun v => s * v) (axes.length - 1) gp) (root : α → α) (epsilon : α) {p : Nat} (hp : p ≠ 0) (hact : Acts w g axes.length p) (hsp : s ^ p = 1) (d : Nat)
    (junk junk' : List Nat → α) :
    ∃ ps' ps'' z, f.magnitude root ps junk x ax epsilon p = (ps', .ok z) ∧ f.magnitude root ps junk' (flipped d x) ax epsilon p = (ps'', .ok (flipped d z)) := by
  obtain ⟨ps', e⟩ := magnitude_form hf hps h hm root epsilon hp hact junk
  obtain ⟨ps'', e'⟩ := magnitude_form hf hps (h.congr (flipped_shape d x)) hm root epsilon hp hact junk'
  refine ⟨ps', ps'', _, e, ?_⟩
  rw [e', flipped_map, flipped_shape]
  congr 3
  refine ext_get rfl ?_
  intro ix hix
  have hix' : InB x.shape ix := hix
  rw [flipped_get (show InB (powerSum x.shape p (edgeResponse (usedKernel w) g gp x axes) axes).shape ix from hix), powerSum, get_ofFn hix']
  refine Eq.trans ?_ (get_ofFn (flip_inB hix')).symm
  congr 1
  apply List.map_congr_left
  intro a ha
  have hr := h.response_shape (usedKernel w) ha
  rw [edgeResponse_flip h ha he hw hg hs]
  have hfl : (flipped d (edgeResponse (usedKernel w) g gp x axes a)).get ix = (edgeResponse (usedKernel w) g gp x axes a).get
      (ix.set d (x.shape.getD d 0 - 1 - ix.getD d 0)) := by
    rw [flipped_get (by rw [hr]; exact hix'), hr]
  split_ifs with hd
  · rw [get_map _ _ (by rw [flipped_shape, hr]; exact hix'), hfl, mul_pow, hsp, one_mul]
  · rw [hfl]

theorem usedKernel_long (hl : w.length ≠ 3) : usedKernel w = w := by
  match w, hl with
  | [], _ => simp [usedKernel, TakenForFirst, TakenForSecond]
  | [_], _ => simp [usedKernel, TakenForFirst, TakenForSecond]
  | [_, _], _ => simp [usedKernel, TakenForFirst, TakenForSecond]
  | _ :: _ :: _ :: _ :: _, _ => simp [usedKernel, TakenForFirst, TakenForSecond]

/-- **C111**: the parities of the kernels of the library: the first differences of Sobel, Prewitt, Scharr and Farid change their sign, the second
differences of Laplace do not, and the smoothing kernels, normalised or not, are the same in both directions. -/
theorem C111_kernels : Parity (-1 : α) (usedKernel [-1, 0, 1]) ∧ Parity (-1 : α) (usedKernel EdgeFilter.faridEdge) ∧
    Parity (1 : α) (usedKernel [1, -2, 1]) ∧
    (∀ (normalize : Bool) (n : Nat), ∀ v ∈ [[1, 2, 1], [1, 1, 1], [3, 10, 3], EdgeFilter.faridSmooth],
      SmoothsEvenly (.one (if normalize then normalised v else v) : Given (List α)) n) ∧ ∀ n, SmoothsEvenly (.one [] : Given (List α)) n := by
  have h1 : usedKernel ([-1, 0, 1] : List α) = [-1, 0, 1] := usedKernel_fast (Or.inl rfl)
  have h3 : usedKernel ([1, -2, 1] : List α) = [1, -2, 1] := usedKernel_fast (Or.inr rfl)
  refine ⟨?_, ?_, ?_, ?_, ?_⟩
  · rw [h1]; exact ⟨by simp, by simp⟩
  · rw [usedKernel_long (by simp [EdgeFilter.faridEdge])]
    exact ⟨by simp [EdgeFilter.faridEdge], by simp [EdgeFilter.faridEdge]⟩
  · rw [h3]; exact ⟨by simp, by simp⟩
  · intro normalize n v hv i _
    have key : v.reverse = v ∧ v.length % 2 = 1 := by
      simp only [List.mem_cons, List.not_mem_nil, or_false] at hv
      rcases hv with rfl | rfl | rfl | rfl <;> simp [EdgeFilter.faridSmooth]
    cases normalize
    · exact ⟨key.1, Or.inl key.2⟩
    · refine ⟨?_, Or.inl ?_⟩
      · show (normalised v).reverse = normalised v
        rw [normalised, ← List.map_reverse, key.1]
      · show (normalised v).length % 2 = 1
        rw [normalised, List.length_map]; exact key.2
  · intro n i _
    exact ⟨rfl, Or.inr rfl⟩

/-- **C111**: with a padder that treats both ends alike and follows a change of sign, the components of Sobel, Prewitt, Scharr and Farid along a
reversed axis change their sign, the other components are reversed only, and magnitudes of even powers are reversed. -/
theorem C111_named (normalize : Bool) : ∃ f1 f2 f3 f4 : EdgeFilter α, EdgeFilter.sobel normalize = .ok f1 ∧ EdgeFilter.prewitt normalize = .ok f2 ∧
    EdgeFilter.scharr normalize = .ok f3 ∧ EdgeFilter.farid normalize = .ok f4 ∧ ∀ f ∈ [f1, f2, f3, f4], ∀ {gp : PadArgs α} {ps : EdgePadders α}
      {x : Tensor α} {ax : Axes} {axes : List Nat}, HoldsBoth ps gp → EdgeSetup (.one []) gp x ax axes → EvenHanded gp →
      gp.Follows (fun v => -v) (axes.length - 1) gp → ∀ (d : Nat) (junk junk' : List Nat → α),
      (∃ ps' ps'' cs, f.allComponents ps junk x ax = (ps', .ok cs) ∧ cs.length = axes.length ∧ f.allComponents ps junk' (flipped d x) ax =
        (ps'', .ok (List.zipWith (fun a z => if a = d then (flipped d z).map (- ·) else flipped d z) axes cs))) ∧
      ∀ (root : α → α) (epsilon : α) {p : Nat}, p ≠ 0 → p % 2 = 0 → ∃ ps' ps'' z, f.magnitude root ps junk x ax epsilon p = (ps', .ok z) ∧
        f.magnitude root ps junk' (flipped d x) ax epsilon p = (ps'', .ok (flipped d z)) := by
  obtain ⟨⟨f1, e1, b1⟩, ⟨f2, e2, b2⟩, ⟨f3, e3, b3⟩, ⟨f4, e4, b4⟩, _⟩ := C42_named (α := α) normalize
  refine ⟨f1, f2, f3, f4, e1, e2, e3, e4, ?_⟩
  obtain ⟨k1, k2, -, k4, -⟩ := C111_kernels (α := α)
  have key : ∀ {f : EdgeFilter α} {w v : List α}, v ∈ [[1, 2, 1], [1, 1, 1], [3, 10, 3], EdgeFilter.faridSmooth] → Parity (-1 : α) (usedKernel w) →
      EdgeBuilt f w (.one (if normalize then normalised v else v)) 1 → ∀ {gp : PadArgs α} {ps : EdgePadders α}
      {x : Tensor α} {ax : Axes} {axes : List Nat}, HoldsBoth ps gp → EdgeSetup (.one []) gp x ax axes → EvenHanded gp →
      gp.Follows (fun v => -v) (axes.length - 1) gp → ∀ (d : Nat) (junk junk' : List Nat → α),
      (∃ ps' ps'' cs, f.allComponents ps junk x ax = (ps', .ok cs) ∧ cs.length = axes.length ∧ f.allComponents ps junk' (flipped d x) ax =
        (ps'', .ok (List.zipWith (fun a z => if a = d then (flipped d z).map (- ·) else flipped d z) axes cs))) ∧
      ∀ (root : α → α) (epsilon : α) {p : Nat}, p ≠ 0 → p % 2 = 0 → ∃ ps' ps'' z, f.magnitude root ps junk x ax epsilon p = (ps', .ok z) ∧
        f.magnitude root ps junk' (flipped d x) ax epsilon p = (ps'', .ok (flipped d z)) := by
    intro f w v hv hw hb gp ps x ax axes hps h he hfl d junk junk'
    have h' := EdgeSetup_one (g' := .one (if normalize then normalised v else v)) h rfl
    have hfl' : gp.Follows (fun v => (-1 : α) * v) (axes.length - 1) gp := by simpa using hfl
    constructor
    · obtain ⟨ps', ps'', cs, h1, h2, h3⟩ := C111_mirrored hb hps h' (by intro h; cases h) he hw (k4 normalize _ v hv) hfl' d junk junk'
      refine ⟨ps', ps'', cs, h1, h2, ?_⟩
      simpa using h3
    · intro root epsilon p hp hev
      exact C111_magnitude_mirrored hb hps h' (by intro h; cases h) he hw (k4 normalize _ v hv) hfl' root epsilon hp (Or.inl (by rintro rfl; cases hev))
        (Even.neg_one_pow (Nat.even_iff.2 hev)) d junk junk'
  intro f hf
  simp only [List.mem_cons, List.not_mem_nil, or_false] at hf
  rcases hf with rfl | rfl | rfl | rfl
  · exact key (by simp) k1 b1
  · exact key (by simp) k1 b2
  · exact key (by simp) k1 b3
  · exact key (by simp) k2 b4

theorem follows_one {t : AxisPad α} (ht : t.rule? ≠ none) : t.Follows (fun v => (1 : α) * v) t where
  mode := rfl
  sl := rfl
  fill := by
    have haff : ∃ c d : α, ∀ v, 1 * v = c * v + d := ⟨1, 0, by simp⟩
    cases hm : t.mode <;> simp only [AxisPad.rule?, hm] at ht ⊢ <;> simp at ht ⊢
    · exact ⟨1, 0, by simp⟩
    · exact ⟨1, 0, by simp⟩
    · exact ⟨1, 0, by simp⟩
    · rename_i st
      cases st
      all_goals simp only [StatFollows]
      all_goals first | exact ⟨1, 0, by simp⟩ | (intro u v h; simpa using h)
    · exact ⟨1, 0, by simp⟩

/-- **C111**: `Laplace` commutes with reversing any axis, for every padder that treats both ends alike. -/
theorem C111_laplace : ∃ f : EdgeFilter α, EdgeFilter.laplace = .ok f ∧ ∀ {gp : PadArgs α} {ps : EdgePadders α}, HoldsBoth ps gp →
    ∀ {x : Tensor α} {ax : Axes} {axes : List Nat}, EdgeSetup (.one []) gp x ax axes → EvenHanded gp → ∀ (d : Nat) (junk junk' : List Nat → α),
    ∃ ps' ps'' z, f.laplaceForward ps junk x ax = (ps', .ok z) ∧ f.laplaceForward ps junk' (flipped d x) ax = (ps'', .ok (flipped d z)) := by
  obtain ⟨f, e, hf⟩ := laplace_built (α := α)
  refine ⟨f, e, ?_⟩
  intro gp ps hps x ax axes h he d junk junk'
  obtain ⟨-, -, k3, -, k5⟩ := C111_kernels (α := α)
  refine C111_magnitude_mirrored hf hps h (by intro h; cases h) he k3 (k5 _) ?_ id 0 one_ne_zero (Or.inr (Or.inl (by simp))) (one_pow 1) d junk junk'
  intro i _
  exact follows_one (h.valued _ (uniform_entry h.uniform i)).1

/-! ## moving around an axis -/

/-- **C111**: with circular padding, the components of the image moved around any axis are the components moved likewise. -/
theorem C111_rolled (hf : EdgeBuilt f w g m) (hps : HoldsBoth ps gp) (h : EdgeSetup g gp x ax axes) (hm : g.isMany = true → axes.length - 1 = m)
    (hb : b < x.ndim) (hmode : gp.mode.entry .unknown 0 = .circular) (d : Nat) (junk junk' : List Nat → α) :
    ∃ ps' ps'' cs, f.allComponents ps junk x ax = (ps', .ok cs) ∧ f.allComponents ps junk' (rolled b d x) ax = (ps'', .ok (cs.map (rolled b d))) := by
  obtain ⟨ps', e, -⟩ := C75_components hf hps h hm junk
  obtain ⟨ps'', e', -⟩ := C75_components hf hps (h.congr (rolled_shape b d x)) hm junk'
  refine ⟨ps', ps'', _, e, ?_⟩
  rw [e', List.map_map]
  congr 2
  apply List.map_congr_left
  intro a ha
  exact edgeResponse_rolled h ha hb hmode

/-- **C111**: the magnitude moves along as well, for every power. -/
theorem C111_magnitude_rolled (hf : EdgeBuilt f w g m) (hps : HoldsBoth ps gp) (h : EdgeSetup g gp x ax axes) (hm : g.isMany = true → axes.length - 1 = m)
    (hb : b < x.ndim) (hmode : gp.mode.entry .unknown 0 = .circular) (root : α → α) (epsilon : α) {p : Nat} (hp : p ≠ 0) (hact : Acts w g axes.length p) (d : Nat)
    (junk junk' : List Nat → α) :
    ∃ ps' ps'' z, f.magnitude root ps junk x ax epsilon p = (ps', .ok z) ∧ f.magnitude root ps junk' (rolled b d x) ax epsilon p = (ps'', .ok (rolled b d z)) := by
  obtain ⟨ps', e⟩ := magnitude_form hf hps h hm root epsilon hp hact junk
  obtain ⟨ps'', e'⟩ := magnitude_form hf hps (h.congr (rolled_shape b d x)) hm root epsilon hp hact junk'
  refine ⟨ps', ps'', _, e, ?_⟩
  rw [e', rolled_shape]
  congr 2
  refine ext_get rfl ?_
  intro ix hix
  have hix' : InB x.shape ix := hix
  have hix2 : InB (powerSum x.shape p (edgeResponse (usedKernel w) g gp x axes) axes).shape (ix.set b ((ix.getD b 0 + d) % x.shape.getD b 0)) := roll_inB hix'
  rw [rolled_get (show InB (((powerSum x.shape p (edgeResponse (usedKernel w) g gp x axes) axes).map _).shape) ix from hix),
    get_map _ _ (show InB (powerSum x.shape p (edgeResponse (usedKernel w) g gp (rolled b d x) axes) axes).shape ix from hix)]
  refine Eq.trans ?_ (get_map _ _ hix2).symm
  rw [powerSum, powerSum, get_ofFn hix', get_ofFn (roll_inB hix')]
  have : (axes.map fun a => (edgeResponse (usedKernel w) g gp (rolled b d x) axes a).get ix ^ p) =
      axes.map fun a => (edgeResponse (usedKernel w) g gp x axes a).get (ix.set b ((ix.getD b 0 + d) % x.shape.getD b 0)) ^ p := by
    apply List.map_congr_left
    intro a ha
    have hr := h.response_shape (usedKernel w) ha
    rw [edgeResponse_rolled h ha hb hmode, rolled_get (by rw [hr]; exact hix'), hr]
  rw [this]

/-! ## other grey values -/

/-- **C111**: for an edge kernel of sum zero and a padder that follows the change, the components of `c * x + e` are `c` times the components. -/
theorem C111_grey (hf : EdgeBuilt f w g m) (hps : HoldsBoth ps gp) (h : EdgeSetup g gp x ax axes) (hm : g.isMany = true → axes.length - 1 = m)
    (hw : usedKernel w ≠ []) (h0 : (usedKernel w).sum = 0) (hfl : gp.Follows (fun v => c * v + e) 1 gp)
    (hfl' : gp.Follows (fun v => c * v) (axes.length - 1) gp) (junk junk' : List Nat → α) :
    ∃ ps' ps'' cs, f.allComponents ps junk x ax = (ps', .ok cs) ∧
      f.allComponents ps junk' (x.map fun v => c * v + e) ax = (ps'', .ok (cs.map fun z => z.map (c * ·))) := by
  obtain ⟨ps', q, -⟩ := C75_components hf hps h hm junk
  obtain ⟨ps'', q', -⟩ := C75_components hf hps (h.congr (x' := x.map fun v => c * v + e) rfl) hm junk'
  refine ⟨ps', ps'', _, q, ?_⟩
  rw [q', List.map_map]
  congr 2
  apply List.map_congr_left
  intro a ha
  exact edgeResponse_map h ha hw h0 hfl hfl'

/-- **C111**: then the magnitude is the root of `c ^ p` times the sum of powers; in particular it does not change if `c ^ p = 1`, so for a brighter
image, or for the negative of an image and an even power. -/
theorem C111_magnitude_grey (hf : EdgeBuilt f w g m) (hps : HoldsBoth ps gp) (h : EdgeSetup g gp x ax axes) (hm : g.isMany = true → axes.length - 1 = m)
    (hw : usedKernel w ≠ []) (h0 : (usedKernel w).sum = 0) (hfl : gp.Follows (fun v => c * v + e) 1 gp)
    (hfl' : gp.Follows (fun v => c * v) (axes.length - 1) gp) (root : α → α) (epsilon : α) {p : Nat} (hp : p ≠ 0) (junk junk' : List Nat → α) :
    (∃ ps' ps'' cs z, f.allComponents ps junk x ax = (ps', .ok cs) ∧ f.magnitude root ps junk' (x.map fun v => c * v + e) ax epsilon p = (ps'', .ok z) ∧
      z.shape = x.shape ∧ ∀ ix, InB x.shape ix → z.get ix =
        if p = 1 then c * (cs.map fun y => y.get ix).sum + epsilon else root (c ^ p * (cs.map fun y => y.get ix ^ p).sum + epsilon)) ∧
    (c ^ p = 1 → ∃ ps' ps'' z, f.magnitude root ps junk x ax epsilon p = (ps', .ok z) ∧
      f.magnitude root ps junk' (x.map fun v => c * v + e) ax epsilon p = (ps'', .ok z)) := by
  have hact : Acts w g axes.length p := Or.inr (Or.inl fun h => hw (List.length_eq_zero_iff.1 (by rw [usedKernel_length, h]; rfl)))
  obtain ⟨ps1, q1, -⟩ := C75_components hf hps h hm junk
  obtain ⟨ps', q⟩ := magnitude_form hf hps h hm root epsilon hp hact junk
  obtain ⟨ps'', q'⟩ := magnitude_form hf hps (h.congr (x' := x.map fun v => c * v + e) rfl) hm root epsilon hp hact junk'
  have key : ∀ ix, InB x.shape ix → (axes.map fun a => (edgeResponse (usedKernel w) g gp (x.map fun v => c * v + e) axes a).get ix ^ p).sum =
      c ^ p * (axes.map fun a => (edgeResponse (usedKernel w) g gp x axes a).get ix ^ p).sum := by
    intro ix hix
    rw [← List.sum_map_mul_left]
    congr 1
    apply List.map_congr_left
    intro a ha
    rw [edgeResponse_map h ha hw h0 hfl hfl', get_map _ _ (by rw [h.response_shape _ ha]; exact hix), mul_pow]
  refine ⟨⟨ps1, ps'', _, _, q1, q', rfl, ?_⟩, ?_⟩
  · intro ix hix
    rw [get_map _ _ (show InB (powerSum (x.map fun v => c * v + e).shape p (edgeResponse (usedKernel w) g gp (x.map fun v => c * v + e) axes) axes).shape ix from hix),
      powerSum, get_ofFn (show InB (x.map fun v => c * v + e).shape ix from hix), key ix hix,
      List.map_map, List.map_map]
    split_ifs with h1
    · subst h1
      simp [Function.comp_def]
    · rfl
  · intro hcp
    refine ⟨ps', ps'', _, q, ?_⟩
    rw [q']
    congr 3
    rw [powerSum, powerSum]
    apply ofFn_congr
    intro ix hix
    rw [key ix hix, hcp, one_mul]

end

/-! ## Gaussian derivatives -/

section
variable {α : Type} [Field α] [LinearOrder α] [IsStrictOrderedRing α] [FloorRing α]

theorem parity_used {s : α} {w : List α} (h : Parity s w) : Parity s (usedKernel w) := by
  by_cases hl : w.length = 3
  swap
  · rw [usedKernel_long hl]; exact h
  obtain ⟨u, v, t, rfl⟩ := List.length_eq_three.1 hl
  have h2 := h.2
  simp only [List.reverse_cons, List.reverse_nil, List.nil_append, List.cons_append, List.map_cons, List.map_nil, List.cons.injEq, and_true] at h2
  obtain ⟨h2, h3, h4⟩ := h2
  rw [usedKernel]
  split_ifs with hf hg
  · obtain ⟨⟨a1, a2⟩, -, ⟨c1, c2⟩⟩ := hf
    have : s = -1 := by
      have e : (s * s - 1) * u = 0 := by rw [sub_mul, mul_assoc, ← h2, ← h4]; ring
      have hu : u ≠ 0 := by intro h; rw [h] at a2; linarith
      have : s * s - 1 = 0 := by rcases mul_eq_zero.1 e with h | h; exact h; exact absurd h hu
      have : (s - 1) * (s + 1) = 0 := by linear_combination this
      rcases mul_eq_zero.1 this with h | h
      · have : s = 1 := by linarith
        rw [this, one_mul] at h2
        linarith
      · linarith
    rw [this]
    exact ⟨by simp, by simp⟩
  · obtain ⟨-, ⟨b1, b2⟩, -⟩ := hg
    have : s = 1 := by
      have e : (s - 1) * v = 0 := by rw [sub_mul, ← h3]; ring
      have hv : v ≠ 0 := by intro h; rw [h] at b2; linarith
      rcases mul_eq_zero.1 e with h | h
      · linarith
      · exact absurd h hv
    rw [this]
    exact ⟨by simp, by simp⟩
  · exact h

end

section
variable {size : Given Nat} {sigma : Given ℝ} {m : Nat}

theorem gaussWeights_parity {σ : ℝ} (hσ : σ ≠ 0) {k : Nat} (hk : k % 2 = 1) (n : Nat) : Parity ((-1) ^ n) (gaussWeights k σ n) := by
  obtain ⟨w, h1, h2, h3⟩ := C38_parity hσ hk n
  rw [gaussianKernel_weights hσ] at h1
  cases h1
  exact ⟨by rw [h2]; exact hk, h3⟩

/-- **C111** applies to `GaussianGrad` with kernels of odd sizes: the edge kernel of order `n` is multiplied by `(-1)ⁿ` when read backwards, also if
the code replaces it by `(-1, 0, 1)` or `(1, -2, 1)`. -/
theorem C111_gaussian (hm : 0 < m) (hs : size.Fits m) (hg : sigma.Fits m) (hnz : ∀ s ∈ sigma.values, s ≠ 0) (hodd : ∀ k ∈ size.values, k % 2 = 1)
    {ek : Nat} (hek : ek % 2 = 1) {es : ℝ} (hes : es ≠ 0) (normalize : Bool) (order : Nat) :
    ∃ f w g, EdgeFilter.gaussianGrad (size.toPy pyNat) (sigma.toPy Py.leaf) (some (ek : Int)) (some es) normalize order = .ok f ∧
      EdgeBuilt f w g m ∧ Parity ((-1) ^ order) (usedKernel w) ∧ SmoothsEvenly g m ∧ (g.isMany = false → ∀ n, SmoothsEvenly g n) := by
  obtain ⟨f, h1, h2⟩ := gaussianGrad_built hm hs hg hnz ek hes normalize order (some ek) (some es) (Or.inl rfl) (Or.inl rfl)
  have key : ∀ i, ((size.isMany || sigma.isMany) = true → i < m) →
      ((if normalize then (smoothKernels m size sigma).map normalised else smoothKernels m size sigma).entry [] i).reverse =
        (if normalize then (smoothKernels m size sigma).map normalised else smoothKernels m size sigma).entry [] i ∧
      ((if normalize then (smoothKernels m size sigma).map normalised else smoothKernels m size sigma).entry [] i).length % 2 = 1 := by
    intro i hi
    have hk : size.entry 0 i % 2 = 1 := hodd _ (entry_mem hs 0 fun h => hi (by simp [h]))
    have hσ : sigma.entry 1 i ≠ 0 := hnz _ (entry_mem hg 1 fun h => hi (by simp [h]))
    have hent : (smoothKernels m size sigma).entry [] i = gaussWeights (size.entry 0 i) (sigma.entry 1 i) 0 := given_entry_zip [] hi
    have hp := gaussWeights_parity hσ hk 0
    rw [← hent] at hp
    have hrev : ((smoothKernels m size sigma).entry [] i).reverse = (smoothKernels m size sigma).entry [] i := by
      have := hp.2
      simpa using this
    cases normalize
    · exact ⟨hrev, hp.1⟩
    · simp only [if_true]
      have hn : ((smoothKernels m size sigma).map normalised).entry [] i = normalised ((smoothKernels m size sigma).entry [] i) :=
        given_entry_map normalised (smoothKernels m size sigma) [] i
      rw [hn]
      refine ⟨?_, ?_⟩
      · rw [normalised, ← List.map_reverse, hrev]
      · rw [normalised, List.length_map]; exact hp.1
  refine ⟨f, _, _, h1, h2, parity_used (gaussWeights_parity hes hek order), ?_, ?_⟩
  · intro i hi
    obtain ⟨h3, h4⟩ := key i fun _ => hi
    exact ⟨h3, Or.inl h4⟩
  · intro hmany n i _
    have hno : (size.isMany || sigma.isMany) = false := by
      rw [← given_isMany_zip (m := m) (F := fun k s => gaussWeights k s 0) (db := 0) (dc := 1)]
      cases normalize
      · exact hmany
      · simp only [if_true] at hmany
        rw [smoothKernels] at hmany
        cases hz : Given.zip m (fun k s => gaussWeights k s 0) 0 1 size sigma with
        | one b => rfl
        | many l => rw [hz] at hmany; cases hmany
    obtain ⟨h3, h4⟩ := key i fun h => by rw [hno] at h; cases h
    exact ⟨h3, Or.inl h4⟩

end
/-! ## examples -/

namespace EdgeSymExample

theorem reflect_even (mode : Mode ℚ) : EvenHanded (Example.modeArgs mode) := ⟨rfl, rfl, rfl⟩

theorem reflect_follows (f : ℚ → ℚ) (n : Nat) : (Example.modeArgs .reflect : PadArgs ℚ).Follows f n (Example.modeArgs .reflect) := fun _ _ => ⟨rfl, rfl, trivial⟩

/-- one padder object of mode circular shared by both filters -/
def circularPadders : EdgePadders ℚ := .shared (some ((Example.modeArgs .circular).padder 1))

theorem circular_holds : HoldsBoth circularPadders (Example.modeArgs .circular) := ⟨_, _, rfl, rfl, holds_padder _ 1, holds_padder _ 1⟩

theorem setup_circular {g : Given (List ℚ)} (hg : g.isMany = false) : EdgeSetup g (Example.modeArgs .circular) Example.x .none [0, 1] :=
  Example.setup (by intro s hs; simp [AxisPad.rule?, hs]) rfl hg

end EdgeSymExample

open EdgeSymExample in
/-- C111: `SobelFilter(same_padder=Padder(mode="reflect"))` on an image and on the image with reversed rows -/
example (junk junk' : List Nat → ℚ) : ∃ f : EdgeFilter ℚ, EdgeFilter.sobel true = .ok f ∧
    (∃ ps' ps'' c0 c1, f.allComponents Example.reflectPadders junk Example.x .none = (ps', .ok [c0, c1]) ∧
      f.allComponents Example.reflectPadders junk' (flipped 1 Example.x) .none = (ps'', .ok [flipped 1 c0, (flipped 1 c1).map (- ·)])) ∧
    ∃ ps' ps'' z, f.magnitude (fun v => v) Example.reflectPadders junk Example.x .none 0 2 = (ps', .ok z) ∧
      f.magnitude (fun v => v) Example.reflectPadders junk' (flipped 1 Example.x) .none 0 2 = (ps'', .ok (flipped 1 z)) := by
  obtain ⟨f, _, _, _, h1, -, -, -, h⟩ := C111_named (α := ℚ) true
  obtain ⟨⟨ps', ps'', cs, e1, e2, e3⟩, h3⟩ := h f (by simp) Example.reflect_holds (Example.setup_reflect rfl) (reflect_even _) (reflect_follows _ _) 1 junk junk'
  obtain ⟨c0, c1, rfl⟩ := List.length_eq_two.1 e2
  exact ⟨f, h1, ⟨ps', ps'', c0, c1, e1, e3⟩, h3 _ 0 two_ne_zero rfl⟩

open EdgeSymExample in
/-- C111: the same from the parities of the kernels -/
example (junk junk' : List Nat → ℚ) : ∃ f : EdgeFilter ℚ, EdgeFilter.sobel false = .ok f ∧
    (∃ ps' ps'' cs, f.allComponents Example.reflectPadders junk Example.x .none = (ps', .ok cs) ∧ cs.length = 2 ∧
      f.allComponents Example.reflectPadders junk' (flipped 0 Example.x) .none =
        (ps'', .ok (List.zipWith (fun a z => if a = 0 then (flipped 0 z).map (-1 * ·) else flipped 0 z) [0, 1] cs))) ∧
    ∃ ps' ps'' z, f.magnitude (fun v => v) Example.reflectPadders junk Example.x .none 0 4 = (ps', .ok z) ∧
      f.magnitude (fun v => v) Example.reflectPadders junk' (flipped 0 Example.x) .none 0 4 = (ps'', .ok (flipped 0 z)) := by
  obtain ⟨f, h1, h2⟩ := Example.sobel_built
  obtain ⟨k1, -, -, k4, -⟩ := C111_kernels (α := ℚ)
  exact ⟨f, h1, C111_mirrored h2 Example.reflect_holds (Example.setup_reflect rfl) (by intro h; cases h) (reflect_even _) k1
    (k4 false _ [1, 2, 1] (by simp)) (reflect_follows _ _) 0 junk junk',
    C111_magnitude_mirrored h2 Example.reflect_holds (Example.setup_reflect rfl) (by intro h; cases h) (reflect_even _) k1
    (k4 false _ [1, 2, 1] (by simp)) (reflect_follows _ _) _ 0 (by decide) (Or.inl (by decide)) (by norm_num) 0 junk junk'⟩

open EdgeSymExample in
/-- C111: `Laplace` -/
example (junk junk' : List Nat → ℚ) : ∃ f : EdgeFilter ℚ, EdgeFilter.laplace = .ok f ∧ ∃ ps' ps'' z,
    f.laplaceForward Example.reflectPadders junk Example.x .none = (ps', .ok z) ∧
    f.laplaceForward Example.reflectPadders junk' (flipped 1 Example.x) .none = (ps'', .ok (flipped 1 z)) := by
  obtain ⟨f, h1, h⟩ := C111_laplace (α := ℚ)
  exact ⟨f, h1, h Example.reflect_holds (Example.setup_reflect rfl) (reflect_even _) 1 junk junk'⟩

open EdgeSymExample in
/-- C111: circular padding, the image moved by two columns -/
example (junk junk' : List Nat → ℚ) : ∃ f : EdgeFilter ℚ, EdgeFilter.sobel false = .ok f ∧
    (∃ ps' ps'' cs, f.allComponents circularPadders junk Example.x .none = (ps', .ok cs) ∧
      f.allComponents circularPadders junk' (rolled 1 2 Example.x) .none = (ps'', .ok (cs.map (rolled 1 2)))) ∧
    ∃ ps' ps'' z, f.magnitude (fun v => v) circularPadders junk Example.x .none 0 1 = (ps', .ok z) ∧
      f.magnitude (fun v => v) circularPadders junk' (rolled 1 2 Example.x) .none 0 1 = (ps'', .ok (rolled 1 2 z)) := by
  obtain ⟨f, h1, h2⟩ := Example.sobel_built
  exact ⟨f, h1, C111_rolled h2 circular_holds (setup_circular rfl) (by intro h; cases h) (by decide) rfl 2 junk junk',
    C111_magnitude_rolled h2 circular_holds (setup_circular rfl) (by intro h; cases h) (by decide) rfl _ 0 one_ne_zero (Or.inr (Or.inl (by simp))) 2 junk junk'⟩

open EdgeSymExample in
/-- C111: the negative `10 - x` of an image -/
example (junk junk' : List Nat → ℚ) : ∃ f : EdgeFilter ℚ, EdgeFilter.sobel false = .ok f ∧
    (∃ ps' ps'' cs, f.allComponents Example.reflectPadders junk Example.x .none = (ps', .ok cs) ∧
      f.allComponents Example.reflectPadders junk' (Example.x.map fun v => -1 * v + 10) .none = (ps'', .ok (cs.map fun z => z.map (-1 * ·)))) ∧
    ∃ ps' ps'' z, f.magnitude (fun v => v) Example.reflectPadders junk Example.x .none 0 2 = (ps', .ok z) ∧
      f.magnitude (fun v => v) Example.reflectPadders junk' (Example.x.map fun v => -1 * v + 10) .none 0 2 = (ps'', .ok z) := by
  obtain ⟨f, h1, h2⟩ := Example.sobel_built
  have hu : usedKernel ([-1, 0, 1] : List ℚ) = [-1, 0, 1] := usedKernel_fast (Or.inl rfl)
  exact ⟨f, h1, C111_grey h2 Example.reflect_holds (Example.setup_reflect rfl) (by intro h; cases h) (by rw [hu]; simp) (by rw [hu]; norm_num)
    (reflect_follows _ _) (reflect_follows _ _) junk junk',
    (C111_magnitude_grey h2 Example.reflect_holds (Example.setup_reflect rfl) (by intro h; cases h) (by rw [hu]; simp) (by rw [hu]; norm_num)
    (reflect_follows _ _) (reflect_follows _ _) _ 0 two_ne_zero junk junk').2 (by norm_num)⟩

/-- C111: `GaussianGrad(kernel_size=5, sigma=1.5, edge_kernel_size=3, edge_sigma=0.5, order=2)` -/
example : ∃ f w g, EdgeFilter.gaussianGrad ((Given.one 5).toPy pyNat) ((Given.one (3 / 2 : ℝ)).toPy Py.leaf) (some ((3 : Nat) : Int)) (some (1 / 2)) true ((2 : Nat) : Int) = .ok f ∧
    EdgeBuilt f w g 1 ∧ Parity ((-1) ^ 2) (usedKernel w) ∧ SmoothsEvenly g 1 ∧ (g.isMany = false → ∀ n, SmoothsEvenly g n) :=
  C111_gaussian (size := .one 5) (sigma := .one (3 / 2)) Nat.one_pos trivial trivial
    (by intro s hs; simp only [Given.values, List.mem_singleton] at hs; rw [hs]; norm_num)
    (by intro k hk; simp only [Given.values, List.mem_singleton] at hk; rw [hk]) rfl (by norm_num) true 2

end TI
