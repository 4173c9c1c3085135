import Verif.Proofs.Alias
import Verif.Props.EdgeSym

/-!
# Results that are the argument itself, and arguments that are modified: C128
-/

namespace TI
open Tensor Spec

section General
set_option linter.unusedSectionVars false
variable {α : Type} [Field α] [LinearOrder α] [IsStrictOrderedRing α]

/-- **C128.** A padder either returns the very tensor it was given, or a new tensor of a different shape: whenever padding succeeds, the result is
the argument itself exactly if the shape is unchanged.  (No function given by the user as a mode.) -/
theorem C128_padder {p : Padder α} (hp : p.Named) {junk : List Nat → α} {x y : Tensor α} {ax : Axes} (h : p.forward junk x ax = .ok y) :
    (p.returnsArg x ax = true ↔ y.shape = x.shape) ∧ (y.shape = x.shape → y = x) := by
  rcases forward_shape_any hp h with ⟨h1, h2⟩ | ⟨h1, h2⟩
  · subst h2; simp [h1]
  · refine ⟨⟨fun e => ?_, fun e => absurd e h2⟩, fun e => absurd e h2⟩
    rw [h1] at e; cases e

/-- **C128**: this happens exactly if no axis is to be widened. -/
theorem C128_padder_widths {p : Padder α} {x : Tensor α} {ax : Axes} {axes : List Nat} {ss : List (AxisPad α)} (h : PadCallRep p x ax axes ss) :
    p.returnsArg x ax = true ↔ ∀ o ∈ zipRight axes ss, o.2.before = 0 ∧ o.2.after = 0 :=
  returnsArg_call_rep h

section
variable {pool : SepPool α} {g : PoolArgs α} {m : Nat} {x : Tensor α} {ax : Axes} {axes : List Nat}

/-- **C128**, pooling: if the result is the argument itself, nothing was computed. -/
theorem C128_pool {padder : Option (Padder α)} (h : pool.forwardReturnsArg padder x ax = true) (junk : List Nat → α) :
    (pool.forward padder junk x ax).2 = .ok x := forwardReturnsArg_forward h junk

/-- **C128**, pooling: the result is the argument itself exactly if the kernels of all axes are empty, without a padder and with one. -/
theorem C128_pool_kernels (hb : Built pool g m) (hm : g.isMany = true → axes.length = m) :
    (axesOf x.ndim ax = some axes → (pool.forwardReturnsArg none x ax = true ↔ ∀ i < axes.length, (g.op axes i).kernel = [])) ∧
    ∀ {gp : PadArgs α} {p : Padder α}, SameCall g gp x ax axes → Holds p gp →
      (pool.forwardReturnsArg (some p) x ax = true ↔ ∀ i < axes.length, (g.op axes i).kernel = []) :=
  ⟨fun hax => forwardReturnsArg_none hb.poolIs.1 hax hm, fun hc hp => forwardReturnsArg_same hb.poolIs.1 hc hm hp⟩

end

section
variable [FloorRing α] {f : EdgeFilter α} {w : List α} {g : Given (List α)} {m : Nat} {ps : EdgePadders α} {gp : PadArgs α}
variable {x : Tensor α} {ax : Axes} {axes : List Nat}

theorem magnitudeLoop_powers {junk : List Nat → α} {l : List Int} {p : Nat} (hp : p ≠ 1) : ∀ (as : List Int) (ps : EdgePadders α) (x : Tensor α)
    (a : EdgeFilter.Accum α), a ≠ .arg → (f.magnitudeLoop junk l p as ps x a).2.1 = x ∧ (f.magnitudeLoop junk l p as ps x a).2.2 ≠ .ok .arg
  | [], ps, x, a, ha => by
    rw [EdgeFilter.magnitudeLoop]
    exact ⟨rfl, fun h => ha (by cases h; rfl)⟩
  | i :: as, ps, x, a, ha => by
    rw [EdgeFilter.magnitudeLoop]
    obtain ⟨⟨ps', r⟩, hr⟩ : ∃ z, f.component ps junk x (.int i) (.seq l) = z := ⟨_, rfl⟩
    simp only [hr]
    cases r with
    | error e => exact ⟨rfl, fun h => by cases h⟩
    | ok c =>
      simp only [hp, if_false]
      cases a with
      | unset =>
        simp only [false_and, if_false]
        exact magnitudeLoop_powers hp as ps' x _ (by intro h; cases h)
      | arg => exact absurd rfl ha
      | own t =>
        simp only
        cases e : t.iadd (c.map fun v => v ^ p) with
        | error e' => exact ⟨rfl, fun h => by cases h⟩
        | ok t' => exact magnitudeLoop_powers hp as ps' x _ (by intro h; cases h)

/-- **C128**: `magnitude` with a power other than 1 never modifies the image, whatever the arguments and even if it raises. -/
theorem C128_powers (root : α → α) (f : EdgeFilter α) (ps : EdgePadders α) (junk : List Nat → α) (x : Tensor α) (ax : Axes) (epsilon : α) {p : Nat}
    (hp : p ≠ 1) : (f.magnitudeInPlace root ps junk x ax epsilon p).2.1 = x := by
  rw [EdgeFilter.magnitudeInPlace]
  cases e1 : checkAxes x.ndim ax with
  | error e => rfl
  | ok as =>
    simp only
    by_cases h2 : as.length < 2
    · rw [if_pos h2]
    · rw [if_neg h2]
      have h := magnitudeLoop_powers (f := f) (junk := junk) (l := as) hp as ps x .unset (by intro h; cases h)
      obtain ⟨⟨ps', y, r⟩, hr⟩ : ∃ z, f.magnitudeLoop junk as p as ps x .unset = z := ⟨_, rfl⟩
      rw [hr] at h ⊢
      obtain ⟨h3, h4⟩ := h
      simp only at h3 h4
      subst h3
      cases r with
      | error e => rfl
      | ok a =>
        cases a with
        | unset => rfl
        | arg => exact absurd rfl h4
        | own t =>
          simp only
          split_ifs <;> rfl

/-- **C128**: nor does it with power 1 if one of the kernels has weights; the returned tensor is the sum of the components. -/
theorem C128_kept (hb : EdgeBuilt f w g m) (hps : HoldsBoth ps gp) (hs : EdgeSetup g gp x ax axes) (hm : g.isMany = true → axes.length - 1 = m)
    (root : α → α) (epsilon : α) {p : Nat} (hp : p ≠ 0) (hact : Acts w g axes.length p) (junk : List Nat → α) :
    ∃ ps' z, f.magnitudeInPlace root ps junk x ax epsilon p = (ps', x, .ok z) ∧ (f.magnitude root ps junk x ax epsilon p).2 = .ok z := by
  obtain ⟨ps', e, _⟩ := magnitudeInPlace_eq (f := f) (junk := junk) (Inv := fun ps => HoldsBoth ps gp) (root := root) hp (S := x.shape)
    (c := edgeResponse (usedKernel w) g gp x axes) hs.axes_eq hs.two hps
    (fun a ha ps hps => hs.component hb.edgeIs hm ha hps junk) (fun a ha => hs.response_shape _ ha) (hs.own hb.edgeIs hm hact junk) epsilon
  exact ⟨ps', _, e, by rw [EdgeFilter.magnitude, e]⟩

theorem magnitudeLoop_arg (hb : EdgeIs f [] g m) (hs : EdgeSetup g gp x ax axes) (hm : g.isMany = true → axes.length - 1 = m)
    (hg : ∀ i < axes.length - 1, g.entry [] i = []) (junk : List Nat → α) :
    ∀ (as : List Nat) (k : Nat) (ps : EdgePadders α), HoldsBoth ps gp → (∀ a ∈ as, a ∈ axes) →
    ∃ ps', f.magnitudeLoop junk (castV axes) 1 (castV as) ps (x.map fun v => 2 ^ k * v) .arg =
      (ps', x.map (fun v => 2 ^ (k + as.length) * v), .ok .arg) ∧ HoldsBoth ps' gp
  | [], k, ps, hps, _ => ⟨ps, by rw [show castV [] = [] from rfl, EdgeFilter.magnitudeLoop]; rfl, hps⟩
  | a :: as, k, ps, hps, hin => by
    have hs' : EdgeSetup g gp (x.map fun v => 2 ^ k * v) ax axes := hs.congr rfl
    have ha := hin a (by simp)
    have ht := componentReturnsArg_true hb hps hs' hm hg ha junk
    have hcomp := componentReturnsArg_component ht
    obtain ⟨ps1, e1, h1⟩ := hs'.component hb hm ha hps junk
    rw [e1] at hcomp
    simp only [Except.ok.injEq] at hcomp
    rw [hcomp] at e1
    obtain ⟨ps2, e2, h2⟩ := magnitudeLoop_arg hb hs hm hg junk as (k + 1) ps1 h1 fun b hb => hin b (by simp [hb])
    refine ⟨ps2, ?_, h2⟩
    rw [show castV (a :: as) = (a : Int) :: castV as from rfl, EdgeFilter.magnitudeLoop]
    have hadd : (x.map fun v => 2 ^ k * v).iadd (x.map fun v => 2 ^ k * v) = .ok (x.map fun v => 2 ^ (k + 1) * v) := by
      rw [iadd_same rfl]
      congr 1
      refine ext_get rfl ?_
      intro ix hix
      have hix' : InB x.shape ix := hix
      rw [get_ofFn (show InB (x.map fun v => 2 ^ k * v).shape ix from hix'), get_map _ _ hix', get_map _ _ hix', pow_succ]
      ring
    simp only [e1, if_true, hadd, e2, List.length_cons]
    congr 4
    funext v
    congr 2
    omega

/-- **C128**: with two empty kernels and power 1 every component is the image itself, and the components are added up in the image: the image is
doubled for every axis but the first, `epsilon` is added to it as well, and it is what is returned.  (The sum of the components would be the image
times the number of axes; from three axes on the results differ.) -/
theorem C128_identity (hb : EdgeBuilt f [] g m) (hps : HoldsBoth ps gp) (hs : EdgeSetup g gp x ax axes) (hm : g.isMany = true → axes.length - 1 = m)
    (hg : ∀ i < axes.length - 1, g.entry [] i = []) (root : α → α) (epsilon : α) (junk : List Nat → α) :
    ∃ ps', f.magnitudeInPlace root ps junk x ax epsilon 1 =
      (ps', x.map fun v => 2 ^ (axes.length - 1) * v + epsilon, .ok (x.map fun v => 2 ^ (axes.length - 1) * v + epsilon)) := by
  obtain ⟨a, as, rfl⟩ := List.exists_cons_of_ne_nil (show axes ≠ [] by have := hs.two; rintro rfl; simp at this)
  have ha : a ∈ a :: as := by simp
  have ht := componentReturnsArg_true hb.edgeIs hps hs hm hg ha junk
  have hcomp := componentReturnsArg_component ht
  obtain ⟨ps1, e1, h1⟩ := hs.component hb.edgeIs hm ha hps junk
  rw [e1] at hcomp
  simp only [Except.ok.injEq] at hcomp
  rw [hcomp] at e1
  obtain ⟨ps2, e2, h2⟩ := magnitudeLoop_arg hb.edgeIs hs hm hg junk as 0 ps1 h1 fun b hb => by simp [hb]
  refine ⟨ps2, ?_⟩
  have hx : (x.map fun v => 2 ^ 0 * v) = x := by
    refine ext_get rfl ?_
    intro ix hix
    have hix' : InB x.shape ix := hix
    rw [get_map _ _ hix', pow_zero, one_mul]
  rw [hx, Nat.zero_add] at e2
  have hlen : ¬ (castV (a :: as)).length < 2 := by have := hs.two; rw [castV, List.length_map]; omega
  have hloop : f.magnitudeLoop junk (castV (a :: as)) 1 (castV (a :: as)) ps x .unset =
      (ps2, x.map (fun v => 2 ^ as.length * v), .ok .arg) := by
    rw [show castV (a :: as) = (a : Int) :: castV as from rfl] at e1 e2 ht ⊢
    rw [EdgeFilter.magnitudeLoop]
    simp only [e1, ht, if_true, and_self, e2]
  have he : (if epsilon = 0 then x.map (fun v => 2 ^ as.length * v) else (x.map fun v => 2 ^ as.length * v).map fun v => v + epsilon) =
      x.map fun v => 2 ^ as.length * v + epsilon := by
    split_ifs with h0
    · subst h0; simp only [add_zero]
    · refine ext_get rfl ?_
      intro ix hix
      have hix' : InB x.shape ix := hix
      rw [get_map _ _ (show InB (x.map fun v => 2 ^ as.length * v).shape ix from hix'), get_map _ _ hix', get_map _ _ hix']
  simp only [EdgeFilter.magnitudeInPlace, (checkAxes_spec hs.axes_eq).1, hlen, if_false, hloop, he, if_true, List.length_cons, Nat.add_sub_cancel]

end

end General

/-! ## cases -/

namespace AliasExample

/-- `EdgeFilter(edge_kernel=(), smooth_kernel=())` -/
theorem built : ∃ f : EdgeFilter ℚ, EdgeFilter.init (EdgeFilter.pyVec []) (EdgeFilter.pyVec []) false = .ok f ∧ EdgeBuilt f [] (.one []) 1 := by
  obtain ⟨f, h, _⟩ := edgeIs_init (w := ([] : List ℚ)) (g := .one []) Nat.one_pos trivial false
  exact ⟨f, h, by simpa using EdgeBuilt.tuples (w := ([] : List ℚ)) (g := .one []) false Nat.one_pos trivial h⟩

/-- two voxels -/
def x : Tensor ℚ := ⟨[1, 1, 2], [5, 7], rfl⟩

theorem setup : EdgeSetup (.one []) (Example.modeArgs .reflect) x .none [0, 1, 2] where
  axes_eq := by decide
  two := by decide
  nodup := by decide
  fits := by intro h; cases h
  pos := by decide
  uniform := ⟨rfl, rfl, rfl, rfl⟩
  valued := by intro s hs; simp [AxisPad.rule?, hs, Example.modeArgs, Given.entry]
  keep := Or.inl rfl

/-- padding by one on both sides returns a new tensor -/
example (junk : List Nat → ℚ) (y : Tensor ℚ) (h : (RepeatExample.p .circular).forward junk RepeatExample.x (.seq [0]) = .ok y) :=
  C128_padder (fun i mode hm => by rw [(RepeatExample.reads .circular i).mode] at hm; cases hm; rfl) h

example : (RepeatExample.p .circular).returnsArg RepeatExample.x (.seq [0, -1, 0]) = false := by
  rw [Bool.eq_false_iff, Ne, C128_padder_widths RepeatExample.call]
  decide

/-- `SeparablePoolNd([[1, -2], [1, 2, 3]])` returns a new tensor -/
example : Example.poolObj.forwardReturnsArg none Example.x .none = false := by
  rw [Bool.eq_false_iff, Ne, (C128_pool_kernels Example.poolObj_built (x := Example.x) (ax := .none) (axes := [0, 1]) (fun _ => rfl)).1 (by decide)]
  decide

example : Example.tri.forwardReturnsArg (some ((Example.modeArgs .reflect).padder 1)) Example.x (.seq [-1, 0]) = false := by
  rw [Bool.eq_false_iff, Ne, (C128_pool_kernels Example.tri_built (x := Example.x) (by intro h; cases h)).2 Example.sameCall_reflect (holds_padder _ 1)]
  decide

/-- Sobel with power 1 -/
example (junk : List Nat → ℚ) : ∃ f : EdgeFilter ℚ, EdgeFilter.sobel false = .ok f ∧
    ∃ ps' z, f.magnitudeInPlace id Example.reflectPadders junk Example.x .none 0 1 = (ps', Example.x, .ok z) ∧
      (f.magnitude id Example.reflectPadders junk Example.x .none 0 1).2 = .ok z := by
  obtain ⟨f, h1, h2⟩ := Example.sobel_built
  exact ⟨f, h1, C128_kept h2 Example.reflect_holds (Example.setup_reflect rfl) (by intro h; cases h) id 0 one_ne_zero (Or.inr (Or.inl (by simp))) junk⟩

end AliasExample

open AliasExample in
/-- **C128**: for three axes the image is overwritten with four times itself, though the three components add up to three times the image. -/
theorem C128_identity_differ (junk : List Nat → ℚ) : ∃ (f : EdgeFilter ℚ) (ps : EdgePadders ℚ) (ps' : EdgePadders ℚ) (cs : List (Tensor ℚ)),
    EdgeFilter.init (EdgeFilter.pyVec []) (EdgeFilter.pyVec []) false = .ok f ∧
    f.magnitudeInPlace id ps junk x .none 0 1 = (ps', ⟨[1, 1, 2], [20, 28], rfl⟩, .ok ⟨[1, 1, 2], [20, 28], rfl⟩) ∧
    (f.allComponents ps junk x .none).2 = .ok cs ∧ (cs.map fun c => c.get [0, 0, 0]).sum = 15 := by
  obtain ⟨f, h1, h2⟩ := built
  obtain ⟨ps', e⟩ := C128_identity h2 Example.reflect_holds setup (by intro h; cases h) (fun _ _ => rfl) id 0 junk
  obtain ⟨ps1, e1, -⟩ := C75_components h2 Example.reflect_holds setup (by intro h; cases h) junk
  refine ⟨f, Example.reflectPadders, ps', _, h1, ?_, by rw [e1], ?_⟩
  · have h : (x.map fun v => 2 ^ ([0, 1, 2].length - 1) * v + 0) = ⟨[1, 1, 2], [20, 28], rfl⟩ := by decide +kernel
    rw [e, h]
  · have hu : usedKernel ([] : List ℚ) = [] := by simp [usedKernel, TakenForFirst, TakenForSecond]
    have hr : ∀ a ∈ [0, 1, 2], edgeResponse (usedKernel ([] : List ℚ)) (.one []) (Example.modeArgs .reflect) x [0, 1, 2] a = x := by
      intro a ha
      rw [hu, edgeResponse, filtered_nil (x := x) (axes := [a]) (by simpa using setup.pos a ha), filtered_nil (fun b hb => setup.pos b (List.mem_of_mem_filter hb))]
    rw [List.map_congr_left hr]
    decide +kernel

end TI
