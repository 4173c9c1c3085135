import Verif.Spec.History
import Verif.Proofs.SsimSym

/-!
# Calls of modules and the state of their padders
-/

set_option linter.unusedSectionVars false

namespace TI
open Tensor Spec

variable {α : Type} [Field α] [LinearOrder α] [IsStrictOrderedRing α]

/-! ## computations with one padder -/

namespace Run
variable {β γ : Type}

/-- the settings of the padder are kept -/
def Keeps (r : Run α β) : Prop := ∀ p, Alike (r p).1 p

/-- and the outcome depends on them only -/
structure Indep (r : Run α β) : Prop where
  keeps : r.Keeps
  same : ∀ {p q}, Alike p q → (r p).2 = (r q).2

/-- and the widths left by a call that returns do so, too -/
structure Settles (r : Run α β) : Prop extends Indep r where
  state : ∀ {p q b}, Alike p q → (r p).2 = .ok b → (r p).1 = (r q).1

theorem keeps_lift (r : Except Err β) : (lift r : Run α β).Keeps := fun p => Alike.refl p

theorem keeps_pure (b : β) : (pure b : Run α β).Keeps := fun p => Alike.refl p

theorem Keeps.bind {m : Run α β} {f : β → Run α γ} (hm : m.Keeps) (hf : ∀ b, (f b).Keeps) : (m >>= f).Keeps := by
  intro p
  rcases e : m p with ⟨p', r⟩
  have h := hm p
  rw [e] at h
  cases r with
  | error er => rw [bind_error e]; exact h
  | ok b => rw [bind_ok e]; exact (hf b p').trans h

theorem indep_pure (b : β) : (pure b : Run α β).Indep := ⟨keeps_pure b, fun _ => rfl⟩

theorem indep_lift (r : Except Err β) : (lift r : Run α β).Indep := ⟨keeps_lift r, fun _ => rfl⟩

theorem settles_error (e : Err) : (lift (.error e) : Run α β).Settles := ⟨indep_lift _, fun _ h => by cases h⟩

/-- after a call that settles the widths anything may follow -/
theorem Settles.bind {m : Run α β} {f : β → Run α γ} (hm : m.Settles) (hf : ∀ b, (f b).Keeps) : (m >>= f).Settles := by
  have hk : (m >>= f).Keeps := hm.keeps.bind hf
  have key : ∀ {p q}, Alike p q → ((m >>= f) p).2 = ((m >>= f) q).2 ∧ ∀ c, ((m >>= f) p).2 = .ok c → ((m >>= f) p).1 = ((m >>= f) q).1 := by
    intro p q h
    have e1 := hm.same h
    have e2 := fun b => hm.state (b := b) h
    rcases hp : m p with ⟨p', rp⟩
    rcases hq : m q with ⟨q', rq⟩
    rw [hp, hq] at e1 e2
    simp only at e1 e2
    subst e1
    cases rp with
    | error er =>
      rw [bind_error hp, bind_error hq]
      exact ⟨rfl, fun _ h => by cases h⟩
    | ok b =>
      have := e2 b rfl
      subst this
      rw [bind_ok hp, bind_ok hq]
      exact ⟨rfl, fun _ _ => rfl⟩
  exact ⟨⟨hk, fun h => (key h).1⟩, fun h e => (key h).2 _ e⟩

/-- and anything may precede one that depends on the settings only -/
theorem Indep.bind {m : Run α β} {f : β → Run α γ} (hm : m.Indep) (hf : ∀ b, (f b).Settles) : (m >>= f).Settles := by
  have hk : (m >>= f).Keeps := hm.keeps.bind fun b => (hf b).keeps
  have key : ∀ {p q}, Alike p q → ((m >>= f) p).2 = ((m >>= f) q).2 ∧ ∀ c, ((m >>= f) p).2 = .ok c → ((m >>= f) p).1 = ((m >>= f) q).1 := by
    intro p q h
    have e1 := hm.same h
    have k1 := hm.keeps p
    have k2 := hm.keeps q
    rcases hp : m p with ⟨p', rp⟩
    rcases hq : m q with ⟨q', rq⟩
    rw [hp, hq] at e1
    rw [hp] at k1
    rw [hq] at k2
    simp only at e1
    subst e1
    cases rp with
    | error er =>
      rw [bind_error hp, bind_error hq]
      exact ⟨rfl, fun _ h => by cases h⟩
    | ok b =>
      have hs : Alike p' q' := (k1.trans h).trans k2.symm
      rw [bind_ok hp, bind_ok hq]
      exact ⟨(hf b).same hs, fun c hc => (hf b).state hs hc⟩
  exact ⟨⟨hk, fun h => (key h).1⟩, fun h e => (key h).2 _ e⟩

end Run

theorem forward_settles (pool : SepPool α) (junk : List Nat → α) (x : Tensor α) (ax : Axes) : Run.Settles fun p => pool.forward p junk x ax where
  keeps p := by
    cases p with
    | none => show Alike (pool.forward none junk x ax).1 none; rw [forward_none_state]; trivial
    | some p => obtain ⟨p', e, h⟩ := forward_settings pool p junk x ax; show Alike (pool.forward (some p) junk x ax).1 _; rw [e]; exact h
  same := by
    intro p q h
    cases p <;> cases q <;> first | rfl | exact h.elim | exact (forward_indep pool h junk x ax).1
  state := by
    intro p q b h e
    cases p <;> cases q <;> first | rfl | exact h.elim | exact (forward_indep pool h junk x ax).2 b e

theorem exclude_settles (pool : SepPool α) (junk : List Nat → α) (x : Tensor α) (ax : Axes) : Run.Settles fun p => pool.avgForwardExclude p junk x ax where
  keeps p := by
    cases p with
    | none => show Alike (pool.avgForwardExclude none junk x ax).1 none; rw [exclude_none_state]; trivial
    | some p => obtain ⟨p', e, h⟩ := exclude_settings pool p junk x ax; show Alike (pool.avgForwardExclude (some p) junk x ax).1 _; rw [e]; exact h
  same := by
    intro p q h
    cases p <;> cases q <;> first | rfl | exact h.elim | exact exclude_indep pool h junk x ax
  state := by
    intro p q b h e
    cases p <;> cases q <;> first | rfl | exact h.elim | exact exclude_state pool h junk x ax b e

theorem blur_settles (s : SSIM α) (junk : List Nat → α) (x : Tensor α) (axes : List Int) : (s.blur junk x axes).Settles := by
  by_cases h : s.exclude = true
  · have : s.blur junk x axes = fun p => s.pool.avgForwardExclude p junk x (.seq axes) := by funext p; simp [SSIM.blur, h]
    rw [this]
    exact exclude_settles ..
  · have : s.blur junk x axes = fun p => s.pool.forward p junk x (.seq axes) := by funext p; simp [SSIM.blur, h]
    rw [this]
    exact forward_settles ..

open Run in
theorem muSigma_settles (s : SSIM α) (junk : List Nat → α) (y1 y2 : Tensor α) (axes : List Int) : (s.muSigma junk y1 y2 axes).Settles := by
  rw [SSIM.muSigma]
  refine (blur_settles s junk y1 axes).bind fun mu1 => ?_
  refine (blur_settles s junk y2 axes).keeps.bind fun mu2 => ?_
  refine (keeps_lift _).bind fun _ => (keeps_lift _).bind fun _ => (blur_settles ..).keeps.bind fun _ => (keeps_lift _).bind fun _ => (keeps_lift _).bind fun _ =>
    (blur_settles ..).keeps.bind fun _ => (keeps_lift _).bind fun _ => (keeps_lift _).bind fun _ => (blur_settles ..).keeps.bind fun _ => (keeps_lift _).bind fun _ =>
    (keeps_lift _).bind fun _ => keeps_pure _

open Run in
theorem ssimFull_settles (s : SSIM α) (junk : List Nat → α) (y1 y2 : Tensor α) (axes : List Int) : (s.ssimFull junk y1 y2 axes).Settles :=
  (muSigma_settles s junk y1 y2 axes).bind fun _ => keeps_lift _

open Run in
theorem csFull_settles (s : SSIM α) (junk : List Nat → α) (y1 y2 : Tensor α) (axes : List Int) : (s.csFull junk y1 y2 axes).Settles :=
  (muSigma_settles s junk y1 y2 axes).bind fun _ => (keeps_lift _).bind fun _ => keeps_lift _

open Run in
theorem cropBorder_keeps (s : SSIM α) (full : Tensor α) (axes : List Int) : (s.cropBorder full axes).Keeps := by
  refine Keeps.bind (m := Run.padder) (fun p => Alike.refl p) fun p => ?_
  cases p with
  | none => exact keeps_pure _
  | some p =>
    by_cases h : s.crop = true
    · simp only [h, if_true]; exact (keeps_lift _).bind fun _ => keeps_pure _
    · simp only [h]; exact keeps_pure _

open Run in
theorem ssim_settles (s : SSIM α) (junk : List Nat → α) (y1 y2 : Tensor α) (ax rax : Axes) : (s.forward junk y1 y2 ax rax).Settles := by
  rw [SSIM.forward]
  split_ifs
  · exact settles_error _
  · refine (indep_lift _).bind fun axes => (indep_lift _).bind fun raxes => (ssimFull_settles ..).bind fun full => ?_
    exact Keeps.bind (Keeps.bind (cropBorder_keeps _ _ _) fun _ => keeps_lift _) fun _ => keeps_pure _

open Run in
theorem levels_indep (m : MsSsim) (junk : List Nat → ℝ) (axes : List Int) : ∀ (ws : List ℝ) (acc : Option (Tensor ℝ)) (y1 y2 : Tensor ℝ), (m.levels junk axes ws acc y1 y2).Indep
  | [], _, _, _ => indep_pure _
  | w :: ws, acc, y1, y2 => by
    rw [MsSsim.levels]
    refine (Settles.bind (csFull_settles ..) fun cs => ?_).toIndep
    exact Keeps.bind (cropBorder_keeps _ _ _) fun _ => (keeps_lift _).bind fun _ => (keeps_lift _).bind fun _ => (keeps_lift _).bind fun _ => (keeps_lift _).bind fun _ =>
      (levels_indep m junk axes ws _ _ _).keeps

open Run in
theorem msssim_settles (m : MsSsim) (junk : List Nat → ℝ) (y1 y2 : Tensor ℝ) (ax rax : Axes) : (m.forward junk y1 y2 ax rax).Settles := by
  rw [MsSsim.forward]
  split_ifs
  · exact settles_error _
  · refine (indep_lift _).bind fun axes => (indep_lift _).bind fun raxes => (indep_lift _).bind fun _ => (levels_indep ..).bind fun r => ?_
    refine (ssimFull_settles ..).bind fun full => Keeps.bind (cropBorder_keeps _ _ _) fun _ => (keeps_lift _).bind fun _ => ?_
    split
    · exact keeps_lift _
    · exact (keeps_lift _).bind fun _ => keeps_lift _

/-- the blur of a sharpening module as a computation with its padder -/
def blurRun (u : UnsharpMask α) (junk : List Nat → α) (x : Tensor α) (axes : List Int) : Run α (Tensor α) := fun p => u.blur.forward p junk x (.seq axes)

open Run in
theorem sharpen_settles (u : UnsharpMask α) (junk : List Nat → α) (x : Tensor α) (ax : Axes) : Run.Settles fun p => u.forward p junk x ax := by
  have h : (fun p => u.forward p junk x ax) = (Run.lift (checkAxes x.ndim ax) >>= fun axes => blurRun u junk x axes >>= fun blurred =>
      Run.lift (do
        let y ← Tensor.bop (· - ·) x blurred
        let y := UnsharpMask.dropSmall u.threshold y
        Tensor.bop (· + ·) x (y.map fun v => u.amount * v)) : Run α (Tensor α)) := by
    funext p
    rw [UnsharpMask.forward, UnsharpMask.forwardWith]
    rcases checkAxes x.ndim ax with e | axes
    · rfl
    · rw [lift_bind]
      rcases e : u.blur.forward p junk x (.seq axes) with ⟨p', r⟩
      cases r with
      | error er => rw [bind_error (m := blurRun u junk x axes) e]; simp only [e]
      | ok b => rw [bind_ok (m := blurRun u junk x axes) e]; simp only [e]; rfl
  rw [h]
  exact (indep_lift _).bind fun axes => Settles.bind (forward_settles u.blur junk x (.seq axes)) fun _ => keeps_lift _

/-! ## the two padders of an edge filter -/

/-- the two padders hold the same settings, and are shared or not -/
def AlikeBoth : EdgePadders α → EdgePadders α → Prop
  | .shared p, .shared q => Alike p q
  | .separate e s, .separate e' s' => SameSettings e e' ∧ SameSettings s s'
  | _, _ => False

theorem AlikeBoth.refl : ∀ ps : EdgePadders α, AlikeBoth ps ps
  | .shared p => Alike.refl p
  | .separate _ _ => ⟨⟨rfl, rfl, rfl, rfl⟩, ⟨rfl, rfl, rfl, rfl⟩⟩

theorem AlikeBoth.symm : ∀ {ps qs : EdgePadders α}, AlikeBoth ps qs → AlikeBoth qs ps
  | .shared _, .shared _, h => Alike.symm h
  | .separate _ _, .separate _ _, h => ⟨h.1.symm, h.2.symm⟩
  | .shared _, .separate _ _, h => h.elim
  | .separate _ _, .shared _, h => h.elim

theorem AlikeBoth.trans : ∀ {ps qs rs : EdgePadders α}, AlikeBoth ps qs → AlikeBoth qs rs → AlikeBoth ps rs
  | .shared _, .shared _, .shared _, h, h' => Alike.trans h h'
  | .separate _ _, .separate _ _, .separate _ _, h, h' => ⟨h.1.trans h'.1, h.2.trans h'.2⟩
  | .shared _, .separate _ _, _, h, _ => h.elim
  | .separate _ _, .shared _, _, h, _ => h.elim
  | .shared _, .shared _, .separate _ _, _, h => h.elim
  | .separate _ _, .separate _ _, .shared _, _, h => h.elim

theorem AlikeBoth.edge : ∀ {ps qs : EdgePadders α}, AlikeBoth ps qs → Alike ps.edge qs.edge
  | .shared _, .shared _, h => h
  | .separate _ _, .separate _ _, h => h.1
  | .shared _, .separate _ _, h => h.elim
  | .separate _ _, .shared _, h => h.elim

theorem AlikeBoth.smooth : ∀ {ps qs : EdgePadders α}, AlikeBoth ps qs → Alike ps.smooth qs.smooth
  | .shared _, .shared _, h => h
  | .separate _ _, .separate _ _, h => h.2
  | .shared _, .separate _ _, h => h.elim
  | .separate _ _, .shared _, h => h.elim

theorem setEdge_alike {ps : EdgePadders α} {p : Option (Padder α)} (h : Alike p ps.edge) : AlikeBoth (ps.setEdge p) ps := by
  cases ps with
  | shared q => exact h
  | separate e s =>
    cases p with
    | none => exact h.elim
    | some p => exact ⟨h, ⟨rfl, rfl, rfl, rfl⟩⟩

theorem setSmooth_alike {ps : EdgePadders α} {p : Option (Padder α)} (h : Alike p ps.smooth) : AlikeBoth (ps.setSmooth p) ps := by
  cases ps with
  | shared q => exact h
  | separate e s =>
    cases p with
    | none => exact h.elim
    | some p => exact ⟨⟨rfl, rfl, rfl, rfl⟩, h⟩

/-- a method of an edge filter: the settings of the padders are kept, and the outcome depends on them only -/
structure EdgeIndep {β : Type} (r : EdgePadders α → EdgePadders α × β) : Prop where
  keeps : ∀ ps, AlikeBoth (r ps).1 ps
  same : ∀ {ps qs}, AlikeBoth ps qs → (r ps).2 = (r qs).2

theorem EdgeIndep.const {β : Type} (b : β) : EdgeIndep fun ps : EdgePadders α => (ps, b) := ⟨AlikeBoth.refl, fun _ => rfl⟩

/-- one call after another -/
theorem EdgeIndep.andThen {β γ : Type} {r : EdgePadders α → EdgePadders α × β} {f : β → EdgePadders α → EdgePadders α × γ} (hr : EdgeIndep r) (hf : ∀ b, EdgeIndep (f b)) :
    EdgeIndep fun ps => f (r ps).2 (r ps).1 where
  keeps ps := ((hf _).keeps _).trans (hr.keeps ps)
  same {ps qs} h := by
    show (f (r ps).2 (r ps).1).2 = (f (r qs).2 (r qs).1).2
    rw [hr.same h]
    exact (hf _).same (((hr.keeps ps).trans h).trans (hr.keeps qs).symm)

theorem EdgeIndep.mapped {β γ : Type} {r : EdgePadders α → EdgePadders α × β} (hr : EdgeIndep r) (g : β → γ) : EdgeIndep fun ps => ((r ps).1, g (r ps).2) :=
  ⟨hr.keeps, fun h => congrArg g (hr.same h)⟩

theorem pad_edge_indep (pool : SepPool α) (junk : List Nat → α) (x : Tensor α) (ax : Axes) : EdgeIndep fun ps : EdgePadders α => (ps.setEdge (pool.pad ps.edge junk x ax).1, (pool.pad ps.edge junk x ax).2) where
  keeps ps := by
    apply setEdge_alike
    cases ps.edge with
    | none => rw [pad_none_state]; trivial
    | some p => obtain ⟨p', e, h⟩ := pad_settings pool p junk x ax; rw [e]; exact h
  same {ps qs} h := by
    have h := h.edge
    show (pool.pad ps.edge junk x ax).2 = (pool.pad qs.edge junk x ax).2
    revert h
    cases ps.edge <;> cases qs.edge <;> intro h <;> first | rfl | exact h.elim | exact (pad_indep pool h junk x ax).1

theorem forward_edge_indep (pool : SepPool α) (junk : List Nat → α) (x : Tensor α) (ax : Axes) :
    EdgeIndep fun ps : EdgePadders α => (ps.setEdge (pool.forward ps.edge junk x ax).1, (pool.forward ps.edge junk x ax).2) where
  keeps ps := setEdge_alike ((forward_settles pool junk x ax).keeps ps.edge)
  same h := (forward_settles pool junk x ax).same h.edge

variable [FloorRing α]

theorem convSmooth_indep (f : EdgeFilter α) (junk : List Nat → α) (x : Tensor α) (axes : List Int) : EdgeIndep fun ps => f.convSmooth ps junk x axes where
  keeps ps := setSmooth_alike ((forward_settles f.smoothPool junk x (.seq axes)).keeps ps.smooth)
  same h := (forward_settles f.smoothPool junk x (.seq axes)).same h.smooth

theorem convEdge_indep (f : EdgeFilter α) (junk : List Nat → α) (x : Tensor α) (axis : Int) : EdgeIndep fun ps => f.convEdge ps junk x axis := by
  unfold EdgeFilter.convEdge
  cases (f.edgeKernel.get 0).bind SepPool.asVec with
  | error e => exact .const _
  | ok w =>
    simp only
    split_ifs
    · exact (pad_edge_indep f.edgePool junk x (.int axis)).mapped fun r => r.bind fun y => EdgeFilter.firstDiff y axis
    · exact (pad_edge_indep f.edgePool junk x (.int axis)).mapped fun r => r.bind fun y => EdgeFilter.secondDiff y axis
    · exact forward_edge_indep f.edgePool junk x (.int axis)

theorem component_indep (f : EdgeFilter α) (junk : List Nat → α) (x : Tensor α) (ea sa : Axes) : EdgeIndep fun ps => f.component ps junk x ea sa := by
  unfold EdgeFilter.component
  cases checkAxes x.ndim ea with
  | error e => exact .const _
  | ok ea =>
    rcases ea with _ | ⟨a, _ | ⟨b, l⟩⟩
    · exact .const _
    · cases checkAxes x.ndim sa with
      | error e => exact .const _
      | ok sa =>
        have h := (convEdge_indep f junk x a).andThen (f := fun r ps => match r with
          | .error e => (ps, .error e)
          | .ok y => f.convSmooth ps junk y (sa.filter fun b => b ≠ a)) (by
            intro r
            cases r with
            | error e => exact .const _
            | ok y => exact convSmooth_indep f junk y _)
        refine (congrArg EdgeIndep (funext fun ps => ?_)).mp h
        simp only
        rcases f.convEdge ps junk x a with ⟨ps', r⟩
        cases r <;> rfl
    · exact .const _

theorem componentLoop_indep (f : EdgeFilter α) (junk : List Nat → α) (x : Tensor α) (axes : List Int) : ∀ as : List Int, EdgeIndep fun ps => f.componentLoop junk x axes as ps
  | [] => .const _
  | a :: as => by
    have h := (component_indep f junk x (.int a) (.seq axes)).andThen (f := fun r ps => match r with
      | .error e => (ps, .error e)
      | .ok c => ((f.componentLoop junk x axes as ps).1, (f.componentLoop junk x axes as ps).2.map fun cs => c :: cs)) (by
        intro r
        cases r with
        | error e => exact .const _
        | ok c => exact (componentLoop_indep f junk x axes as).mapped fun r => r.map fun cs => c :: cs)
    refine (congrArg EdgeIndep (funext fun ps => ?_)).mp h
    rw [EdgeFilter.componentLoop]
    rcases f.component ps junk x (.int a) (.seq axes) with ⟨ps', r⟩
    cases r with
    | error e => rfl
    | ok c =>
      simp only
      rcases f.componentLoop junk x axes as ps' with ⟨ps'', r⟩
      cases r <;> rfl

theorem allComponents_indep (f : EdgeFilter α) (junk : List Nat → α) (x : Tensor α) (ax : Axes) : EdgeIndep fun ps => f.allComponents ps junk x ax := by
  unfold EdgeFilter.allComponents
  cases checkAxes x.ndim ax with
  | error e => exact .const _
  | ok axes =>
    simp only
    split_ifs
    · exact .const _
    · exact componentLoop_indep f junk x axes axes

theorem padReturnsArg_indep (pool : SepPool α) {p q : Option (Padder α)} (h : Alike p q) (x : Tensor α) (ax : Axes) : pool.padReturnsArg p x ax = pool.padReturnsArg q x ax := by
  unfold SepPool.padReturnsArg
  split
  · rfl
  · cases p <;> cases q <;> first | rfl | exact h.elim | skip
    rename_i p q
    simp only
    split
    · rfl
    · split
      · rfl
      · rename_i inShape _
        obtain ⟨e1, e2⟩ := toSame_indep h pool.kernelSize pool.stride inShape
        rcases hp : p.toSame pool.kernelSize pool.stride inShape with ⟨p', rp⟩
        rcases hq : q.toSame pool.kernelSize pool.stride inShape with ⟨q', rq⟩
        rw [hp, hq] at e1 e2
        simp only at e1 e2
        subst e1
        cases rp with
        | error e => rfl
        | ok u =>
          have := e2 rfl
          subst this
          rfl

theorem forwardReturnsArg_indep (pool : SepPool α) {p q : Option (Padder α)} (h : Alike p q) (x : Tensor α) (ax : Axes) :
    pool.forwardReturnsArg p x ax = pool.forwardReturnsArg q x ax := by
  unfold SepPool.forwardReturnsArg
  split
  · rfl
  · rw [padReturnsArg_indep pool h]

theorem componentReturnsArg_indep (f : EdgeFilter α) (junk : List Nat → α) (x : Tensor α) (ea sa : Axes) {ps qs : EdgePadders α} (h : AlikeBoth ps qs) :
    f.componentReturnsArg ps junk x ea sa = f.componentReturnsArg qs junk x ea sa := by
  unfold EdgeFilter.componentReturnsArg
  split
  · rename_i a sa _ _
    have e := (convEdge_indep f junk x a).same h
    have k1 := (convEdge_indep f junk x a).keeps ps
    have k2 := (convEdge_indep f junk x a).keeps qs
    rcases hp : f.convEdge ps junk x a with ⟨ps', r⟩
    rcases hq : f.convEdge qs junk x a with ⟨qs', r'⟩
    simp only [hp, hq] at e k1 k2
    subst e
    cases r with
    | error _ => rfl
    | ok y =>
      simp only
      congr 1
      · unfold EdgeFilter.convEdgeReturnsArg
        split
        · rfl
        · rw [forwardReturnsArg_indep f.edgePool h.edge]
      · exact forwardReturnsArg_indep f.smoothPool ((k1.trans h).trans k2.symm).smooth y _
  · rfl

theorem magnitudeLoop_indep (f : EdgeFilter α) (junk : List Nat → α) (axes : List Int) (p : Nat) : ∀ (as : List Int) (x : Tensor α) (m : EdgeFilter.Accum α),
    EdgeIndep fun ps => f.magnitudeLoop junk axes p as ps x m
  | [], _, _ => .const _
  | a :: as, x, m => by
    have hc : EdgeIndep fun ps => ((f.component ps junk x (.int a) (.seq axes)).1, (f.component ps junk x (.int a) (.seq axes)).2, f.componentReturnsArg ps junk x (.int a) (.seq axes)) :=
      ⟨(component_indep f junk x _ _).keeps, fun h => Prod.ext ((component_indep f junk x _ _).same h) (componentReturnsArg_indep f junk x _ _ h)⟩
    have h := hc.andThen (f := fun r ps => match r.1 with
      | .error e => (ps, x, .error e)
      | .ok c =>
        let c := if p = 1 then c else c.map fun v => v ^ p
        match m with
        | .unset => f.magnitudeLoop junk axes p as ps x (if p = 1 ∧ r.2 = true then .arg else .own c)
        | .arg =>
          match x.iadd c with
          | .error e => (ps, x, .error e)
          | .ok x => f.magnitudeLoop junk axes p as ps x .arg
        | .own m =>
          match m.iadd c with
          | .error e => (ps, x, .error e)
          | .ok m => f.magnitudeLoop junk axes p as ps x (.own m)) (by
        rintro ⟨r, same⟩
        cases r with
        | error e => exact .const _
        | ok c =>
          cases m with
          | unset => exact magnitudeLoop_indep f junk axes p as x _
          | arg =>
            simp only
            cases x.iadd (if p = 1 then c else c.map fun v => v ^ p) with
            | error e => exact .const _
            | ok x => exact magnitudeLoop_indep f junk axes p as x _
          | own m =>
            simp only
            cases m.iadd (if p = 1 then c else c.map fun v => v ^ p) with
            | error e => exact .const _
            | ok m => exact magnitudeLoop_indep f junk axes p as x _)
    refine (congrArg EdgeIndep (funext fun ps => ?_)).mp h
    rw [EdgeFilter.magnitudeLoop]
    simp only
    rcases f.component ps junk x (.int a) (.seq axes) with ⟨ps', r⟩
    cases r <;> rfl

theorem magnitude_indep (root : α → α) (f : EdgeFilter α) (junk : List Nat → α) (x : Tensor α) (ax : Axes) (epsilon : α) (p : Nat) :
    EdgeIndep fun ps => f.magnitudeInPlace root ps junk x ax epsilon p := by
  unfold EdgeFilter.magnitudeInPlace
  cases checkAxes x.ndim ax with
  | error e => exact .const _
  | ok axes =>
    by_cases hl : axes.length < 2
    · simp only [hl, if_true]
      exact .const _
    · simp only [hl, if_false]
      have h := (magnitudeLoop_indep f junk axes p axes x .unset).mapped (γ := Tensor α × Except Err (Tensor α)) fun r => match r with
        | (x, .error e) => (x, .error e)
        | (x, .ok .unset) => (x, .error .type)
        | (x, .ok .arg) =>
          let x := if epsilon = 0 then x else x.map fun v => v + epsilon
          if p = 1 then (x, .ok x)
          else if p = 0 then (x, .error .zeroDivision)
          else (x, .ok (x.map root))
        | (x, .ok (.own m)) =>
          let m := if epsilon = 0 then m else m.map fun v => v + epsilon
          if p = 1 then (x, .ok m)
          else if p = 0 then (x, .error .zeroDivision)
          else (x, .ok (m.map root))
      refine (congrArg EdgeIndep (funext fun ps => ?_)).mp h
      simp only
      rcases f.magnitudeLoop junk axes p axes ps x .unset with ⟨ps', x', r⟩
      rcases r with e | (_ | _ | m)
      · rfl
      · rfl
      · simp only; split_ifs <;> rfl
      · simp only; split_ifs <;> rfl

theorem edgeTensor_indep (f : EdgeFilter α) (junk : List Nat → α) (y : Tensor α) : EdgeIndep fun ps => EdgeLoss.edgeTensor f ps junk y := by
  refine (congrArg EdgeIndep (funext fun ps => ?_)).mp ((allComponents_indep f junk y (.seq [2, 3])).mapped fun r => r.bind fun cs => Tensor.cat cs 1)
  rw [EdgeLoss.edgeTensor]
  rcases f.allComponents ps junk y (.seq [2, 3]) with ⟨ps', r⟩
  cases r <;> rfl

theorem withEdges_indep {β : Type} (loss : Tensor α → Tensor α → Except Err β) (f : EdgeFilter α) (junk : List Nat → α) (u v : Tensor α) :
    EdgeIndep fun ps => EdgeLoss.withEdges loss f ps junk u v := by
  have h := (edgeTensor_indep f junk u).andThen (f := fun r ps => match r with
    | .error e => (ps, .error e)
    | .ok ep => ((EdgeLoss.edgeTensor f ps junk v).1, (EdgeLoss.edgeTensor f ps junk v).2.bind fun et => loss ep et)) (by
      intro r
      cases r with
      | error e => exact .const _
      | ok ep => exact (edgeTensor_indep f junk v).mapped fun r => r.bind fun et => loss ep et)
  refine (congrArg EdgeIndep (funext fun ps => ?_)).mp h
  rw [EdgeLoss.withEdges]
  rcases EdgeLoss.edgeTensor f ps junk u with ⟨ps', r⟩
  cases r with
  | error e => rfl
  | ok ep =>
    simp only
    rcases EdgeLoss.edgeTensor f ps' junk v with ⟨ps'', r⟩
    cases r <;> rfl

/-! ## all methods -/

theorem edgeMethod_indep (c : EdgeMethod) : EdgeIndep fun ps => c.run ps := by
  cases c with
  | component f junk x ea sa => exact (component_indep f junk x ea sa).mapped EdgeOutcome.tensor
  | components f junk x ax => exact (allComponents_indep f junk x ax).mapped EdgeOutcome.tensors
  | magnitude root f junk x ax epsilon p => exact (magnitude_indep root f junk x ax epsilon p).mapped fun r => EdgeOutcome.changed r.1 r.2
  | loss f junk u v => exact (withEdges_indep _ f junk u v).mapped EdgeOutcome.tensor
  | weightedMul f junk u v => exact (withEdges_indep _ f junk u v).mapped EdgeOutcome.tensor
  | weightedDiv f junk u v => exact (withEdges_indep _ f junk u v).mapped EdgeOutcome.value
  | weightedSum f junk u v => exact (withEdges_indep _ f junk u v).mapped EdgeOutcome.tensor

theorem moduleMethod_keeps (c : ModuleMethod) (p : Option (Padder ℝ)) : Alike (c.run p).1 p := by
  cases c with
  | pool m junk x ax => exact (forward_settles m junk x ax).keeps p
  | average m junk x ax => exact (exclude_settles m junk x ax).keeps p
  | sharpen u junk x ax => exact (sharpen_settles u junk x ax).keeps p
  | ssim s junk a b ax rax => exact (ssim_settles s junk a b ax rax).keeps p
  | msssim m junk a b ax rax => exact (msssim_settles m junk a b ax rax).keeps p
  | edge c => exact ((edgeMethod_indep c).keeps (.shared p)).edge

theorem moduleMethod_same (c : ModuleMethod) {p q : Option (Padder ℝ)} (h : Alike p q) : (c.run p).2 = (c.run q).2 := by
  cases c with
  | pool m junk x ax => exact congrArg Outcome.tensor ((forward_settles m junk x ax).same h)
  | average m junk x ax => exact congrArg Outcome.tensor ((exclude_settles m junk x ax).same h)
  | sharpen u junk x ax => exact congrArg Outcome.tensor ((sharpen_settles u junk x ax).same h)
  | ssim s junk a b ax rax => exact congrArg Outcome.scores ((ssim_settles s junk a b ax rax).same h)
  | msssim m junk a b ax rax => exact congrArg Outcome.tensor ((msssim_settles m junk a b ax rax).same h)
  | edge c => exact congrArg Outcome.edge ((edgeMethod_indep c).same (ps := .shared p) (qs := .shared q) h)

theorem sharedEvent_keeps (e : SharedEvent) (p : Option (Padder ℝ)) : Alike (e.run p) p := by
  cases e with
  | call c => exact moduleMethod_keeps c p
  | toSame k s n =>
    cases p with
    | none => trivial
    | some p => exact toSame_settings p k s n
  | pad => exact Alike.refl p

theorem shared_history (p : Option (Padder ℝ)) (h : List SharedEvent) : Alike (h.foldl SharedEvent.run p) p := by
  induction h generalizing p with
  | nil => exact Alike.refl p
  | cons e h ih => exact (ih (e.run p)).trans (sharedEvent_keeps e p)

theorem edgeEvent_keeps (e : EdgeEvent) (ps : EdgePadders ℝ) : AlikeBoth (e.run ps) ps := by
  cases e with
  | call c => exact (edgeMethod_indep c).keeps ps
  | edgePadder e => exact setEdge_alike (sharedEvent_keeps e _)
  | smoothPadder e => exact setSmooth_alike (sharedEvent_keeps e _)

theorem edge_history (ps : EdgePadders ℝ) (h : List EdgeEvent) : AlikeBoth (h.foldl EdgeEvent.run ps) ps := by
  induction h generalizing ps with
  | nil => exact AlikeBoth.refl ps
  | cons e h ih => exact (ih (e.run ps)).trans (edgeEvent_keeps e ps)

end TI
