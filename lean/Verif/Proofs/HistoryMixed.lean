import Verif.Spec.HistoryMixed
import Verif.Proofs.History

/-!
# Calls on images of integers and on images with entries that are not finite, and the state of the padders
-/

set_option linter.unusedSectionVars false

namespace TI
open Tensor Spec

variable {α : Type} [Field α] [LinearOrder α] [IsStrictOrderedRing α]

section
variable {β : Type}

/-- `pad` with any way of padding once the widths are known -/
def padVia (fill : Padder α → Tensor β → Axes → Except Err (Tensor β)) (pool : SepPool α) (x : Tensor β) (axes : Axes) : Run α (Tensor β) := fun padder =>
  match checkAxes x.ndim axes with
  | .error e => (padder, .error e)
  | .ok axes =>
    match padder with
    | none => (none, .ok x)
    | some p =>
      match NdSpec.sequence (axes.map fun a => pyIndex x.shape a) with
      | .error e => (some p, .error e)
      | .ok sizes =>
        match NdSpec.ofItem [] (.seq (sizes.map fun (n : Nat) => Py.leaf (some (n : Int)))) with
        | .error e => (some p, .error e)
        | .ok inShape =>
          match p.toSame pool.kernelSize pool.stride inShape with
          | (p', .error e) => (some p', .error e)
          | (p', .ok _) => (some p', fill p' x (.seq axes))

theorem padVia_settles (fill : Padder α → Tensor β → Axes → Except Err (Tensor β)) (pool : SepPool α) (x : Tensor β) (ax : Axes) : (padVia fill pool x ax).Settles := by
  have key : ∀ {p q : Option (Padder α)}, Alike p q → Alike (padVia fill pool x ax p).1 p ∧ (padVia fill pool x ax p).2 = (padVia fill pool x ax q).2 ∧
      ∀ b, (padVia fill pool x ax p).2 = .ok b → (padVia fill pool x ax p).1 = (padVia fill pool x ax q).1 := by
    intro p q h
    unfold padVia
    cases checkAxes x.ndim ax with
    | error e => exact ⟨Alike.refl p, rfl, fun _ h => by cases h⟩
    | ok axes =>
      cases p with
      | none =>
        cases q with
        | none => exact ⟨trivial, rfl, fun _ _ => rfl⟩
        | some q => exact h.elim
      | some p =>
        cases q with
        | none => exact h.elim
        | some q =>
          simp only
          cases NdSpec.sequence (axes.map fun a => pyIndex x.shape a) with
          | error e => exact ⟨Alike.refl (some p), rfl, fun _ h => by cases h⟩
          | ok sizes =>
            simp only
            cases NdSpec.ofItem [] (.seq (sizes.map fun (n : Nat) => Py.leaf (some (n : Int)))) with
            | error e => exact ⟨Alike.refl (some p), rfl, fun _ h => by cases h⟩
            | ok inShape =>
              simp only
              obtain ⟨e1, e2⟩ := toSame_indep h pool.kernelSize pool.stride inShape
              have k := toSame_settings p pool.kernelSize pool.stride inShape
              rcases hp : p.toSame pool.kernelSize pool.stride inShape with ⟨p', rp⟩
              rcases hq : q.toSame pool.kernelSize pool.stride inShape with ⟨q', rq⟩
              rw [hp, hq] at e1 e2
              rw [hp] at k
              simp only at e1 e2 k
              subst e1
              cases rp with
              | error e => exact ⟨k, rfl, fun _ h => by cases h⟩
              | ok u =>
                have := e2 rfl
                subst this
                exact ⟨k, rfl, fun _ _ => rfl⟩
  exact ⟨⟨fun p => (key (Alike.refl p)).1, fun h => (key h).2.1⟩, fun h e => (key h).2.2 _ e⟩

theorem setEdge_indep {r : Run α β} (h : r.Indep) : EdgeIndep fun ps : EdgePadders α => (ps.setEdge (r ps.edge).1, (r ps.edge).2) where
  keeps ps := setEdge_alike (h.keeps ps.edge)
  same k := h.same k.edge

theorem setSmooth_indep {r : Run α β} (h : r.Indep) : EdgeIndep fun ps : EdgePadders α => (ps.setSmooth (r ps.smooth).1, (r ps.smooth).2) where
  keeps ps := setSmooth_alike (h.keeps ps.smooth)
  same k := h.same k.smooth

/-- a call, and another one if it returns -/
theorem EdgeIndep.follows {γ : Type} {r : EdgePadders α → EdgePadders α × Except Err β} {f : β → EdgePadders α → EdgePadders α × Except Err γ} {g : EdgePadders α → EdgePadders α × Except Err γ}
    (hr : EdgeIndep r) (hf : ∀ b, EdgeIndep (f b)) (herr : ∀ ps ps' e, r ps = (ps', .error e) → g ps = (ps', .error e)) (hok : ∀ ps ps' b, r ps = (ps', .ok b) → g ps = f b ps') :
    EdgeIndep g := by
  have h := hr.andThen (f := fun r ps => match r with
    | .error e => (ps, .error e)
    | .ok b => f b ps) (by
      intro r
      cases r with
      | error e => exact .const _
      | ok b => exact hf b)
  refine (congrArg EdgeIndep (funext fun ps => ?_)).mp h
  rcases e : r ps with ⟨ps', r⟩
  cases r with
  | error er => exact (herr _ _ _ e).symm
  | ok b => exact (hok _ _ _ e).symm

end

/-- a call that settles the widths, and something that does not look at the padder -/
theorem Run.Settles.follows {β γ : Type} {m : Run α β} {f : β → Except Err γ} {g : Run α γ} (hm : m.Settles) (herr : ∀ p p' e, m p = (p', .error e) → g p = (p', .error e))
    (hok : ∀ p p' b, m p = (p', .ok b) → g p = (p', f b)) : g.Settles := by
  refine (congrArg Run.Settles (funext fun p => ?_)).mp (hm.bind fun b => Run.keeps_lift (f b))
  rcases e : m p with ⟨p', r⟩
  cases r with
  | error er => rw [Run.bind_error e, herr _ _ _ e]
  | ok b => rw [Run.bind_ok e, hok _ _ _ e]; rfl

/-! ## images of integers -/

section
variable [FloorRing α] (t : IntType)

theorem padWord_settles (pool : SepPool α) (junk : List Nat → t.Word) (x : Tensor t.Word) (ax : Axes) : Run.Settles fun p => pool.padWord t p junk x ax :=
  padVia_settles (fun p x ax => p.forwardInt t junk x ax) pool x ax

theorem forwardWord_settles (pool : SepPool α) (junk : List Nat → t.Word) (x : Tensor t.Word) (ax : Axes) : Run.Settles fun p => pool.forwardWord t p junk x ax := by
  unfold SepPool.forwardWord
  rcases checkAxes x.ndim ax with e | axes
  · exact Run.settles_error e
  · simp only
    split_ifs
    · exact (padWord_settles t pool junk x (.seq axes)).follows (f := SepPool.poolLoopWord t pool 0 axes) (fun p p' e h => by simp only [h]) (fun p p' b h => by simp only [h])
    · exact Run.settles_error _

theorem blurWord_settles (s : SSIM α) (junk : List Nat → t.Word) (x : Tensor t.Word) (axes : List Int) : (s.blurWord t junk x axes).Settles := forwardWord_settles t s.pool junk x (.seq axes)

open Run in
theorem sharpenWord_settles (u : UnsharpMask α) (junk : List Nat → t.Word) (x : Tensor t.Word) (ax : Axes) : Run.Settles fun p => u.forwardWord t p junk x ax := by
  unfold UnsharpMask.forwardWord
  rcases checkAxes x.ndim ax with e | axes
  · exact settles_error e
  · simp only
    exact (forwardWord_settles t u.blur junk x (.seq axes)).follows (f := _) (fun p p' e h => by simp only [h]) (fun p p' b h => by simp only [h]; rfl)

open Run in
theorem muSigmaWord_settles (s : SSIM α) (junk : List Nat → t.Word) (y1 y2 : Tensor t.Word) (axes : List Int) : (s.muSigmaWord t junk y1 y2 axes).Settles := by
  rw [SSIM.muSigmaWord]
  refine (blurWord_settles t s junk y1 axes).bind fun mu1 => ?_
  refine (blurWord_settles t s junk y2 axes).keeps.bind fun mu2 => ?_
  refine (keeps_lift _).bind fun _ => (keeps_lift _).bind fun _ => (blurWord_settles ..).keeps.bind fun _ => (keeps_lift _).bind fun _ => (keeps_lift _).bind fun _ =>
    (blurWord_settles ..).keeps.bind fun _ => (keeps_lift _).bind fun _ => (keeps_lift _).bind fun _ => (blurWord_settles ..).keeps.bind fun _ => (keeps_lift _).bind fun _ =>
    (keeps_lift _).bind fun _ => keeps_pure _

open Run in
theorem csFullWord_settles (s : SSIM α) (junk : List Nat → t.Word) (y1 y2 : Tensor t.Word) (axes : List Int) : (s.csFullWord t junk y1 y2 axes).Settles :=
  (muSigmaWord_settles t s junk y1 y2 axes).bind fun _ => (keeps_lift _).bind fun _ => keeps_lift _

open Run in
theorem ssimWord_settles (s : SSIM α) (junk : List Nat → t.Word) (y1 y2 : Tensor t.Word) (ax rax : Axes) : (s.forwardWord t junk y1 y2 ax rax).Settles := by
  rw [SSIM.forwardWord]
  split_ifs
  · exact settles_error _
  · refine (indep_lift _).bind fun axes => (indep_lift _).bind fun raxes => Settles.bind (muSigmaWord_settles ..) fun m => (keeps_lift _).bind fun full => ?_
    exact Keeps.bind (Keeps.bind (cropBorder_keeps _ _ _) fun _ => keeps_lift _) fun _ => keeps_pure _

open Run in
theorem levelsWord_indep (m : MsSsim) (junk : List Nat → t.Word) (axes : List Int) : ∀ (ws : List ℝ) (acc : Option (Tensor ℝ)) (y1 y2 : Tensor t.Word), (m.levelsWord t junk axes ws acc y1 y2).Indep
  | [], _, _, _ => indep_pure _
  | w :: ws, acc, y1, y2 => by
    rw [MsSsim.levelsWord]
    refine (Settles.bind (csFullWord_settles ..) fun cs => ?_).toIndep
    exact Keeps.bind (cropBorder_keeps _ _ _) fun _ => (keeps_lift _).bind fun _ => (keeps_lift _).bind fun _ => (keeps_lift _).bind fun _ => (keeps_lift _).bind fun _ =>
      (levelsWord_indep m junk axes ws _ _ _).keeps

open Run in
theorem msssimWord_settles (m : MsSsim) (junk : List Nat → t.Word) (y1 y2 : Tensor t.Word) (ax rax : Axes) : (m.forwardWord t junk y1 y2 ax rax).Settles := by
  rw [MsSsim.forwardWord]
  split_ifs
  · exact settles_error _
  · refine (indep_lift _).bind fun axes => (indep_lift _).bind fun raxes => (indep_lift _).bind fun _ => (levelsWord_indep ..).bind fun r => ?_
    refine (muSigmaWord_settles ..).bind fun _ => (keeps_lift _).bind fun full => Keeps.bind (cropBorder_keeps _ _ _) fun _ => (keeps_lift _).bind fun _ => ?_
    split
    · exact keeps_lift _
    · exact (keeps_lift _).bind fun _ => keeps_lift _

theorem convSmoothWord_indep (f : EdgeFilter α) (junk : List Nat → t.Word) (x : Tensor t.Word) (axes : List Int) : EdgeIndep fun ps => f.convSmoothWord t ps junk x axes :=
  setSmooth_indep (forwardWord_settles t f.smoothPool junk x (.seq axes)).toIndep

theorem convEdgeWord_indep (f : EdgeFilter α) (junk : List Nat → t.Word) (x : Tensor t.Word) (axis : Int) : EdgeIndep fun ps => f.convEdgeWord t ps junk x axis := by
  unfold EdgeFilter.convEdgeWord
  cases (f.edgeKernel.get 0).bind SepPool.asVec with
  | error e => exact .const _
  | ok w =>
    simp only
    split_ifs
    · exact (setEdge_indep (padWord_settles t f.edgePool junk x (.int axis)).toIndep).mapped fun r => r.bind fun y => EdgeFilter.firstDiff y axis
    · exact (setEdge_indep (padWord_settles t f.edgePool junk x (.int axis)).toIndep).mapped fun r => r.bind fun y => EdgeFilter.secondDiff y axis
    · exact setEdge_indep (forwardWord_settles t f.edgePool junk x (.int axis)).toIndep

theorem componentWord_indep (f : EdgeFilter α) (junk : List Nat → t.Word) (x : Tensor t.Word) (ea sa : Axes) : EdgeIndep fun ps => f.componentWord t ps junk x ea sa := by
  unfold EdgeFilter.componentWord
  cases checkAxes x.ndim ea with
  | error e => exact .const _
  | ok ea =>
    rcases ea with _ | ⟨a, _ | ⟨b, l⟩⟩
    · exact .const _
    · cases checkAxes x.ndim sa with
      | error e => exact .const _
      | ok sa => 
        simp only
        exact (convEdgeWord_indep t f junk x a).follows (fun y => convSmoothWord_indep t f junk y (sa.filter fun b => b ≠ a)) (fun ps ps' e h => by simp only [h]) (fun ps ps' b h => by simp only [h])
    · exact .const _

theorem componentLoopWord_indep (f : EdgeFilter α) (junk : List Nat → t.Word) (x : Tensor t.Word) (axes : List Int) : ∀ as : List Int, EdgeIndep fun ps => f.componentLoopWord t junk x axes as ps
  | [] => .const _
  | a :: as => by
    have h : ∀ c : Tensor t.Word, EdgeIndep fun ps => ((f.componentLoopWord t junk x axes as ps).1, (f.componentLoopWord t junk x axes as ps).2.map fun cs => c :: cs) :=
      fun c => (componentLoopWord_indep f junk x axes as).mapped fun r => r.map fun cs => c :: cs
    refine (componentWord_indep t f junk x (.int a) (.seq axes)).follows h (fun ps ps' e h => by simp only [EdgeFilter.componentLoopWord, h]) fun ps ps' c h => ?_
    simp only [EdgeFilter.componentLoopWord, h]
    rcases f.componentLoopWord t junk x axes as ps' with ⟨ps'', r⟩
    cases r <;> rfl

theorem allComponentsWord_indep (f : EdgeFilter α) (junk : List Nat → t.Word) (x : Tensor t.Word) (ax : Axes) : EdgeIndep fun ps => f.allComponentsWord t ps junk x ax := by
  unfold EdgeFilter.allComponentsWord
  cases checkAxes x.ndim ax with
  | error e => exact .const _
  | ok axes =>
    simp only
    split_ifs
    · exact .const _
    · exact componentLoopWord_indep t f junk x axes axes

theorem edgeTensorWord_indep (f : EdgeFilter α) (junk : List Nat → t.Word) (y : Tensor t.Word) : EdgeIndep fun ps => EdgeLoss.edgeTensorWord t f ps junk y :=
  (allComponentsWord_indep t f junk y (.seq [2, 3])).follows (f := fun cs ps => (ps, Tensor.cat cs 1)) (fun cs => .const _) (fun ps ps' e h => by simp only [EdgeLoss.edgeTensorWord, h])
    (fun ps ps' b h => by simp only [EdgeLoss.edgeTensorWord, h])

theorem withEdgesWord_indep {β : Type} (loss : Tensor t.Word → Tensor t.Word → Except Err β) (f : EdgeFilter α) (junk : List Nat → t.Word) (u v : Tensor t.Word) :
    EdgeIndep fun ps => EdgeLoss.withEdgesWord t loss f ps junk u v := by
  have h : ∀ ep : Tensor t.Word, EdgeIndep fun ps => ((EdgeLoss.edgeTensorWord t f ps junk v).1, (EdgeLoss.edgeTensorWord t f ps junk v).2.bind fun et => loss ep et) :=
    fun ep => (edgeTensorWord_indep t f junk v).mapped fun r => r.bind fun et => loss ep et
  refine (edgeTensorWord_indep t f junk u).follows h (fun ps ps' e h => by simp only [EdgeLoss.withEdgesWord, h]) fun ps ps' ep h => ?_
  simp only [EdgeLoss.withEdgesWord, h]
  rcases EdgeLoss.edgeTensorWord t f ps' junk v with ⟨ps'', r⟩
  cases r <;> rfl

theorem magnitudeLoopWord_indep (f : EdgeFilter α) (junk : List Nat → t.Word) (x : Tensor t.Word) (axes : List Int) (p : Nat) : ∀ (as : List Int) (m : Option (Tensor t.Word)),
    EdgeIndep fun ps => f.magnitudeLoopWord t junk x axes p as ps m
  | [], _ => .const _
  | a :: as, m => by
    refine (componentWord_indep t f junk x (.int a) (.seq axes)).follows (f := fun c ps => match m with
      | none => f.magnitudeLoopWord t junk x axes p as ps (some (if p = 1 then c else c.map fun v => v ^ p))
      | some m =>
        match m.iadd (if p = 1 then c else c.map fun v => v ^ p) with
        | .error e => (ps, .error e)
        | .ok m => f.magnitudeLoopWord t junk x axes p as ps (some m)) (fun c => ?_) (fun ps ps' e h => by simp only [EdgeFilter.magnitudeLoopWord, h])
      (fun ps ps' c h => by simp only [EdgeFilter.magnitudeLoopWord, h]; cases m <;> rfl)
    cases m with
    | none => exact magnitudeLoopWord_indep f junk x axes p as _
    | some m =>
      simp only
      cases m.iadd (if p = 1 then c else c.map fun v => v ^ p) with
      | error e => exact .const _
      | ok m => exact magnitudeLoopWord_indep f junk x axes p as _

theorem magnitudeWord_indep (root : α → α) (f : EdgeFilter α) (junk : List Nat → t.Word) (x : Tensor t.Word) (ax : Axes) (epsilon : α) (p : Nat) :
    EdgeIndep fun ps => f.magnitudeWord t root ps junk x ax epsilon p := by
  unfold EdgeFilter.magnitudeWord
  cases checkAxes x.ndim ax with
  | error e => exact .const _
  | ok axes =>
    by_cases hl : axes.length < 2
    · simp only [hl, if_true]
      exact .const _
    · simp only [hl, if_false]
      have h := (magnitudeLoopWord_indep t f junk x axes p axes none).mapped (γ := Except Err (Tensor α)) fun r => match r with
        | .error e => .error e
        | .ok none => .error .type
        | .ok (some m) =>
          if epsilon ≠ 0 then .error .runtime
          else if p = 1 then .ok (t.floats m)
          else if p = 0 then .error .zeroDivision
          else .ok ((t.floats m).map root)
      refine (congrArg EdgeIndep (funext fun ps => ?_)).mp h
      rcases f.magnitudeLoopWord t junk x axes p axes ps none with ⟨ps', r⟩
      rcases r with e | (_ | m)
      · rfl
      · rfl
      · simp only; split_ifs <;> rfl

end

/-! ## images with entries that are not finite -/

section
variable [FloorRing α]

theorem padFlt_settles (pool : SepPool α) (junk : List Nat → (Flt α)) (x : Tensor (Flt α)) (ax : Axes) : Run.Settles fun p => pool.padFlt p junk x ax :=
  padVia_settles (fun p x ax => p.forwardFlt junk x ax) pool x ax

theorem forwardFlt_settles (pool : SepPool α) (junk : List Nat → (Flt α)) (x : Tensor (Flt α)) (ax : Axes) : Run.Settles fun p => pool.forwardFlt p junk x ax := by
  unfold SepPool.forwardFlt
  rcases checkAxes x.ndim ax with e | axes
  · exact Run.settles_error e
  · simp only
    split_ifs
    · exact (padFlt_settles pool junk x (.seq axes)).follows (f := SepPool.poolLoopFlt pool 0 axes) (fun p p' e h => by simp only [h]) (fun p p' b h => by simp only [h])
    · exact Run.settles_error _

theorem blurFlt_settles (s : SSIM α) (junk : List Nat → (Flt α)) (x : Tensor (Flt α)) (axes : List Int) : (s.blurFlt junk x axes).Settles := forwardFlt_settles s.pool junk x (.seq axes)

open Run in
theorem sharpenFlt_settles (u : UnsharpMask α) (junk : List Nat → (Flt α)) (x : Tensor (Flt α)) (ax : Axes) : Run.Settles fun p => u.forwardFlt p junk x ax := by
  unfold UnsharpMask.forwardFlt
  rcases checkAxes x.ndim ax with e | axes
  · exact settles_error e
  · simp only
    exact (forwardFlt_settles u.blur junk x (.seq axes)).follows (f := _) (fun p p' e h => by simp only [h]) (fun p p' b h => by simp only [h]; rfl)

open Run in
theorem muSigmaFlt_settles (s : SSIM α) (junk : List Nat → (Flt α)) (y1 y2 : Tensor (Flt α)) (axes : List Int) : (s.muSigmaFlt junk y1 y2 axes).Settles := by
  rw [SSIM.muSigmaFlt]
  refine (blurFlt_settles s junk y1 axes).bind fun mu1 => ?_
  refine (blurFlt_settles s junk y2 axes).keeps.bind fun mu2 => ?_
  refine (keeps_lift _).bind fun _ => (keeps_lift _).bind fun _ => (blurFlt_settles ..).keeps.bind fun _ => (keeps_lift _).bind fun _ => (keeps_lift _).bind fun _ =>
    (blurFlt_settles ..).keeps.bind fun _ => (keeps_lift _).bind fun _ => (keeps_lift _).bind fun _ => (blurFlt_settles ..).keeps.bind fun _ => (keeps_lift _).bind fun _ =>
    (keeps_lift _).bind fun _ => keeps_pure _

open Run in
theorem csFullFlt_settles (s : SSIM α) (junk : List Nat → (Flt α)) (y1 y2 : Tensor (Flt α)) (axes : List Int) : (s.csFullFlt junk y1 y2 axes).Settles :=
  (muSigmaFlt_settles s junk y1 y2 axes).bind fun _ => (keeps_lift _).bind fun _ => keeps_lift _

open Run in
theorem cropBorderFlt_keeps (s : SSIM α) (full : Tensor (Flt α)) (axes : List Int) : (s.cropBorderFlt full axes).Keeps := by
  refine Keeps.bind (m := Run.padder) (fun p => Alike.refl p) fun p => ?_
  cases p with
  | none => exact keeps_pure _
  | some p =>
    by_cases h : s.crop = true
    · simp only [h, if_true]; exact (keeps_lift _).bind fun _ => keeps_pure _
    · simp only [h]; exact keeps_pure _

open Run in
theorem ssimFlt_settles (s : SSIM α) (junk : List Nat → (Flt α)) (y1 y2 : Tensor (Flt α)) (ax rax : Axes) : (s.forwardFlt junk y1 y2 ax rax).Settles := by
  rw [SSIM.forwardFlt]
  split_ifs
  · exact settles_error _
  · refine (indep_lift _).bind fun axes => (indep_lift _).bind fun raxes => Settles.bind (Settles.bind (muSigmaFlt_settles ..) fun _ => keeps_lift _) fun full => ?_
    exact Keeps.bind (cropBorderFlt_keeps _ _ _) fun _ => (keeps_lift _).bind fun _ => keeps_pure _

open Run in
theorem levelsFlt_indep (m : MsSsim) (junk : List Nat → (Flt ℝ)) (axes : List Int) : ∀ (ws : List ℝ) (acc : Option (Tensor (Flt ℝ))) (y1 y2 : Tensor (Flt ℝ)), (m.levelsFlt junk axes ws acc y1 y2).Indep
  | [], _, _, _ => indep_pure _
  | w :: ws, acc, y1, y2 => by
    rw [MsSsim.levelsFlt]
    refine (Settles.bind (csFullFlt_settles ..) fun cs => ?_).toIndep
    exact Keeps.bind (cropBorderFlt_keeps _ _ _) fun _ => (keeps_lift _).bind fun _ => (keeps_lift _).bind fun _ => (keeps_lift _).bind fun _ => (keeps_lift _).bind fun _ =>
      (levelsFlt_indep m junk axes ws _ _ _).keeps

open Run in
theorem msssimFlt_settles (m : MsSsim) (junk : List Nat → (Flt ℝ)) (y1 y2 : Tensor (Flt ℝ)) (ax rax : Axes) : (m.forwardFlt junk y1 y2 ax rax).Settles := by
  rw [MsSsim.forwardFlt]
  split_ifs
  · exact settles_error _
  · refine (indep_lift _).bind fun axes => (indep_lift _).bind fun raxes => (indep_lift _).bind fun _ => (levelsFlt_indep ..).bind fun r => ?_
    refine Settles.bind (Settles.bind (muSigmaFlt_settles ..) fun _ => keeps_lift _) fun full => Keeps.bind (cropBorderFlt_keeps _ _ _) fun _ => (keeps_lift _).bind fun _ => ?_
    split
    · exact keeps_lift _
    · exact (keeps_lift _).bind fun _ => keeps_lift _

theorem convSmoothFlt_indep (f : EdgeFilter α) (junk : List Nat → (Flt α)) (x : Tensor (Flt α)) (axes : List Int) : EdgeIndep fun ps => f.convSmoothFlt ps junk x axes :=
  setSmooth_indep (forwardFlt_settles f.smoothPool junk x (.seq axes)).toIndep

theorem convEdgeFlt_indep (f : EdgeFilter α) (junk : List Nat → (Flt α)) (x : Tensor (Flt α)) (axis : Int) : EdgeIndep fun ps => f.convEdgeFlt ps junk x axis := by
  unfold EdgeFilter.convEdgeFlt
  cases (f.edgeKernel.get 0).bind SepPool.asVec with
  | error e => exact .const _
  | ok w =>
    simp only
    split_ifs
    · exact (setEdge_indep (padFlt_settles f.edgePool junk x (.int axis)).toIndep).mapped fun r => r.bind fun y => EdgeFilter.firstDiff y axis
    · exact (setEdge_indep (padFlt_settles f.edgePool junk x (.int axis)).toIndep).mapped fun r => r.bind fun y => EdgeFilter.secondDiff y axis
    · exact setEdge_indep (forwardFlt_settles f.edgePool junk x (.int axis)).toIndep

theorem componentFlt_indep (f : EdgeFilter α) (junk : List Nat → (Flt α)) (x : Tensor (Flt α)) (ea sa : Axes) : EdgeIndep fun ps => f.componentFlt ps junk x ea sa := by
  unfold EdgeFilter.componentFlt
  cases checkAxes x.ndim ea with
  | error e => exact .const _
  | ok ea =>
    rcases ea with _ | ⟨a, _ | ⟨b, l⟩⟩
    · exact .const _
    · cases checkAxes x.ndim sa with
      | error e => exact .const _
      | ok sa => 
        simp only
        exact (convEdgeFlt_indep f junk x a).follows (fun y => convSmoothFlt_indep f junk y (sa.filter fun b => b ≠ a)) (fun ps ps' e h => by simp only [h]) (fun ps ps' b h => by simp only [h])
    · exact .const _

theorem componentLoopFlt_indep (f : EdgeFilter α) (junk : List Nat → (Flt α)) (x : Tensor (Flt α)) (axes : List Int) : ∀ as : List Int, EdgeIndep fun ps => f.componentLoopFlt junk x axes as ps
  | [] => .const _
  | a :: as => by
    have h : ∀ c : Tensor (Flt α), EdgeIndep fun ps => ((f.componentLoopFlt junk x axes as ps).1, (f.componentLoopFlt junk x axes as ps).2.map fun cs => c :: cs) :=
      fun c => (componentLoopFlt_indep f junk x axes as).mapped fun r => r.map fun cs => c :: cs
    refine (componentFlt_indep f junk x (.int a) (.seq axes)).follows h (fun ps ps' e h => by simp only [EdgeFilter.componentLoopFlt, h]) fun ps ps' c h => ?_
    simp only [EdgeFilter.componentLoopFlt, h]
    rcases f.componentLoopFlt junk x axes as ps' with ⟨ps'', r⟩
    cases r <;> rfl

theorem allComponentsFlt_indep (f : EdgeFilter α) (junk : List Nat → (Flt α)) (x : Tensor (Flt α)) (ax : Axes) : EdgeIndep fun ps => f.allComponentsFlt ps junk x ax := by
  unfold EdgeFilter.allComponentsFlt
  cases checkAxes x.ndim ax with
  | error e => exact .const _
  | ok axes =>
    simp only
    split_ifs
    · exact .const _
    · exact componentLoopFlt_indep f junk x axes axes

theorem edgeTensorFlt_indep (f : EdgeFilter α) (junk : List Nat → (Flt α)) (y : Tensor (Flt α)) : EdgeIndep fun ps => EdgeLoss.edgeTensorFlt f ps junk y :=
  (allComponentsFlt_indep f junk y (.seq [2, 3])).follows (f := fun cs ps => (ps, Tensor.cat cs 1)) (fun cs => .const _) (fun ps ps' e h => by simp only [EdgeLoss.edgeTensorFlt, h])
    (fun ps ps' b h => by simp only [EdgeLoss.edgeTensorFlt, h])

theorem withEdgesFlt_indep {β : Type} (loss : Tensor (Flt α) → Tensor (Flt α) → Except Err β) (f : EdgeFilter α) (junk : List Nat → (Flt α)) (u v : Tensor (Flt α)) :
    EdgeIndep fun ps => EdgeLoss.withEdgesFlt loss f ps junk u v := by
  have h : ∀ ep : Tensor (Flt α), EdgeIndep fun ps => ((EdgeLoss.edgeTensorFlt f ps junk v).1, (EdgeLoss.edgeTensorFlt f ps junk v).2.bind fun et => loss ep et) :=
    fun ep => (edgeTensorFlt_indep f junk v).mapped fun r => r.bind fun et => loss ep et
  refine (edgeTensorFlt_indep f junk u).follows h (fun ps ps' e h => by simp only [EdgeLoss.withEdgesFlt, h]) fun ps ps' ep h => ?_
  simp only [EdgeLoss.withEdgesFlt, h]
  rcases EdgeLoss.edgeTensorFlt f ps' junk v with ⟨ps'', r⟩
  cases r <;> rfl

end

/-! ## all methods -/

theorem edgeMethodWord_indep {t : IntType} (c : EdgeMethodWord t) : EdgeIndep fun ps => c.run ps := by
  cases c with
  | component f junk x ea sa => exact (componentWord_indep t f junk x ea sa).mapped OutcomeWord.words
  | components f junk x ax => exact (allComponentsWord_indep t f junk x ax).mapped OutcomeWord.list
  | magnitude root f junk x ax epsilon p => exact (magnitudeWord_indep t root f junk x ax epsilon p).mapped OutcomeWord.tensor
  | loss f junk u v => exact (withEdgesWord_indep t _ f junk u v).mapped OutcomeWord.tensor
  | weightedMul f junk u v => exact (withEdgesWord_indep t _ f junk u v).mapped OutcomeWord.tensor
  | weightedDiv f junk u v => exact (withEdgesWord_indep t _ f junk u v).mapped OutcomeWord.value
  | weightedSum f junk u v => exact (withEdgesWord_indep t _ f junk u v).mapped OutcomeWord.tensor

theorem edgeMethodFlt_indep (c : EdgeMethodFlt) : EdgeIndep fun ps => c.run ps := by
  cases c with
  | component f junk x ea sa => exact (componentFlt_indep f junk x ea sa).mapped OutcomeFlt.tensor
  | components f junk x ax => exact (allComponentsFlt_indep f junk x ax).mapped OutcomeFlt.list
  | loss f junk u v => exact (withEdgesFlt_indep _ f junk u v).mapped OutcomeFlt.tensor
  | weightedMul f junk u v => exact (withEdgesFlt_indep _ f junk u v).mapped OutcomeFlt.tensor
  | weightedDiv f junk u v => exact (withEdgesFlt_indep _ f junk u v).mapped OutcomeFlt.tensor
  | weightedSum f junk u v => exact (withEdgesFlt_indep _ f junk u v).mapped OutcomeFlt.tensor

theorem shared_indep {β : Type} {r : EdgePadders α → EdgePadders α × β} (h : EdgeIndep r) :
    (∀ p, Alike (r (.shared p)).1.edge p) ∧ ∀ {p q}, Alike p q → (r (.shared p)).2 = (r (.shared q)).2 :=
  ⟨fun p => (h.keeps (.shared p)).edge, fun {p q} k => h.same (ps := .shared p) (qs := .shared q) k⟩

theorem methodWord_indep {t : IntType} (c : MethodWord t) : (∀ p, Alike (c.run p).1 p) ∧ ∀ {p q}, Alike p q → (c.run p).2 = (c.run q).2 := by
  cases c with
  | pool m junk x ax => exact ⟨(forwardWord_settles t m junk x ax).keeps, fun h => congrArg OutcomeWord.words ((forwardWord_settles t m junk x ax).same h)⟩
  | sharpen u junk x ax => exact ⟨(sharpenWord_settles t u junk x ax).keeps, fun h => congrArg OutcomeWord.tensor ((sharpenWord_settles t u junk x ax).same h)⟩
  | ssim s junk a b ax rax => exact ⟨(ssimWord_settles t s junk a b ax rax).keeps, fun h => congrArg OutcomeWord.scores ((ssimWord_settles t s junk a b ax rax).same h)⟩
  | msssim m junk a b ax rax => exact ⟨(msssimWord_settles t m junk a b ax rax).keeps, fun h => congrArg OutcomeWord.tensor ((msssimWord_settles t m junk a b ax rax).same h)⟩
  | edge c => exact shared_indep (edgeMethodWord_indep c)

theorem methodFlt_indep (c : MethodFlt) : (∀ p, Alike (c.run p).1 p) ∧ ∀ {p q}, Alike p q → (c.run p).2 = (c.run q).2 := by
  cases c with
  | pool m junk x ax => exact ⟨(forwardFlt_settles m junk x ax).keeps, fun h => congrArg OutcomeFlt.tensor ((forwardFlt_settles m junk x ax).same h)⟩
  | sharpen u junk x ax => exact ⟨(sharpenFlt_settles u junk x ax).keeps, fun h => congrArg OutcomeFlt.tensor ((sharpenFlt_settles u junk x ax).same h)⟩
  | ssim s junk a b ax rax => exact ⟨(ssimFlt_settles s junk a b ax rax).keeps, fun h => congrArg OutcomeFlt.scores ((ssimFlt_settles s junk a b ax rax).same h)⟩
  | msssim m junk a b ax rax => exact ⟨(msssimFlt_settles m junk a b ax rax).keeps, fun h => congrArg OutcomeFlt.tensor ((msssimFlt_settles m junk a b ax rax).same h)⟩
  | edge c => exact shared_indep (edgeMethodFlt_indep c)

theorem mixedEvent_keeps (e : MixedEvent) (p : Option (Padder ℝ)) : Alike (e.run p) p := by
  cases e with
  | numbers e => exact sharedEvent_keeps e p
  | integers t c => exact (methodWord_indep c).1 p
  | floats c => exact (methodFlt_indep c).1 p

theorem mixed_history (p : Option (Padder ℝ)) (h : List MixedEvent) : Alike (h.foldl MixedEvent.run p) p := by
  induction h generalizing p with
  | nil => exact Alike.refl p
  | cons e h ih => exact (ih (e.run p)).trans (mixedEvent_keeps e p)

end TI
