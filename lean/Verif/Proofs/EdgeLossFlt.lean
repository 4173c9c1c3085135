import Verif.Model.EdgeLossFlt
import Verif.Props.FltSsim
import Verif.Props.FltMore
import Verif.Props.EdgeLoss

/-!
# Edges of images with entries that are not finite
-/

set_option linter.unusedSectionVars false

namespace TI
open Tensor Spec

section
variable {α : Type} [Field α] [LinearOrder α] [IsStrictOrderedRing α]
variable {pool : SepPool α} {u : List α} {m a : Nat} {gp : PadArgs α} {p : Padder α} {X : Tensor (Flt α)} {ax : Axes} {axes : List Nat} {g : PoolArgs α}

theorem spoiled_zero {b : Flt α} : spoiled b = (0 : α) ↔ IsFinite b := by
  cases b with
  | num v => exact iff_of_true rfl ⟨v, rfl⟩
  | inf s => exact iff_of_false one_ne_zero fun ⟨_, h⟩ => by cases h
  | nan => exact iff_of_false one_ne_zero fun ⟨_, h⟩ => by cases h

/-- padding by copying: what is not finite -/
theorem PoolIs.padFlt_mask (h : PoolIs pool g m) (hm : g.isMany = true → axes.length = m) (hc : SameCall g gp (X.map spoiled) ax axes) (hp : Holds p gp) (hcp : CopyModes p)
    (junk : List Nat → Flt α) :
    ∃ Y, SepPool.padFlt pool (some p) junk X (.seq (castV axes)) = (some ((gp.withWidths (g.widths X.shape axes)).padder axes.length), .ok Y) ∧
      Y.map spoiled = padSeq (X.map spoiled) (sameOps g gp X.shape axes) := by
  obtain ⟨h1, h2⟩ := rel_padFlt (R := fun a b => a = spoiled b) rfl pool (some p) (fun p' e => by cases e; exact hcp.alike) (junk := fun ix => spoiled (junk ix)) (junk' := junk)
    (fun _ => rfl) (rel_map_fun rfl X) (.seq (castV axes))
  rw [h.pad_same hc hm hp] at h1 h2
  generalize hr : SepPool.padFlt pool (some p) junk X (.seq (castV axes)) = r at h1 h2
  obtain ⟨q, r⟩ := r
  cases h2 with
  | ok hy =>
    rename_i Y
    have h1 : _ = q := h1
    exact ⟨Y, by rw [← h1]; rfl, (eq_map_of_rel hy).symm⟩

theorem single_ops (w : List α) (gp : PadArgs α) (shape : List Nat) (a : Nat) :
    sameOps (PoolArgs.filter (.one w)) gp shape [a] = [(a, sameSetting (PoolArgs.filter (.one w)) gp shape [a] 0)] := by
  rw [sameOps]
  simp [withWidths_entry]

theorem single_before (w : List α) (gp : PadArgs α) (shape : List Nat) (a : Nat) :
    (sameSetting (PoolArgs.filter (.one w)) gp shape [a] 0).before = w.length - 1 - (w.length - 1) / 2 := by
  show (PoolArgs.samePair w.length 1 _).1 = _
  rw [PoolArgs.samePair, sameTotal_one]

/-- the samples of the image in the padded one -/
theorem pad_kept (ha : a < X.ndim) (hc : SameCall (PoolArgs.filter (.one u)) gp (X.map spoiled) ax [a]) {Y : Tensor (Flt α)}
    (hY : Y.map spoiled = padSeq (X.map spoiled) (sameOps (PoolArgs.filter (.one u)) gp X.shape [a])) {ix : List Nat} (hix : InB X.shape ix) :
    InB Y.shape (ix.set a (ix.getD a 0 + (u.length - 1 - (u.length - 1) / 2))) ∧
      (IsFinite (Y.get (ix.set a (ix.getD a 0 + (u.length - 1 - (u.length - 1) / 2)))) ↔ IsFinite (X.get ix)) := by
  rw [single_ops] at hY
  have hok : OpsOK [(a, sameSetting (PoolArgs.filter (.one u)) gp X.shape [a] 0)] := by
    have := hc.opsOK
    rwa [show (X.map (spoiled (α := α))).shape = X.shape from rfl, single_ops] at this
  have hal : a < ix.length := by rw [hix.length_eq]; exact ha
  have he : embed [(a, sameSetting (PoolArgs.filter (.one u)) gp X.shape [a] 0)] ix = ix.set a (ix.getD a 0 + (u.length - 1 - (u.length - 1) / 2)) := by
    apply list_ext_getD (by simp [embed])
    intro k hk
    have hk' : k < ix.length := by simpa [embed] using hk
    rw [embed, getD_map_range hk', getD_set _ _ _ _ _ hal]
    simp only [beforeAt, settingAt]
    by_cases hka : k = a
    · subst hka; simp [single_before]
    · simp [hka, Ne.symm hka]
  have hlt : ∀ o ∈ [(a, sameSetting (PoolArgs.filter (.one u)) gp X.shape [a] 0)], o.1 < (X.map (spoiled (α := α))).ndim := by
    intro o ho
    rw [List.mem_singleton] at ho
    subst ho
    exact ha
  have hin := embed_inB hok (by simp) (x := X.map spoiled) hlt hix
  have hcr := padSeq_crop hok (by simp) (X.map spoiled) hlt hix
  rw [he, ← hY] at hin hcr
  have hin' : InB Y.shape (ix.set a (ix.getD a 0 + (u.length - 1 - (u.length - 1) / 2))) := hin
  refine ⟨hin', ?_⟩
  rw [get_map _ _ hin', get_map _ _ hix] at hcr
  rw [← spoiled_zero, ← spoiled_zero, hcr]

/-- pooling along one axis: an entry that is finite comes from one that is -/
theorem PoolIs.forwardFlt_kept (h : PoolIs pool (PoolArgs.filter (.one u)) m) (hc : SameCall (PoolArgs.filter (.one u)) gp (X.map spoiled) ax [a])
    (hsh : (filtered (.one u) gp (X.map spoiled) [a]).shape = X.shape) (hp : Holds p gp) (hcp : CopyModes p) (junk : List Nat → Flt α) :
    ∃ Z, SepPool.forwardFlt pool (some p) junk X ax = (some ((gp.withWidths ((PoolArgs.filter (.one u)).widths X.shape [a])).padder 1), .ok Z) ∧ Z.shape = X.shape ∧
      ∀ ix, InB X.shape ix → IsFinite (Z.get ix) → IsFinite (X.get ix) := by
  have ha : a < X.ndim := (checkAxes_spec hc.axes_eq).2 a (by simp)
  obtain ⟨Y, hY, hs⟩ := h.padFlt_mask (by intro h; cases h) hc hp hcp junk
  have hcy := countRel_spoiled Y
  rw [hs] at hcy
  obtain ⟨Z, z1, z2⟩ := h.loopFlt_all countRel_dot hcy (axes := [a]) (by intro h; cases h) hc.poolOps.fitting
  have hz : (slide (padSeq (X.map spoiled) (sameOps (PoolArgs.filter (.one u)) gp X.shape [a])) ⟨a, u.map fun _ => 1, 1⟩).Rel CountRel Z := z2
  have hss : (slide (padSeq (X.map spoiled) (sameOps (PoolArgs.filter (.one u)) gp X.shape [a])) ⟨a, u.map fun _ => (1 : α), 1⟩).shape = X.shape := by
    refine Eq.trans ?_ hsh
    show _ = (slide (padSeq (X.map spoiled) (sameOps (PoolArgs.filter (.one u)) gp X.shape [a])) ⟨a, u, 1⟩).shape
    rw [slide_shape, slide_shape]
    by_cases hu : u = [] <;> simp [hu]
  refine ⟨Z, by rw [h.forwardFlt_padded (by intro h; cases h) hc.axes_eq hY, z1]; rfl, by rw [← hz.shape, hss], fun ix hix hf => ?_⟩
  have h0 := (hz.get ix).2.2 hf
  obtain ⟨hin, hk⟩ := pad_kept ha hc hs hix
  rw [← hk]
  by_cases hu : u = []
  · subst hu
    rw [slide, if_pos (by rfl), ← hs] at h0
    simp only [List.length_nil] at hin ⊢
    simp only [Nat.zero_sub, Nat.zero_div, Nat.sub_zero, Nat.add_zero, set_getD_self] at hin ⊢
    rw [get_map _ _ hin] at h0
    exact spoiled_zero.1 h0
  · rw [slide_get (by simpa using hu) (by rw [hss]; exact hix), ← hs] at h0
    have hnn : ∀ j, 0 ≤ (u.map fun _ => (1 : α)).getD j 0 * (Y.map spoiled).get (ix.set a (ix.getD a 0 * 1 + j)) := by
      intro j
      refine mul_nonneg ?_ ((countRel_spoiled Y).get _).1
      rcases Nat.lt_or_ge j u.length with hj | hj
      · simp [hj]
      · simp [hj]
    have := (sum_nonneg_eq_zero _ _ hnn).2.1 h0 (u.length - 1 - (u.length - 1) / 2) (by
      rw [List.mem_range, List.length_map]
      have := List.length_pos_iff.2 hu
      omega)
    have hl : u.length - 1 - (u.length - 1) / 2 < u.length := by
      have := List.length_pos_iff.2 hu
      omega
    rw [Nat.mul_one, get_map _ _ hin] at this
    simp only [List.getD_eq_getElem?_getD, List.getElem?_map, List.getElem?_eq_getElem hl, Option.map_some, Option.getD_some, one_mul] at this
    simp only [List.getD_eq_getElem?_getD]
    exact spoiled_zero.1 this

end

section
variable {α : Type} [Field α] [LinearOrder α] [IsStrictOrderedRing α] [FloorRing α]
variable {f : EdgeFilter α} {w : List α} {g : Given (List α)} {m a : Nat} {X : Tensor (Flt α)} {ps : EdgePadders α} {n c h v : Nat}

theorem reflect_modeAt {p : Padder α} (hp : Holds p reflectArgs) (i : Int) : p.modeAt i = .ok .reflect := by
  rw [Padder.modeAt, hp.mode]
  rfl

theorem reflect_copies {p : Padder α} (hp : Holds p reflectArgs) : CopyModes p := by
  intro i m hm
  rw [reflect_modeAt hp i] at hm
  cases hm
  exact ⟨rfl, by simp⟩

theorem padFlt_int (pool : SepPool α) (p : Option (Padder α)) (junk : List Nat → Flt α) (ha : a < X.ndim) :
    pool.padFlt p junk X (.int a) = pool.padFlt p junk X (.seq (castV [a])) := by
  have h1 : checkAxes X.ndim (.int a) = .ok (castV [a]) := by
    simp [checkAxes, castV]
  have h2 : checkAxes X.ndim (.seq (castV [a])) = .ok (castV [a]) := checkAxes_castV (by simpa using ha)
  simp only [SepPool.padFlt, h1, h2]

/-- an image padded for three samples -/
theorem pad_three {ax : Axes} {Y : Tensor (Flt α)} (hl : w.length = 3) (ha : a < X.ndim) (hc : SameCall (PoolArgs.filter (.one w)) reflectArgs (X.map spoiled) ax [a])
    (hs : Y.map spoiled = padSeq (X.map spoiled) (sameOps (PoolArgs.filter (.one w)) reflectArgs X.shape [a])) :
    Y.shape = X.shape.set a (X.shape.getD a 0 + 2) ∧ (X.shape.getD a 0 = 1 → ∀ ix, InB X.shape ix → (IsFinite (Y.get ix) ↔ IsFinite (X.get ix))) := by
  set o : Nat × AxisPad α := (a, sameSetting (PoolArgs.filter (.one w)) reflectArgs X.shape [a] 0) with ho
  rw [single_ops] at hs
  have hE : o.2.rule? = some Spec.reflect := by
    have : o.2.mode = .reflect := rfl
    simp [AxisPad.rule?, this]
  have hb : o.2.before = 1 := by
    rw [ho]
    show (sameSetting (PoolArgs.filter (.one w)) reflectArgs X.shape [a] 0).before = 1
    rw [single_before, hl]
  have haf : o.2.after = 1 := by
    show (PoolArgs.samePair w.length 1 _).2 = _
    rw [PoolArgs.samePair, sameTotal_one, hl]
  have ht : o.2.total (X.shape.getD a 0) = 1 := by
    have hm : o.2.mode.isPeriodize = false := rfl
    rw [AxisPad.total, hb, haf, hm]
    simp
  have hs' : Y.map spoiled = padStep (X.map spoiled) o := hs
  rw [padStep_eq (by exact ha) hE, hb] at hs'
  have hsh : Y.shape = X.shape.set a (X.shape.getD a 0 + 2) := by
    have : (Y.map (spoiled (α := α))).shape = _ := congrArg Tensor.shape hs'
    rw [extendAxis, shape_ofFn] at this
    have e : (1 + (X.map (spoiled (α := α))).shape.getD a 0 + o.2.total ((X.map (spoiled (α := α))).shape.getD a 0)) = X.shape.getD a 0 + 2 := by
      show 1 + X.shape.getD a 0 + o.2.total (X.shape.getD a 0) = _
      rw [ht]; omega
    rw [e] at this
    exact this
  refine ⟨hsh, fun hone ix hix => ?_⟩
  have hal : a < ix.length := by rw [hix.length_eq]; exact ha
  have hia : ix.getD a 0 = 0 := by have := hix.lt (show a < X.shape.length from ha); omega
  have hin : InB Y.shape ix := by
    rw [hsh]
    have := hix.set' (d := a) (i := 0) (m := X.shape.getD a 0 + 2) (by omega)
    have e : ix.set a 0 = ix := by conv_lhs => rw [← hia]
                                   exact set_getD_self
    rwa [e] at this
  have := congrArg (fun t => t.get ix) hs'
  simp only [extendAxis] at this
  rw [get_map _ _ hin, get_ofFn (by
    have e : 1 + (X.map (spoiled (α := α))).shape.getD o.1 0 + o.2.total ((X.map (spoiled (α := α))).shape.getD o.1 0) = X.shape.getD a 0 + 2 := by
      show 1 + X.shape.getD a 0 + o.2.total (X.shape.getD a 0) = _
      rw [ht]; omega
    rw [e]
    exact hsh ▸ hin)] at this
  have h1 : (X.map (spoiled (α := α))).shape.getD a 0 = 1 := hone
  rw [h1, Spec.reflect, if_pos rfl, ← hia, set_getD_self, get_map _ _ hix] at this
  rw [← spoiled_zero, ← spoiled_zero, this]

/-- the edge step keeps what is not finite -/
theorem convEdgeFlt_kept (hi : EdgeIs f w g m) (hps : HoldsBoth ps reflectArgs) (hX : X.shape = [n, c, h, v]) (hh : 0 < h) (hv : 0 < v) (ha : a ∈ [2, 3]) (junk : List Nat → Flt α) :
    ∃ ps' Z, f.convEdgeFlt ps junk X (a : Int) = (ps', .ok Z) ∧ Z.shape = X.shape ∧ HoldsBoth ps' reflectArgs ∧
      ((∀ ix, InB X.shape ix → IsFinite (Z.get ix)) → ∀ ix, InB X.shape ix → IsFinite (X.get ix)) := by
  obtain ⟨e, s, q1, q2, q3, q4⟩ := id hps
  have hset : EdgeSetup (.one ([] : List α)) reflectArgs (X.map spoiled) (.seq [2, 3]) [2, 3] := reflect_setup rfl hX hh hv
  have hc := hset.edgeSame w ha
  have hsh : (filtered (.one w) reflectArgs (X.map spoiled) [a]).shape = X.shape := hset.edge_shape w ha
  have hax : a < X.ndim := by rw [Tensor.ndim, hX]; simp only [List.mem_cons, List.not_mem_nil, or_false] at ha; rcases ha with rfl | rfl <;> simp
  obtain ⟨Y, hY, hs⟩ := hi.edge.padFlt_mask (by intro h; cases h) hc q3 (reflect_copies q3) junk
  have hst := hps.setEdge (holds_withWidths reflectArgs ((PoolArgs.filter (.one w)).widths X.shape [a]) 1)
  by_cases h1 : w.map truncInt = [-1, 0, 1]
  · have hl : w.length = 3 := by have := congrArg List.length h1; simpa using this
    obtain ⟨hYs, hone⟩ := pad_three hl hax hc hs
    have hYa : a < Y.ndim := by rw [Tensor.ndim, hYs, List.length_set]; exact hax
    obtain ⟨Z, z1, z2, z3⟩ := C139_first (ps := ps) hi.kernel_get h1 ((padFlt_int f.edgePool ps.edge junk hax).trans (q1 ▸ hY)) hYa
    have hZs : Z.shape = X.shape := by
      rw [z2, hYs, getD_set_self _ _ _ _ hax, List.set_set, Nat.add_sub_cancel, set_getD_self]
    refine ⟨_, Z, z1, hZs, hst, fun hall ix hix => ?_⟩
    have hal : a < ix.length := by rw [hix.length_eq]; exact hax
    have hia := hix.lt (show a < X.shape.length from hax)
    have hk := (pad_kept hax hc hs hix).2
    rw [hl] at hk
    rw [← hk]
    by_cases hn1 : X.shape.getD a 0 = 1
    · rw [hk, ← hone hn1 ix hix]
      exact ((z3 ix (hZs ▸ hix)).1 (hall ix hix)).1
    by_cases hlast : ix.getD a 0 + 1 < X.shape.getD a 0
    · have hix' : InB X.shape (ix.set a (ix.getD a 0 + 1)) := by
        have := hix.set' (d := a) (i := ix.getD a 0 + 1) (m := X.shape.getD a 0) hlast
        rwa [set_getD_self] at this
      exact ((z3 _ (hZs ▸ hix')).1 (hall _ hix')).1
    · have hix' : InB X.shape (ix.set a (ix.getD a 0 - 1)) := by
        have := hix.set' (d := a) (i := ix.getD a 0 - 1) (m := X.shape.getD a 0) (by omega)
        rwa [set_getD_self] at this
      have := ((z3 _ (hZs ▸ hix')).1 (hall _ hix')).2
      rw [getD_set_self _ _ _ _ hal, List.set_set, show ix.getD a 0 - 1 + 2 = ix.getD a 0 + 1 by omega] at this
      exact this
  by_cases h2 : w.map truncInt = [1, -2, 1]
  · have hl : w.length = 3 := by have := congrArg List.length h2; simpa using this
    obtain ⟨hYs, _⟩ := pad_three hl hax hc hs
    have hYa : a < Y.ndim := by rw [Tensor.ndim, hYs, List.length_set]; exact hax
    obtain ⟨Z, z1, z2, z3⟩ := C139_second (ps := ps) hi.kernel_get h2 ((padFlt_int f.edgePool ps.edge junk hax).trans (q1 ▸ hY)) hYa
    have hZs : Z.shape = X.shape := by
      rw [z2, hYs, getD_set_self _ _ _ _ hax, List.set_set, Nat.add_sub_cancel, set_getD_self]
    refine ⟨_, Z, z1, hZs, hst, fun hall ix hix => ?_⟩
    have hk := (pad_kept hax hc hs hix).2
    rw [hl] at hk
    rw [← hk]
    exact ((z3 ix (hZs ▸ hix)).1 (hall ix hix)).2.1
  obtain ⟨Z, z1, z2, z3⟩ := hi.edge.forwardFlt_kept hc hsh q3 (reflect_copies q3) junk
  exact ⟨_, Z, by simp only [EdgeFilter.convEdgeFlt, hi.kernel_get, h1, h2, if_false, q1, z1], z2, hst, fun hall ix hix => z3 ix hix (hall ix hix)⟩

/-- the number of an entry, or `d` -/
def numberOr (d : α) : Flt α → α
  | .num a => a
  | _ => d

/-- an entry that is this number -/
def IsNum (a : α) (b : Flt α) : Prop := b = .num a

theorem isNum_ringRel : RingRel (IsNum (α := α)) where
  zero := rfl
  two := by rintro a b rfl; rfl
  int _ := rfl
  neg := by rintro a b rfl; rfl
  add := by rintro a b a' b' rfl rfl; rfl
  sub := by rintro a b a' b' rfl rfl; exact congrArg Flt.num (sub_eq_add_neg _ _).symm
  mul := by rintro a b a' b' rfl rfl; rfl

theorem rel_isNum_map (x : Tensor α) : x.Rel IsNum (x.map .num) :=
  rel_of_get (R := IsNum) isNum_ringRel.zero rfl fun ix hix => by rw [get_map _ _ hix]; rfl

theorem eq_of_rel_isNum {z : Tensor α} {Z : Tensor (Flt α)} (h : z.Rel IsNum Z) : Z = z.map .num := by
  rw [eq_ofFn_get Z, eq_ofFn_get (z.map Flt.num)]
  show ofFn _ _ = ofFn z.shape _
  rw [h.shape]
  exact ofFn_congr fun ix hix => by rw [get_map _ _ (h.shape ▸ hix)]; exact h.get ix

theorem map_numberOr (d : α) (x : Tensor α) : (x.map Flt.num).map (numberOr d) = x := by
  conv_rhs => rw [eq_ofFn_get x]
  rw [eq_ofFn_get ((x.map Flt.num).map (numberOr d))]
  exact ofFn_congr fun ix hix => by rw [get_map _ _ (by exact hix), get_map _ _ (by exact hix)]; rfl

variable {x : Tensor α}

/-- padding an image of numbers by copying -/
theorem PoolIs.padFlt_num {pool : SepPool α} {q : PoolArgs α} {axes : List Nat} (h : PoolIs pool q m) (hm : q.isMany = true → axes.length = m) (hc : SameCall q gp x ax axes) (hp : Holds p gp)
    (hcp : ∀ i m, p.modeAt i = .ok m → copies m = true) (junk : List Nat → Flt α) :
    SepPool.padFlt pool (some p) junk (x.map .num) (.seq (castV axes)) =
      (some ((gp.withWidths (q.widths x.shape axes)).padder axes.length), .ok ((padSeq x (sameOps q gp x.shape axes)).map .num)) := by
  have key : ∀ d : α, ∃ Y, SepPool.padFlt pool (some p) junk (x.map .num) (.seq (castV axes)) = (some ((gp.withWidths (q.widths x.shape axes)).padder axes.length), .ok Y) ∧
      Y.map (numberOr d) = padSeq x (sameOps q gp x.shape axes) := by
    intro d
    obtain ⟨h1, h2⟩ := rel_padFlt (R := fun a b => a = numberOr d b) rfl pool (some p) (fun p' e => by cases e; exact modesAlike_copies (fun _ => rfl) hcp)
      (junk := fun ix => numberOr d (junk ix)) (junk' := junk) (fun _ => rfl) (rel_map_fun rfl (x.map .num)) (.seq (castV axes))
    rw [map_numberOr, h.pad_same hc hm hp] at h1 h2
    generalize hr : SepPool.padFlt pool (some p) junk (x.map .num) (.seq (castV axes)) = r at h1 h2
    obtain ⟨q, r⟩ := r
    cases h2 with
    | ok hy =>
      rename_i Y
      have h1 : _ = q := h1
      exact ⟨Y, by rw [← h1], (eq_map_of_rel hy).symm⟩
  obtain ⟨Y, e, h0⟩ := key 0
  obtain ⟨Y', e', h1⟩ := key 1
  rw [e] at e'
  cases e'
  rw [e]
  congr 2
  have hs : Y.shape = (padSeq x (sameOps q gp x.shape axes)).shape := by rw [← h0]; rfl
  refine eq_of_rel_isNum (rel_of_get (R := IsNum) isNum_ringRel.zero hs.symm fun ix hix => ?_)
  have hin : InB Y.shape ix := hs ▸ hix
  have g0 := congrArg (fun t => t.get ix) h0
  have g1 := congrArg (fun t => t.get ix) h1
  simp only [get_map _ _ hin] at g0 g1
  rw [IsNum]
  generalize Y.get ix = b at g0 g1 ⊢
  cases b with
  | num a => rw [← g0]; rfl
  | inf s => exact absurd (g0.trans g1.symm) zero_ne_one
  | nan => exact absurd (g0.trans g1.symm) zero_ne_one

/-- pooling an image of numbers -/
theorem PoolIs.forwardFlt_num {pool : SepPool α} {q : Given (List α)} {axes : List Nat} (h : PoolIs pool (PoolArgs.filter q) m) (hm : (PoolArgs.filter q).isMany = true → axes.length = m)
    (hc : SameCall (PoolArgs.filter q) gp x ax axes) (hp : Holds p gp) (hcp : ∀ i m, p.modeAt i = .ok m → copies m = true) (junk : List Nat → Flt α) :
    SepPool.forwardFlt pool (some p) junk (x.map .num) ax =
      (some ((gp.withWidths ((PoolArgs.filter q).widths x.shape axes)).padder axes.length), .ok ((filtered q gp x axes).map .num)) := by
  obtain ⟨Z, z1, z2⟩ := h.loopFlt_all (isNum_ringRel.dotRel fun _ => rfl) (rel_isNum_map (padSeq x (sameOps (PoolArgs.filter q) gp x.shape axes))) (axes := axes)
    (fun hh => (hm hh).le) hc.poolOps.fitting
  rw [h.forwardFlt_padded hm (by exact hc.axes_eq) (h.padFlt_num hm hc hp hcp junk), z1, eq_of_rel_isNum z2]
  congr 3
  have : ((PoolArgs.filter q).ops axes).map (mapOp id) = (PoolArgs.filter q).ops axes := by
    conv_rhs => rw [← List.map_id ((PoolArgs.filter q).ops axes)]
    exact List.map_congr_left fun o _ => by cases o; simp [mapOp]
  rw [this]
  rfl

theorem exRel_ok {z : Tensor α} {r : Except Err (Tensor (Flt α))} (h : ExRel (Tensor.Rel IsNum) (.ok z) r) : r = .ok (z.map .num) := by
  cases h with
  | ok h => rw [eq_of_rel_isNum h]

/-- the edge step on an image of numbers -/
theorem convEdgeFlt_num (hi : EdgeIs f w g m) (hps : HoldsBoth ps reflectArgs) (hc : SameCall (PoolArgs.filter (.one w)) reflectArgs x (.int a) [a]) (junk : List Nat → Flt α) :
    ∃ ps', f.convEdgeFlt ps junk (x.map .num) (a : Int) = (ps', .ok ((filtered (.one (usedKernel w)) reflectArgs x [a]).map .num)) ∧ HoldsBoth ps' reflectArgs := by
  obtain ⟨ps', e1, hq⟩ := convEdge_same hi hps hc (fun _ => 0)
  obtain ⟨e, s, q1, q2, q3, q4⟩ := id hps
  have ha : a < x.ndim := (checkAxes_spec hc.axes_eq).2 a (by simp)
  have hcp := fun i m hm => (reflect_copies q3 i m hm).1
  have hpf := (padFlt_int f.edgePool (some e) junk (X := x.map .num) ha).trans (hi.edge.padFlt_num (by intro h; cases h) hc q3 hcp junk)
  have hpn := (pad_int f.edgePool (some e) (fun _ => 0) x ha).trans (hi.edge.pad_same hc (by intro h; cases h) q3 fun _ => 0)
  have hff := hi.edge.forwardFlt_num (by intro h; cases h) hc q3 hcp junk
  have hfn := hi.edge.forward_same hc (by intro h; cases h) q3 (fun _ => 0)
  rw [sameOps_congr (usedKernel_length w).symm] at e1
  refine ⟨_, ?_, hps.setEdge (holds_withWidths reflectArgs ((PoolArgs.filter (.one w)).widths x.shape [a]) 1)⟩
  by_cases h1 : w.map truncInt = [-1, 0, 1]
  · simp only [EdgeFilter.convEdge, EdgeFilter.convEdgeFlt, hi.kernel_get, h1, if_true, q1, hpn, hpf] at e1 ⊢
    have e2 : EdgeFilter.firstDiff (padSeq x (sameOps (PoolArgs.filter (.one w)) reflectArgs x.shape [a])) (a : Int) = _ := (Prod.mk.inj e1).2
    have := exRel_ok (e2 ▸ rel_firstDiff isNum_ringRel (rel_isNum_map (padSeq x (sameOps (PoolArgs.filter (.one w)) reflectArgs x.shape [a]))) (a : Int))
    exact congrArg (Prod.mk _) this
  by_cases h2 : w.map truncInt = [1, -2, 1]
  · simp only [EdgeFilter.convEdge, EdgeFilter.convEdgeFlt, hi.kernel_get, h2, if_true, if_false, q1, hpn, hpf, if_neg (show ¬([1, -2, 1] : List ℤ) = [-1, 0, 1] by decide)] at e1 ⊢
    have e2 : EdgeFilter.secondDiff (padSeq x (sameOps (PoolArgs.filter (.one w)) reflectArgs x.shape [a])) (a : Int) = _ := (Prod.mk.inj e1).2
    have := exRel_ok (e2 ▸ rel_secondDiff isNum_ringRel (rel_isNum_map (padSeq x (sameOps (PoolArgs.filter (.one w)) reflectArgs x.shape [a]))) (a : Int))
    exact congrArg (Prod.mk _) this
  · simp only [EdgeFilter.convEdgeFlt, hi.kernel_get, h1, h2, if_false, q1, hff]
    rw [usedKernel, if_neg fun hh => h1 ((trunc_first w).2 hh), if_neg fun hh => h2 ((trunc_second w).2 hh)]
    rfl

/-- the component on an image of numbers -/
theorem componentFlt_num (hi : EdgeIs f w g m) (hps : HoldsBoth ps reflectArgs) (hg : g.isMany = false) (hx : x.shape = [n, c, h, v]) (hh : 0 < h) (hv : 0 < v) (ha : a ∈ [2, 3])
    (junk : List Nat → Flt α) :
    ∃ ps', f.componentFlt ps junk (x.map .num) (.int a) (.seq [2, 3]) = (ps', .ok ((edges (usedKernel w) g x a).map .num)) ∧ HoldsBoth ps' reflectArgs := by
  have hset := reflect_setup (g := g) hg hx hh hv
  have hc := hset.edgeCall (usedKernel w) ha
  obtain ⟨ps1, e1, h1⟩ := convEdgeFlt_num hi hps (hset.edgeSame w ha) junk
  obtain ⟨e, s, q1, q2, q3, q4⟩ := id h1
  have hcp := fun i m hm => (reflect_copies q4 i m hm).1
  have hfw := hi.smooth.forwardFlt_num (by
    intro hh
    have : g.isMany = true := by simpa [PoolArgs.filter, PoolArgs.isMany, Given.isMany] using hh
    rw [hg] at this
    cases this) hc.smooth q4 hcp junk
  refine ⟨_, ?_, h1.setSmooth (holds_withWidths reflectArgs ((PoolArgs.filter g).widths (filtered (.one (usedKernel w)) reflectArgs x [a]).shape ([2, 3].filter fun b => b ≠ a)) ([2, 3].filter fun b => b ≠ a).length)⟩
  have ce : checkAxes (x.map Flt.num).ndim (.int a) = .ok [(a : Int)] := by simp [checkAxes]
  have cs : checkAxes (x.map Flt.num).ndim (.seq [2, 3]) = .ok [2, 3] := by
    have : (x.map Flt.num).ndim = 4 := by show x.shape.length = 4; rw [hx]; rfl
    rw [this]; rfl
  simp only [EdgeFilter.componentFlt, ce, cs]
  simp only [e1, EdgeFilter.convSmoothFlt, q2]
  have hfil : ([2, 3].filter fun b : Int => b ≠ (a : Int)) = castV ([2, 3].filter fun b => b ≠ a) := by
    simp only [List.mem_cons, List.not_mem_nil, or_false] at ha
    rcases ha with rfl | rfl <;> rfl
  rw [hfil, hfw]
  rfl

/-- the component keeps what is not finite -/
theorem componentFlt_kept (hi : EdgeIs f w g m) (hps : HoldsBoth ps reflectArgs) (hg : g.isMany = false) (hX : X.shape = [n, c, h, v]) (hh : 0 < h) (hv : 0 < v) (ha : a ∈ [2, 3])
    (junk : List Nat → Flt α) :
    ∃ ps' Z, f.componentFlt ps junk X (.int a) (.seq [2, 3]) = (ps', .ok Z) ∧ Z.shape = X.shape ∧ HoldsBoth ps' reflectArgs ∧
      ((∀ ix, InB X.shape ix → IsFinite (Z.get ix)) → ∀ ix, InB X.shape ix → IsFinite (X.get ix)) := by
  obtain ⟨ps1, Y, e1, hY, h1, k1⟩ := convEdgeFlt_kept hi hps hX hh hv ha junk
  obtain ⟨e, s, q1, q2, q3, q4⟩ := id h1
  have hYs : Y.shape = [n, c, h, v] := hY.trans hX
  obtain ⟨b, hb, hfil, hfil'⟩ : ∃ b : Nat, b ∈ [2, 3] ∧ ([2, 3].filter fun k : Int => k ≠ (a : Int)) = [(b : Int)] ∧ a ≠ b := by
    simp only [List.mem_cons, List.not_mem_nil, or_false] at ha
    rcases ha with rfl | rfl
    · exact ⟨3, by simp, rfl, by decide⟩
    · exact ⟨2, by simp, rfl, by decide⟩
  obtain ⟨u, rfl⟩ : ∃ u, g = .one u := by
    cases g with
    | one u => exact ⟨u, rfl⟩
    | many l => cases hg
  have hset : EdgeSetup (.one u) reflectArgs (Y.map spoiled) (.seq [2, 3]) [2, 3] := reflect_setup rfl hYs hh hv
  have hc : SameCall (PoolArgs.filter (.one u)) reflectArgs (Y.map spoiled) (.seq [(b : Int)]) [b] :=
    { hset.edgeSame u hb with axes_eq := normAxes_castV (axes := [b]) (by simpa using (checkAxes_spec hset.axes_eq).2 b hb) }
  obtain ⟨Z, z1, z2, z3⟩ := hi.smooth.forwardFlt_kept hc (hset.edge_shape u hb) q4 (reflect_copies q4) junk
  refine ⟨_, Z, ?_, z2.trans hY, h1.setSmooth (holds_withWidths reflectArgs ((PoolArgs.filter (.one u)).widths Y.shape [b]) 1), fun hall => k1 fun ix hix => z3 ix (hY ▸ hix) (hall ix hix)⟩
  have ce : checkAxes X.ndim (.int a) = .ok [(a : Int)] := by simp [checkAxes]
  have cs : checkAxes X.ndim (.seq [2, 3]) = .ok [2, 3] := by
    have : X.ndim = 4 := by show X.shape.length = 4; rw [hX]; rfl
    rw [this]; rfl
  simp only [EdgeFilter.componentFlt, ce, cs]
  simp only [e1, EdgeFilter.convSmoothFlt, q2, hfil, z1]

theorem finite_map {X : Tensor (Flt α)} (h : ∀ ix, InB X.shape ix → IsFinite (X.get ix)) : ∃ x : Tensor α, X = x.map .num := by
  refine ⟨X.map (numberOr 0), eq_of_rel_isNum (rel_of_get (R := IsNum) isNum_ringRel.zero rfl fun ix hix => ?_)⟩
  obtain ⟨a, e⟩ := h ix hix
  rw [get_map _ _ (by exact hix), e]
  rfl

end

end TI
