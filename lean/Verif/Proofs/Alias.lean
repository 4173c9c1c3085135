import Verif.Proofs.FillShape
import Verif.Proofs.EdgesMag
import Verif.Props.Repeat

/-!
# When padding, pooling and edge components return the argument itself
-/

namespace TI
open Tensor Spec

set_option linter.unusedSectionVars false
variable {α : Type} [Field α] [LinearOrder α] [IsStrictOrderedRing α]

theorem sums_zero (S : List Nat) (k : Nat) : ∀ {ops : List (Nat × AxisPad α)}, (∀ o ∈ ops, o.2.before = 0 ∧ o.2.after = 0) →
    befSum ops k = 0 ∧ aftSum S ops k = 0
  | [], _ => ⟨rfl, rfl⟩
  | o :: ops, h => by
    have h1 := h o (by simp)
    have h2 := sums_zero S k (ops := ops) fun o' ho' => h o' (by simp [ho'])
    have h3 : o.2.total (S.getD o.1 0) = 0 := by rw [AxisPad.total, if_pos h1]
    simp only [befSum, aftSum, h2, h1, h3, ite_self, Nat.add_zero, and_self]

theorem returnsArg_ops (p : Padder α) (x : Tensor α) (ax : Axes) (axes : List Int)
    (ops : List (Nat × AxisPad α)) (hx : x.ndim ≠ 0) (hax : checkAxes x.ndim ax = .ok axes)
    (hne : axes ≠ [])
    (hf : List.Forall₂ (fun i (o : Nat × AxisPad α) => pyIndex axes i = .ok (o.1 : Int) ∧ Reads p i o.2)
      (Padder.negRange (p.nPadded axes)) ops)
    (hlt : ∀ o ∈ ops, o.1 < x.ndim) :
    p.returnsArg x ax = true ↔ ∀ o ∈ ops, o.2.before = 0 ∧ o.2.after = 0 := by
  obtain ⟨B, A, hBA⟩ : ∃ B A, accN x.shape ops (x.shape.map fun _ => 0, x.shape.map fun _ => 0) = (B, A) :=
    ⟨_, _, rfl⟩
  have hacc := accLoop_spec (p := p) (shape := x.shape) (axes := axes) ops _
    (x.shape.map fun _ => 0, x.shape.map fun _ => 0) hf hlt
  have hlen := accN_length x.shape ops (x.shape.map fun _ => 0, x.shape.map fun _ => 0)
  have hsum := accN_sum x.shape ops (x.shape.map fun _ => 0, x.shape.map fun _ => 0)
    (fun o ho => by have := hlt o ho; simp only [Tensor.ndim] at this; simpa using this)
  have hz : ∀ k, (x.shape.map fun _ => 0).getD k 0 = 0 := by
    intro k
    simp only [List.getD_eq_getElem?_getD, List.getElem?_map]
    cases x.shape[k]? <;> rfl
  rw [hBA] at hacc hlen hsum
  simp only [hz, Nat.zero_add, List.length_map] at hacc hlen hsum
  simp only [Padder.returnsArg, if_neg hx, hax, if_neg hne, castV_zero, hacc, tailV_eq, zipAdd_cast, decide_eq_true_eq]
  rw [← newShape]
  constructor
  · intro h1
    have h1 := castV_inj (w := x.shape) h1
    intro o ho
    have hk := hlt o ho
    simp only [Tensor.ndim] at hk
    have h3 := getD_newShape hlen.1 hlen.2 hk
    have h4 := befSum_mem x.shape ho
    rw [h1, (hsum o.1).1, (hsum o.1).2] at h3
    by_contra hc
    rw [AxisPad.total, if_neg hc] at h4
    omega
  · intro h
    congr 1
    apply list_ext_getD (length_newShape hlen.1 hlen.2)
    intro k hk
    rw [length_newShape hlen.1 hlen.2] at hk
    have h0 := sums_zero x.shape k h
    rw [getD_newShape hlen.1 hlen.2 hk, (hsum k).1, (hsum k).2, h0.1, h0.2]
    omega

theorem returnsArg_call_rep {p : Padder α} {x : Tensor α} {ax : Axes} {axes : List Nat}
    {ss : List (AxisPad α)} (h : PadCallRep p x ax axes ss) :
    p.returnsArg x ax = true ↔ ∀ o ∈ zipRight axes ss, o.2.before = 0 ∧ o.2.after = 0 := by
  have hc := checkAxes_spec h.axes_eq
  have hle := h.len_le
  by_cases hne : axes = []
  · have h0 : ss = [] := by
      apply List.length_eq_zero_iff.1
      rw [hne] at hle; simpa using hle
    subst h0
    have : castV axes = [] := by rw [hne]; rfl
    simp [Padder.returnsArg, h.ndim_ne, hc.1, this, zipRight]
  · refine returnsArg_ops p x ax (castV axes) _ h.ndim_ne hc.1 (by simpa [castV] using hne) ?_
      (fun o ho => hc.2 _ (zipRight_mem ho).1)
    have hk : p.nPadded (castV axes) = ss.length := by
      rw [h.len, Padder.nPadded]; simp [castV]
    rw [hk, List.forall₂_iff_get]
    refine ⟨by simp [Padder.negRange, zipRight]; omega, ?_⟩
    intro j h1 h2
    have hj : j < ss.length := by simpa [Padder.negRange] using h1
    have e : (Padder.negRange ss.length).get ⟨j, h1⟩ = (j : Int) - ss.length := by
      simp [Padder.negRange]
    rw [e]
    have e2 : (zipRight axes ss).get ⟨j, h2⟩ =
        (axes[axes.length - ss.length + j]'(by omega), ss[j]) := by
      simp [zipRight, List.getElem_drop]
    rw [e2]
    refine ⟨?_, h.reads j hj⟩
    rw [pyIndex_neg (by simpa [castV] using hle) hj]
    simp [castV]

/-! ## pooling -/

section
variable {pool : SepPool α} {padder : Option (Padder α)} {x : Tensor α} {ax : Axes}

/-- `pad` asks the padder that it has set to the same-size widths -/
theorem padReturnsArg_eq {p q : Padder α} {axes : List Int} {r : Except Err (Tensor α)} {junk : List Nat → α} {y : Tensor α}
    (hc : checkAxes x.ndim ax = .ok axes) (h : pool.pad (some p) junk x ax = (some q, r)) (hr : r = .ok y) :
    pool.padReturnsArg (some p) x ax = q.returnsArg x (.seq axes) := by
  subst hr
  rw [SepPool.pad] at h
  rw [SepPool.padReturnsArg]
  simp only [hc] at h ⊢
  cases e2 : NdSpec.sequence (axes.map fun a => pyIndex x.shape a) with
  | error e => simp only [e2] at h; cases h
  | ok sizes =>
    simp only [e2] at h ⊢
    cases e3 : NdSpec.ofItem [] (.seq (sizes.map fun (n : Nat) => Py.leaf (some (n : Int)))) with
    | error e => simp only [e3] at h; cases h
    | ok inShape =>
      simp only [e3] at h ⊢
      obtain ⟨⟨p', r⟩, hr⟩ : ∃ z, p.toSame pool.kernelSize pool.stride inShape = z := ⟨_, rfl⟩
      cases r with
      | error e => simp only [hr] at h; cases h
      | ok u =>
        simp only [hr] at h ⊢
        simp only [Prod.mk.injEq, Option.some.injEq] at h
        rw [h.1]

variable {g : PoolArgs α} {m : Nat}

theorem sameTotal_nil {s n : Nat} (hs : 0 < s) (hn : 0 < n) : PoolArgs.sameTotal 0 s n = 0 := by
  obtain ⟨c1, c2, c3⟩ := ceilDiv_bounds hs hn
  rw [PoolArgs.sameTotal]
  obtain ⟨c, hc⟩ : ∃ c, ceilDiv n s = c + 1 := ⟨ceilDiv n s - 1, by omega⟩
  rw [hc] at c2 c3 ⊢
  simp only [Nat.add_sub_cancel] at c2 c3
  push_cast
  have : ((c : Int) + 1) * s - s + 0 - n = ((c * s : Nat) : Int) - n := by push_cast; ring
  simp only [this]
  generalize c * s = q at *
  omega

/-- without a padder: `forward` returns its argument exactly if all kernels in use are empty -/
theorem forwardReturnsArg_none (h : PoolIs pool g m) {axes : List Nat} (hax : axesOf x.ndim ax = some axes)
    (hm : g.isMany = true → axes.length = m) :
    pool.forwardReturnsArg none x ax = true ↔ ∀ i < axes.length, g.kernel.entry [] i = [] := by
  have hca := (checkAxes_spec hax)
  have hnd : pool.ndim = 0 ∨ pool.ndim = ((castV axes).length : Int) := by
    rw [h.ndim]
    split_ifs with hh
    · right; simp [castV, hm hh]
    · left; rfl
  have hl : (castV axes).length = axes.length := by simp [castV]
  have := loopReturnsArg_iff h (castV axes) 0 (fun hh => by rw [hl, hm hh]; omega)
  simp only [hl, Nat.zero_add, Nat.zero_le, true_implies] at this
  simp only [SepPool.forwardReturnsArg, hca.1]
  rw [if_pos hnd]
  simp only [SepPool.padReturnsArg, checkAxes_castV hca.2, Bool.true_and, this]

/-- with a padder: the same -/
theorem forwardReturnsArg_same (h : PoolIs pool g m) {gp : PadArgs α} {axes : List Nat}
    (hc : SameCall g gp x ax axes) (hm : g.isMany = true → axes.length = m) {p : Padder α} (hp : Holds p gp) :
    pool.forwardReturnsArg (some p) x ax = true ↔ ∀ i < axes.length, g.kernel.entry [] i = [] := by
  have hca := (checkAxes_spec hc.axes_eq)
  have hnd : pool.ndim = 0 ∨ pool.ndim = ((castV axes).length : Int) := by
    rw [h.ndim]
    split_ifs with hh
    · right; simp [castV, hm hh]
    · left; rfl
  have hl : (castV axes).length = axes.length := by simp [castV]
  have hloop := loopReturnsArg_iff h (castV axes) 0 (fun hh => by rw [hl, hm hh]; omega)
  simp only [hl, Nat.zero_add, Nat.zero_le, true_implies] at hloop
  have hpad := h.pad_same hc hm hp (fun _ => 0)
  have e := padReturnsArg_eq (checkAxes_castV hca.2) hpad rfl
  have hcall := call_args (g := gp.withWidths (g.widths x.shape axes)) (m := axes.length) (List.length_pos_iff.2 hc.ne) (withWidths_fits hc.rest)
    (x := x) hc.ndim_ne (ax := .seq (castV axes)) (axes := axes) (normAxes_castV hca.2) hc.nodup (by
      rw [sameOps_zipRight]
      intro o ho hw
      have := hc.valued o ho hw
      exact ⟨this.1, this.2, hc.pos o.1 (List.of_mem_zip (show (o.1, o.2) ∈ axes.zip _ from ho)).1⟩)
  have hr := returnsArg_call_rep hcall.rep
  rw [sameOps_zipRight] at hr
  simp only [SepPool.forwardReturnsArg, hca.1]
  rw [if_pos hnd]
  simp only [Bool.and_eq_true, hloop, e, hr]
  constructor
  · exact fun h => h.2
  · intro hk
    refine ⟨?_, hk⟩
    intro o ho
    obtain ⟨i, hi, rfl⟩ := sameOps_mem ho
    have h0 : (g.op axes i).kernel = [] := hk i hi
    have := sameTotal_nil (hc.stride i hi) (hc.pos (axes.getD i 0) (by simp [hi]))
    simp only [sameSetting, PoolArgs.samePair, h0, List.length_nil, this]
    constructor <;> trivial

end

/-! ## edge components -/

section
variable [FloorRing α] {f : EdgeFilter α} {ps : EdgePadders α} {x : Tensor α}

theorem componentReturnsArg_component {ea sa : Axes} {junk : List Nat → α} (h : f.componentReturnsArg ps junk x ea sa = true) :
    (f.component ps junk x ea sa).2 = .ok x := by
  rw [EdgeFilter.componentReturnsArg] at h
  rw [EdgeFilter.component]
  split at h
  · rename_i a sa' h1 h2
    simp only [h1, h2]
    obtain ⟨⟨ps', r⟩, hr⟩ : ∃ z, f.convEdge ps junk x a = z := ⟨_, rfl⟩
    cases r with
    | error e => simp only [hr] at h; cases h
    | ok y =>
      simp only [hr, Bool.and_eq_true] at h ⊢
      have hy := convEdgeReturnsArg_convEdge h.1 junk
      rw [hr] at hy
      cases hy
      rw [EdgeFilter.convSmooth]
      exact forwardReturnsArg_forward h.2 junk
  · cases h

variable {w : List α} {g : Given (List α)} {m : Nat} {gp : PadArgs α} {ax : Axes} {axes : List Nat} {a : Nat}

/-- both kernels empty: the component is the image itself -/
theorem componentReturnsArg_true (h : EdgeIs f [] g m) (hps : HoldsBoth ps gp) (hs : EdgeSetup g gp x ax axes)
    (hm : g.isMany = true → axes.length - 1 = m) (hg : ∀ i < axes.length - 1, g.entry [] i = []) (ha : a ∈ axes) (junk : List Nat → α) :
    f.componentReturnsArg ps junk x (.int a) (.seq (castV axes)) = true := by
  have hlt := (checkAxes_spec hs.axes_eq).2
  have hk : (f.edgeKernel.get 0).bind SepPool.asVec = .ok ([] : List α) := h.kernel_get
  obtain ⟨e, s, q1, q2, q3, q4⟩ := id hps
  have hc := hs.edgeCall [] ha
  have hconv : f.convEdgeReturnsArg ps x (a : Int) = true := by
    rw [EdgeFilter.convEdgeReturnsArg]
    simp only [hk, List.map_nil]
    rw [if_neg (by simp), q1]
    refine (forwardReturnsArg_same h.edge hc.edge (by intro h; cases h) q3).2 ?_
    intro i _
    rfl
  obtain ⟨ps1, e1, h1⟩ := convEdge_same h hps hc.edge junk
  have hy := convEdgeReturnsArg_convEdge hconv junk
  obtain ⟨e', s', r1, r2, r3, r4⟩ := id h1
  rw [e1] at hy
  simp only [Except.ok.injEq] at hy
  rw [hy] at e1
  have hsm := hc.smooth
  rw [filtered_nil (by simpa using hs.pos a ha)] at hsm
  simp only [EdgeFilter.componentReturnsArg]
  have c1 : checkAxes x.ndim (.int (a : Int)) = .ok [(a : Int)] :=
    (checkAxes_spec (ax := .int a) (axes := [a]) (normAxes_castV (axes := [a]) (by simpa using hlt a ha))).1
  simp only [c1, checkAxes_castV hlt, e1, hconv, Bool.true_and, castV_filter, r2]
  refine (forwardReturnsArg_same h.smooth hsm ?_ r4).2 ?_
  · intro hh
    rw [filter_ne_length hs.nodup ha]
    exact hm (by simpa [PoolArgs.filter, PoolArgs.isMany, Given.isMany] using hh)
  · intro i hi
    rw [filter_ne_length hs.nodup ha] at hi
    exact hg i hi

end

end TI
