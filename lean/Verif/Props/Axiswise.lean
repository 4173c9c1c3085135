import Verif.Proofs.Axiswise
import Verif.Props.Transpose

/-!
# Same-padded pooling, one axis after the other (C103)
-/

set_option linter.unusedSectionVars false

namespace TI
open Tensor Spec

section
variable {α : Type} [Field α] [LinearOrder α] [IsStrictOrderedRing α]
variable {pool pool₁ pool₂ : SepPool α} {g g₁ g₂ : PoolArgs α} {m m₁ m₂ : Nat} {gp gp₁ gp₂ : PadArgs α} {p p₁ p₂ : Padder α}
  {x : Tensor α} {ax ax₁ ax₂ : Axes} {axes A B : List Nat}

theorem Spec.SameCall.eachOK (hc : SameCall g gp x ax axes) (hl : ∀ o ∈ g.ops axes, ∀ q ∈ sameOps g gp x.shape axes, Passes o q.2) :
    EachOK x (g.ops axes) (sameOps g gp x.shape axes) where
  axes := by rw [ops_axis, sameOps_fst]
  nodup := by rw [sameOps_fst]; exact hc.nodup
  stride := by
    intro o ho _
    obtain ⟨i, hi, rfl⟩ := mem_ops.1 ho
    exact hc.stride i hi
  lt := hc.lt
  passes := hl
  pos := by
    intro o ho
    obtain ⟨i, hi, rfl⟩ := sameOps_mem ho
    exact hc.pos _ (by simp [hi])

/-- **C103**: a same-padded pooling call, which widens all axes and then pools all axes, returns what one gets by widening and pooling one axis
after the other, if the padding rules are linear in the samples (see C17). -/
theorem C103_axiswise (hb : Built pool g m) (hm : g.isMany = true → axes.length = m) (hc : SameCall g gp x ax axes) (hp : Holds p gp)
    (hl : ∀ o ∈ g.ops axes, ∀ q ∈ sameOps g gp x.shape axes, Passes o q.2) (junk : List Nat → α) :
    (SepPool.forward pool (some p) junk x ax).2 = .ok (sameEach x ((g.ops axes).zip (sameOps g gp x.shape axes))) := by
  rw [hb.poolIs.1.forward_same hc hm hp junk, poolSeq_each (hc.eachOK hl)]

theorem sameOps_sizes {shape shape' : List Nat} (h : ∀ a ∈ axes, shape'.getD a 0 = shape.getD a 0) :
    sameOps g gp shape' axes = sameOps g gp shape axes := by
  apply List.ext_getElem (by simp [sameOps_length])
  intro i h1 h2
  have hi : i < axes.length := by simpa [sameOps_length] using h2
  simp only [sameOps, List.getElem_zip, List.getElem_map, List.getElem_range, withWidths_entry _ _ _ _ hi, sameSetting]
  rw [h _ (by simp [hi])]

/-- the call on another image with the same sizes along the axes -/
theorem Spec.SameCall.other (hc : SameCall g gp x ax axes) {y : Tensor α} (hn : y.ndim = x.ndim)
    (h : ∀ a ∈ axes, y.shape.getD a 0 = x.shape.getD a 0) : SameCall g gp y ax axes where
  axes_eq := by rw [hn]; exact hc.axes_eq
  ne := hc.ne
  nodup := hc.nodup
  fits := hc.fits
  rest := hc.rest
  stride := hc.stride
  pos := fun a ha => by rw [h a ha]; exact hc.pos a ha
  valued := by rw [sameOps_sizes h]; exact hc.valued

/-- **C103**: a call over the axes `A ++ B` is a call over `A` followed by a call over `B`, each with its part of the kernels, strides and
padder settings. -/
theorem C103_split (hb : Built pool g m) (hb₁ : Built pool₁ g₁ m₁) (hb₂ : Built pool₂ g₂ m₂) (hm : g.isMany = true → (A ++ B).length = m)
    (hm₁ : g₁.isMany = true → A.length = m₁) (hm₂ : g₂.isMany = true → B.length = m₂) (hc : SameCall g gp x ax (A ++ B))
    (hc₁ : SameCall g₁ gp₁ x ax₁ A) (hc₂ : SameCall g₂ gp₂ x ax₂ B) (hp : Holds p gp) (hp₁ : Holds p₁ gp₁) (hp₂ : Holds p₂ gp₂)
    (hops : g.ops (A ++ B) = g₁.ops A ++ g₂.ops B)
    (hpad : sameOps g gp x.shape (A ++ B) = sameOps g₁ gp₁ x.shape A ++ sameOps g₂ gp₂ x.shape B)
    (hl : ∀ o ∈ g.ops (A ++ B), ∀ q ∈ sameOps g gp x.shape (A ++ B), Passes o q.2) (junk junk₁ junk₂ : List Nat → α) :
    ∃ q q₁ q₂ y z, SepPool.forward pool₁ (some p₁) junk₁ x ax₁ = (q₁, .ok y) ∧ SepPool.forward pool₂ (some p₂) junk₂ y ax₂ = (q₂, .ok z) ∧
      SepPool.forward pool (some p) junk x ax = (q, .ok z) := by
  have hl₁ : ∀ o ∈ g₁.ops A, ∀ q ∈ sameOps g₁ gp₁ x.shape A, Passes o q.2 :=
    fun o ho q hq => hl o (by rw [hops]; simp [ho]) q (by rw [hpad]; simp [hq])
  have hl₂ : ∀ o ∈ g₂.ops B, ∀ q ∈ sameOps g₂ gp₂ x.shape B, Passes o q.2 :=
    fun o ho q hq => hl o (by rw [hops]; simp [ho]) q (by rw [hpad]; simp [hq])
  have e₁ := poolSeq_each (hc₁.eachOK hl₁)
  have ha₁ : ∀ q ∈ sameOps g₁ gp₁ x.shape A, q.2.Affine := by
    obtain ⟨o, ho⟩ := List.exists_mem_of_ne_nil (g₁.ops A) (by
      intro h
      have := congrArg List.length h
      simp only [PoolArgs.ops, List.length_map, List.length_range, List.length_nil] at this
      exact hc₁.ne (List.length_eq_zero_iff.1 this))
    exact fun q hq => (hl₁ o ho q hq).affine
  have hdis : ∀ b ∈ B, b ∉ A := fun b hb ha => (List.nodup_append.1 hc.nodup).2.2 b ha b hb rfl
  have hsize : ∀ b ∈ B, (sameEach x ((g₁.ops A).zip (sameOps g₁ gp₁ x.shape A))).shape.getD b 0 = x.shape.getD b 0 := by
    intro b hb
    apply sameEach_getD (by rw [ops_axis, sameOps_fst]) ha₁
    rw [sameOps_fst]
    exact hdis b hb
  have hcy := hc₂.other (y := sameEach x ((g₁.ops A).zip (sameOps g₁ gp₁ x.shape A))) (sameEach_ndim ha₁) hsize
  have eo := sameOps_sizes (g := g₂) (gp := gp₂) hsize
  have h1 := hb₁.poolIs.1.forward_same hc₁ hm₁ hp₁ junk₁
  have h2 := hb₂.poolIs.1.forward_same hcy hm₂ hp₂ junk₂
  have h3 := hb.poolIs.1.forward_same hc hm hp junk
  rw [e₁] at h1
  rw [poolSeq_each (hc.eachOK hl)] at h3
  rw [poolSeq_each (hcy.eachOK (by rw [eo]; exact hl₂)), eo, ← sameEach_append, ← List.zip_append (by simp [PoolArgs.ops, sameOps_length]), ← hops,
    ← hpad] at h2
  exact ⟨_, _, _, _, _, h1, h2, h3⟩

theorem ops_uniform (hg : g.isMany = false) (l : List Nat) :
    g.ops l = l.map fun k => (⟨k, (g.op [] 0).kernel, (g.op [] 0).stride⟩ : PoolOp α) := by
  have hg' : g.kernel.isMany = false ∧ g.stride.isMany = false := by simpa [PoolArgs.isMany] using hg
  apply List.ext_getElem (by simp [PoolArgs.ops])
  intro i h1 h2
  have hi : i < l.length := by simpa using h2
  simp only [PoolArgs.ops, PoolArgs.op, List.getElem_map, List.getElem_range, entry_of_not_many hg'.1 _ i, entry_of_not_many hg'.2 _ i]
  simp [hi]

/-- with one kernel, one stride and one setting, a call over some axes can be restricted to a part of them -/
theorem Spec.SameCall.part (hc : SameCall g gp x ax axes) (hg : g.isMany = false) (hu : gp.Uniform) (hax : axesOf x.ndim ax₁ = some A)
    (hne : A ≠ []) (hnd : A.Nodup) (hsub : ∀ a ∈ A, a ∈ axes) : SameCall g gp x ax₁ A where
  axes_eq := hax
  ne := hne
  nodup := hnd
  fits := by intro h; rw [hg] at h; cases h
  rest := by
    have h : ∀ {β : Type} {g : Given β}, g.isMany = false → g.Fits A.length := by
      intro β g hg
      cases g with
      | one b => trivial
      | many l => cases hg
    exact ⟨h hu.1, h hu.2.1, h hu.2.2.1, h hu.2.2.2⟩
  stride := by
    intro i _
    have hg' : g.kernel.isMany = false ∧ g.stride.isMany = false := by simpa [PoolArgs.isMany] using hg
    have := hc.stride 0 (List.length_pos_iff.2 hc.ne)
    simp only [PoolArgs.op, entry_of_not_many hg'.1 _ i, entry_of_not_many hg'.2 _ i] at this ⊢
    exact this
  pos := fun a ha => hc.pos a (hsub a ha)
  valued := by
    intro o ho
    apply hc.valued
    rw [uniform_sameOps hu, ops_uniform hg, List.map_map, List.mem_map] at ho ⊢
    obtain ⟨a, ha, rfl⟩ := ho
    exact ⟨a, hsub a ha, rfl⟩

/-- **C103**, one kernel, one stride and one linear padding setting for all axes: a call over the axes `A ++ B` is a call of the same pool over
`A` followed by one over `B` with the padder the first call left behind. -/
theorem C103_uniform (hb : Built pool g m) (hg : g.isMany = false) (hu : gp.Uniform) (hc : SameCall g gp x ax (A ++ B)) (hp : Holds p gp)
    (hax₁ : axesOf x.ndim ax₁ = some A) (hax₂ : axesOf x.ndim ax₂ = some B) (hA : A ≠ []) (hB : B ≠ [])
    (hl : ∀ o ∈ g.ops (A ++ B), ∀ q ∈ sameOps g gp x.shape (A ++ B), Passes o q.2) (junk junk₁ junk₂ : List Nat → α) :
    ∃ q q₁ q₂ y z, SepPool.forward pool (some p) junk₁ x ax₁ = (q₁, .ok y) ∧ SepPool.forward pool q₁ junk₂ y ax₂ = (q₂, .ok z) ∧
      SepPool.forward pool (some p) junk x ax = (q, .ok z) := by
  have hnd := List.nodup_append.1 hc.nodup
  have hc₁ := hc.part hg hu hax₁ hA hnd.1 (by simp +contextual)
  have hc₂ := hc.part hg hu hax₂ hB hnd.2.1 (by simp +contextual)
  have hm : ∀ l : List Nat, g.isMany = true → l.length = m := by intro l h; rw [hg] at h; cases h
  have hops : g.ops (A ++ B) = g.ops A ++ g.ops B := by rw [ops_uniform hg, ops_uniform hg, ops_uniform hg, List.map_append]
  have e := hb.poolIs.1.forward_same hc₁ (hm A) hp junk₁
  obtain ⟨q, q₁, q₂, y, z, h1, h2, h3⟩ := C103_split (p₂ := (gp.withWidths (g.widths x.shape A)).padder A.length) hb hb hb (hm _) (hm _) (hm _)
    hc hc₁ hc₂ hp hp (holds_withWidths _ _ _) hops
    (by rw [uniform_sameOps hu, uniform_sameOps hu, uniform_sameOps hu, hops, List.map_append]) hl junk junk₁ junk₂
  rw [e] at h1
  injection h1 with h1 h1'
  refine ⟨q, q₁, q₂, y, z, by rw [e, h1, h1'], ?_, h3⟩
  rw [← h1]
  exact h2

end

namespace AxisExample

/-- an image of two by two samples -/
def x : Tensor ℚ := ⟨[2, 2], [0, 3, 3, 0], rfl⟩

/-- `SeparablePoolNd(w, 1)` over the given axes, one call after the other -/
def run (w : List ℚ) (mode : Mode ℚ) (calls : List (List Int)) : Option (List ℚ) := do
  let pool ← (SepPool.init (PoolArgs.pyKernel w) (PoolArgs.pyStride (some 1))).toOption
  let step := fun (s : Option (Tensor ℚ)) (c : List Int) => do
    let x ← s
    (SepPool.forward pool (some ((SsimExample.args mode).padder 1)) (fun _ => 7) x (.seq c)).2.toOption
  let y ← calls.foldl step (some x)
  some y.data

/-- replicated borders (linear), and averages with the border value 4 -/
example : run [1, 1] .replicate [[0, 1]] = some [0, 6, 6, 6] ∧ run [1, 1] .replicate [[0], [1]] = some [0, 6, 6, 6] ∧
    run [1 / 2, 1 / 2] .constant [[0, 1]] = some [3, 11 / 4, 11 / 4, 3 / 2] ∧
    run [1 / 2, 1 / 2] .constant [[0], [1]] = some [3, 11 / 4, 11 / 4, 3 / 2] := by decide +kernel

theorem sameCall_x : SameCall (PoolArgs.filter (.one (avgKernel (α := ℚ) 2))) (SsimExample.args .constant) x (.seq [0, -1]) ([0] ++ [1]) where
  axes_eq := by decide
  ne := by decide
  nodup := by decide
  fits := by intro h; cases h
  rest := ⟨trivial, trivial, trivial, trivial⟩
  stride := by intro i _; exact Nat.one_pos
  pos := by decide
  valued := by
    intro o ho _
    obtain ⟨i, _, rfl⟩ := sameOps_mem ho
    exact ⟨by simp [sameSetting, AxisPad.rule?, SsimExample.args, Given.entry], by simp [sameSetting, SsimExample.args, Given.entry]⟩

/-- the hypotheses hold for averages of two samples with the border value 4 -/
example (junk junk₁ junk₂ : List Nat → ℚ) : ∃ pool, SepPool.avgInit (.leaf (some 2)) (.leaf (some 1)) = .ok pool ∧
    ∃ q q₁ q₂ y z, SepPool.forward pool (some ((SsimExample.args .constant).padder 1)) junk₁ x (.int 0) = (q₁, .ok y) ∧
      SepPool.forward pool q₁ junk₂ y (.int (-1)) = (q₂, .ok z) ∧
      SepPool.forward pool (some ((SsimExample.args .constant).padder 1)) junk x (.seq [0, -1]) = (q, .ok z) := by
  obtain ⟨pool, h1, h2, _⟩ := C34_average_kernels (α := ℚ) (size := .one 2) (st := .one (some 1)) (m := 1) (by decide) trivial trivial
    (by intro s hs; simp [Given.values] at hs; simp [hs])
  refine ⟨pool, h1, C103_uniform h2 rfl ⟨rfl, rfl, rfl, rfl⟩ sameCall_x (holds_padder _ 1) (by decide) (by decide) (by simp) (by simp) ?_ junk junk₁ junk₂⟩
  intro o ho q hq
  obtain ⟨i, _, rfl⟩ := mem_ops.1 ho
  obtain ⟨j, _, rfl⟩ := sameOps_mem hq
  exact .inr ⟨trivial, show (avgKernel (α := ℚ) 2).sum = 1 by decide +kernel⟩

end AxisExample

open AxisExample in
/-- **C103** needs its hypotheses: with sums instead of averages the border value 4 gives another image when the axes are treated one after
the other, and so does the maximum, even with averages. -/
theorem C103_hypotheses : run [1, 1] .constant [[0, 1]] = some [12, 11, 11, 6] ∧ run [1, 1] .constant [[0], [1]] = some [8, 11, 7, 6] ∧
    run [1 / 2, 1 / 2] (.stat .maximum) [[0, 1]] = some [9 / 4, 9 / 4, 9 / 4, 3 / 2] ∧
    run [1 / 2, 1 / 2] (.stat .maximum) [[0], [1]] = some [9 / 4, 9 / 4, 3 / 2, 3 / 2] := by decide +kernel

end TI
