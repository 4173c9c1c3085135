import Verif.Proofs.PoolOps
import Verif.Proofs.Outer
import Verif.Proofs.PadCall

/-!
# What a pooling module does: from the code to sliding windows
-/

set_option linter.unusedSectionVars false

namespace TI
open Tensor Spec

variable {α : Type}

/-! ## entries of settings -/

theorem given_entry_map {β γ : Type} (F : β → γ) (g : Given β) (d : β) (i : Nat) : (g.map F).entry (F d) i = F (g.entry d i) := by
  cases g with
  | one b => rfl
  | many l => simp [Given.map, Given.entry, List.getD_eq_getElem?_getD, Option.getD_map]

theorem given_isMany_map {β γ : Type} (F : β → γ) (g : Given β) : (g.map F).isMany = g.isMany := by
  cases g <;> rfl

theorem given_fits_map {β γ : Type} (F : β → γ) {g : Given β} {m : Nat} (h : g.Fits m) : (g.map F).Fits m := by
  cases g with
  | one b => trivial
  | many l => simpa [Given.map, Given.Fits] using h

theorem given_isMany_zip {β γ δ : Type} {m : Nat} {F : β → γ → δ} {db : β} {dc : γ} {g : Given β} {h : Given γ} :
    (Given.zip m F db dc g h).isMany = (g.isMany || h.isMany) := by
  rw [Given.zip]
  cases hh : (g.isMany || h.isMany) <;> simp [Given.isMany]

theorem given_fits_zip {β γ δ : Type} {m : Nat} {F : β → γ → δ} {db : β} {dc : γ} {g : Given β} {h : Given γ} :
    (Given.zip m F db dc g h).Fits m := by
  rw [Given.zip]
  split_ifs <;> simp [Given.Fits]

theorem entry_of_not_many {β : Type} {g : Given β} (h : g.isMany = false) (d : β) (i : Nat) : g.entry d i = g.entry d 0 := by
  cases g with
  | one b => rfl
  | many l => cases h

theorem given_entry_zip {β γ δ : Type} {m : Nat} {F : β → γ → δ} {db : β} {dc : γ} {g : Given β} {h : Given γ} (d : δ) {i : Nat}
    (hi : (g.isMany || h.isMany) = true → i < m) : (Given.zip m F db dc g h).entry d i = F (g.entry db i) (h.entry dc i) := by
  rw [Given.zip]
  split_ifs with hh
  · have hlt := hi hh
    simp [Given.entry, hlt]
  · simp only [Bool.not_eq_true, Bool.or_eq_false_iff] at hh
    rw [entry_of_not_many hh.1 db i, entry_of_not_many hh.2 dc i]
    rfl

theorem entry_mem {β : Type} {g : Given β} {m : Nat} (hg : g.Fits m) (d : β) {i : Nat} (hi : g.isMany = true → i < m) :
    g.entry d i ∈ g.values := by
  cases g with
  | one b => simp [Given.entry, Given.values]
  | many l =>
    have hl : l.length = m := hg
    have h' : i < l.length := by rw [hl]; exact hi rfl
    simp [Given.entry, Given.values, h']

/-! ## construction -/

/-- the object describes the arguments `g` -/
structure PoolIs (pool : SepPool α) (g : PoolArgs α) (m : Nat) : Prop where
  fits : g.Fits m
  kernel : IsSpec pool.kernel PoolArgs.pyKernel g.kernel
  size : IsSpec pool.kernelSize PoolArgs.pyStride (g.kernel.map fun k => some k.length)
  stride : ∃ gs : Given (Option Nat), IsSpec pool.stride PoolArgs.pyStride gs ∧ gs.Fits m ∧ (gs.isMany = true → g.isMany = true) ∧
    ∀ i, (g.isMany = true → i < m) → ∀ axes, gs.entry none i = some (g.op axes i).stride
  ndim : pool.ndim = if g.isMany then (m : Int) else 0

theorem recExpand_kernel (k : List α) : recExpand [-1] (PoolArgs.pyKernel k) = .ok (PoolArgs.pyKernel k, [(k.length : Int)], false) := by
  rcases eq_or_ne k [] with rfl | hk
  · simp [PoolArgs.pyKernel, recExpand]
  · rw [PoolArgs.pyKernel, recExpand_uniform (s := []) (by simpa using hk) _ (Or.inl rfl)]
    · simp
    · intro a ha
      obtain ⟨b, _, rfl⟩ := List.mem_map.1 ha
      rw [recExpand]

theorem getRagged_kernel (k : List α) : getRagged true (PoolArgs.pyKernel k) = (PoolArgs.pyKernel k, [(k.length : Int)]) := by
  rcases eq_or_ne k [] with rfl | hk
  · simp [PoolArgs.pyKernel, getRagged]
  · exact getRagged_leaves (fun b => ⟨b, rfl⟩) hk

theorem recExpandList_kernels (l : List (List α)) : recExpandList [-1] (l.map PoolArgs.pyKernel) =
    .ok (l.map fun k => (PoolArgs.pyKernel k, [(k.length : Int)], false)) := by
  induction l with
  | nil => simp [recExpandList]
  | cons k l ih =>
    rw [List.map_cons, recExpandList, recExpand_kernel, ih]
    rfl

theorem getRagged_kernels {l : List (List α)} (hne : l ≠ []) :
    ∃ c, getRagged true (.seq (l.map PoolArgs.pyKernel)) = (.seq (l.map PoolArgs.pyKernel), [(l.length : Int), c]) := by
  cases l with
  | nil => exact absurd rfl hne
  | cons k l =>
    rw [List.map_cons, getRagged, ← List.map_cons (f := PoolArgs.pyKernel)]
    simp only [getRaggedList_eq]
    have hs : sameLength ((((k :: l).map PoolArgs.pyKernel).map (getRagged true)).map Prod.snd) = true := by
      simp [sameLength, getRagged_kernel]
    rw [if_pos hs]
    simp [getRagged_kernel, levelShapes]

theorem recExpand_kernels {l : List (List α)} (hne : l ≠ []) :
    ∃ c, recExpand [-1, -1] (.seq (l.map PoolArgs.pyKernel)) = .ok (.seq (l.map PoolArgs.pyKernel), [(l.length : Int), c], false) := by
  cases l with
  | nil => exact absurd rfl hne
  | cons k l =>
    rw [List.map_cons, recExpand, ← List.map_cons (f := PoolArgs.pyKernel), recExpandList_kernels]
    simp [sameLength, levelShapes]

theorem ofItem_kernel {g : Given (List α)} {m : Nat} (hm : 0 < m) (hg : g.Fits m) :
    ∃ s, NdSpec.ofItem [-1] (g.toPy PoolArgs.pyKernel) = .ok s ∧ IsSpec s PoolArgs.pyKernel g := by
  cases g with
  | one k =>
    refine ⟨⟨PoolArgs.pyKernel k, [(k.length : Int)], 0⟩, ?_, rfl, rfl⟩
    simp only [Given.toPy, NdSpec.ofItem, getRagged_kernel, expandRagged]
    have hne : [(k.length : Int)] ≠ [-1] := by simp only [ne_eq, List.cons.injEq, and_true]; omega
    simp [hne, zeroLengthBad, recExpand_kernel]
  | many l =>
    have hl : l.length = m := hg
    have hne : l ≠ [] := by rintro rfl; simp at hl; omega
    obtain ⟨c, hc⟩ := getRagged_kernels hne
    obtain ⟨d, hd⟩ := recExpand_kernels hne
    refine ⟨⟨.seq (l.map PoolArgs.pyKernel), [(l.length : Int), d], 1⟩, ?_, rfl, rfl, [d], rfl⟩
    simp only [Given.toPy, NdSpec.ofItem, hc, expandRagged]
    simp [zeroLengthBad, hd]

theorem ofItem_strides {g : Given (Option Nat)} {m : Nat} (hm : 0 < m) (hg : g.Fits m) :
    ∃ s, NdSpec.ofItem [] (g.toPy PoolArgs.pyStride) = .ok s ∧ IsSpec s PoolArgs.pyStride g := by
  cases g with
  | one b => exact ⟨_, ofItem_leaf0 _, rfl, rfl⟩
  | many l =>
    have hl : l.length = m := hg
    have := ofItem_leaves (l := l.map fun s : Option Nat => s.map fun n : Nat => (n : Int)) (by
      intro h
      have := congrArg List.length h
      simp only [List.length_map, List.length_nil] at this
      omega)
    rw [List.map_map] at this
    exact ⟨_, this, rfl, rfl, [], by simp⟩

theorem poolIs_ofSpec {g : PoolArgs α} {m : Nat} (hm : 0 < m) (hg : g.Fits m) (hv : g.Valid) {k : NdSpec α}
    (hk : IsSpec k PoolArgs.pyKernel g.kernel) :
    ∃ pool, SepPool.ofSpec k (g.stride.toPy PoolArgs.pyStride) = .ok pool ∧ PoolIs pool g m := by
  obtain ⟨ks, e1, h1⟩ := hk.map (func := SepPool.itemLen) (f' := PoolArgs.pyStride) (F := fun k => some k.length)
    (by intro b _; simp [SepPool.itemLen, PoolArgs.pyKernel, PoolArgs.pyStride])
  obtain ⟨st, e2, h2⟩ := ofItem_strides hm hg.2
  obtain ⟨st', e3, h3⟩ := h2.map (func := checkStride) (f' := PoolArgs.pyStride) (F := id) (by
    intro b hb
    cases b with
    | none => rfl
    | some s =>
      have : s ≠ 0 := fun h => hv _ hb (by rw [h])
      simp only [PoolArgs.pyStride, Option.map_some, checkStride, id]
      rw [if_neg (by omega)])
  have h3' : IsSpec st' PoolArgs.pyStride g.stride := by
    have : g.stride.map id = g.stride := by cases g.stride <;> simp [Given.map]
    rwa [this] at h3
  obtain ⟨sp, e4, h4⟩ := apply2_spec h3' h1 hg.2 (given_fits_map _ hg.1) (func := SepPool.strideOr) (f' := PoolArgs.pyStride)
    (F := fun s k => match s with | none => k | some s => some s) none (some 0) (by
      intro i _
      cases g.stride.entry none i <;> rfl)
  have h5 : ∃ gs : Given (Option Nat), IsSpec sp PoolArgs.pyStride gs ∧ gs.Fits m ∧ (gs.isMany = true → g.isMany = true) ∧
      ∀ i, (g.isMany = true → i < m) → ∀ axes, gs.entry none i = some (g.op axes i).stride := by
    refine ⟨_, h4, given_fits_zip, ?_, ?_⟩
    · rw [given_isMany_zip, given_isMany_map, PoolArgs.isMany, Bool.or_comm]
      exact id
    · intro i hi axes
      have hi' : (g.stride.isMany || (g.kernel.map fun k => some k.length).isMany) = true → i < m := by
        rw [given_isMany_map]
        intro hh
        exact hi (by rw [PoolArgs.isMany, Bool.or_comm]; exact hh)
      rw [given_entry_zip _ hi', show some 0 = (fun k : List α => some k.length) [] from rfl,
        given_entry_map (fun k : List α => some k.length) g.kernel [] i]
      simp only [PoolArgs.op]
      cases g.stride.entry none i <;> rfl
  refine ⟨⟨k, ks, sp, if g.isMany then (m : Int) else 0⟩, ?_, hg, hk, h1, h5, rfl⟩
  have e5 : SepPool.alignParams k sp = .ok (if g.isMany then (m : Int) else 0) := by
    have a1 := hk.indexShape hg.1
    have a2 := h4.indexShape (m := m) given_fits_zip
    rw [given_isMany_zip, given_isMany_map] at a2
    rw [SepPool.alignParams, aggIndexLen_two (m := (m : Int)) (by simp), a1, a2]
    · cases h : g.kernel.isMany <;> cases h' : g.stride.isMany <;> simp [PoolArgs.isMany, h, h']
    · intro s hs
      simp only [List.mem_cons, List.not_mem_nil, or_false] at hs
      rcases hs with rfl | rfl
      · rw [a1]; split_ifs <;> simp
      · rw [a2]; split_ifs <;> simp
  simp only [SepPool.ofSpec, SepPool.readStride, e1, e2, e3, e4, e5, bind, Except.bind]

theorem poolIs_init {g : PoolArgs α} {m : Nat} (hm : 0 < m) (hg : g.Fits m) (hv : g.Valid) :
    ∃ pool, SepPool.init (g.kernel.toPy PoolArgs.pyKernel) (g.stride.toPy PoolArgs.pyStride) = .ok pool ∧ PoolIs pool g m := by
  obtain ⟨k, e1, h1⟩ := ofItem_kernel hm hg.1
  obtain ⟨pool, e2, h2⟩ := poolIs_ofSpec hm hg hv h1
  exact ⟨pool, by simp only [SepPool.init, e1, bind, Except.bind]; exact e2, h2⟩

/-! ## the loop -/

variable [Field α] [LinearOrder α]

theorem sequence_scalars (w : List α) : NdSpec.sequence ((w.map Py.leaf).map SepPool.asScalar) = .ok w := by
  rw [sequence_map (G := fun p : Py α => match p with | .leaf a => a | .seq _ => 0)]
  · rw [List.map_map]
    congr 1
    exact List.map_id w
  · intro b hb
    obtain ⟨a, _, rfl⟩ := List.mem_map.1 hb
    rfl

theorem asVec_kernel (w : List α) : SepPool.asVec (PoolArgs.pyKernel w) = .ok w := sequence_scalars w

theorem getD_append_lt {l : List Nat} {j d : Nat} (h : d < l.length) : (l ++ [j]).getD d 0 = l.getD d 0 := by
  simp [List.getD_eq_getElem?_getD, List.getElem?_append_left h]

theorem unfold_eq {x : Tensor α} {a k s : Nat} (ha : a < x.ndim) (hs : 0 < s) (hf : k ≤ x.shape.getD a 0) :
    x.unfold a (k : Int) (s : Int) = .ok (ofFn (x.shape.set a ((x.shape.getD a 0 - k) / s + 1) ++ [k]) fun ix =>
        x.get (ix.dropLast.set a (ix.getD a 0 * s + ix.getLastD 0))) := by
  rw [Tensor.unfold, if_pos ha, if_neg (by omega)]
  simp

theorem inB_concat {s ix : List Nat} {k j : Nat} (h : InB s ix) (hj : j < k) : InB (s ++ [k]) (ix ++ [j]) := by
  induction s generalizing ix with
  | nil =>
    cases ix with
    | nil => exact ⟨hj, trivial⟩
    | cons i ix => exact h.elim
  | cons n s ih =>
    cases ix with
    | nil => exact h.elim
    | cons i ix => exact ⟨h.1, ih h.2⟩

/-- a window along one axis and the product with the kernel -/
theorem unfold_matvec {x : Tensor α} {a s : Nat} {w : List α} (ha : a < x.ndim) (hw : w ≠ []) (hs : 0 < s)
    (hf : w.length ≤ x.shape.getD a 0) :
    (x.unfold a (w.length : Int) (s : Int)).bind (fun y => y.matvec w) = .ok (slide x ⟨a, w, s⟩) := by
  have hpos : 0 < w.length := List.length_pos_iff.2 hw
  rw [unfold_eq ha hs hf]
  simp only [Except.bind]
  rw [Tensor.matvec, if_pos ⟨by simp [ofFn], by simp [ofFn, List.getLastD_eq_getLast?]⟩]
  congr 1
  rw [slide, if_neg hw]
  have hsh : (ofFn (x.shape.set a ((x.shape.getD a 0 - w.length) / s + 1) ++ [w.length]) fun ix =>
      x.get (ix.dropLast.set a (ix.getD a 0 * s + ix.getLastD 0))).shape.dropLast =
      x.shape.set a (windowCount (x.shape.getD a 0) w.length s 1) := by
    rw [windowCount_pos hs hpos hf]
    simp [ofFn]
  rw [hsh]
  apply ofFn_congr
  intro ix hix
  congr 1
  apply List.map_congr_left
  intro j hj
  rw [windowCount_pos hs hpos hf] at hix
  rw [get_ofFn (inB_concat hix (List.mem_range.1 hj)), mul_comm]
  have hl : a < ix.length := by
    rw [hix.length_eq]
    simpa [Tensor.ndim] using ha
  rw [List.dropLast_concat, getD_append_lt hl]
  simp

theorem convDim_nat {n a : Nat} (h : a < n) : convDim n (a : Int) = .ok a := by
  have : ¬ (a : Int) < 0 := by omega
  simp only [convDim, if_neg this]
  rw [if_pos (by omega)]
  simp

variable {pool : SepPool α} {g : PoolArgs α} {m : Nat}

theorem PoolIs.getSize (h : PoolIs pool g m) {i : Nat} (hi : g.isMany = true → i < m) :
    (pool.kernelSize.get (i : Int)).bind SepPool.asSize = .ok ((g.kernel.entry [] i).length : Int) := by
  rw [h.size.get (given_fits_map _ h.fits.1) (some ([] : List α).length) (i := i)
    (fun hm => hi (by rw [given_isMany_map] at hm; simp [PoolArgs.isMany, hm]))]
  rw [given_entry_map (fun k : List α => some k.length)]
  rfl

theorem PoolIs.getStride (h : PoolIs pool g m) {i : Nat} (hi : g.isMany = true → i < m) (axes : List Nat) :
    (pool.stride.get (i : Int)).bind SepPool.asSize = .ok ((g.op axes i).stride : Int) := by
  obtain ⟨gs, h1, h2, h3, h4⟩ := h.stride
  rw [h1.get h2 none (i := i) (fun hm => hi (h3 hm)), h4 i hi axes]
  rfl

theorem PoolIs.getKernel (h : PoolIs pool g m) {i : Nat} (hi : g.isMany = true → i < m) :
    (pool.kernel.get (i : Int)).bind SepPool.asVec = .ok (g.kernel.entry [] i) := by
  rw [h.kernel.get h.fits.1 [] (i := i) (fun hm => hi (by simp [PoolArgs.isMany, hm]))]
  exact asVec_kernel _

theorem PoolIs.step (h : PoolIs pool g m) {i : Nat} (hi : g.isMany = true → i < m) {axes : List Nat} {x : Tensor α}
    (hf : (g.op axes i).kernel ≠ [] → (g.op axes i).axis < x.ndim ∧ 0 < (g.op axes i).stride ∧
      (g.op axes i).kernel.length ≤ x.shape.getD (g.op axes i).axis 0) :
    SepPool.poolStep pool i ((axes.getD i 0 : Nat) : Int) x = .ok (slide x (g.op axes i)) := by
  have e1 := h.getSize hi
  have e2 := h.getStride hi axes
  have e3 := h.getKernel hi
  cases hk : pool.kernelSize.get (i : Int) with
  | error e => rw [hk] at e1; simp [Except.bind] at e1
  | ok k =>
  rw [hk] at e1
  simp only [Except.bind] at e1
  simp only [SepPool.poolStep, hk, e1, bind, Except.bind]
  by_cases h0 : g.kernel.entry [] i = []
  · rw [if_pos (by simp [h0])]
    simp [slide, PoolArgs.op, h0, pure, Except.pure]
  · have hpos : 0 < (g.kernel.entry [] i).length := List.length_pos_iff.2 h0
    rw [if_neg (by omega)]
    obtain ⟨f1, f2, f3⟩ := hf h0
    cases hs : pool.stride.get (i : Int) with
    | error e => rw [hs] at e2; simp [Except.bind] at e2
    | ok s =>
    rw [hs] at e2
    simp only [Except.bind] at e2
    cases hw : pool.kernel.get (i : Int) with
    | error e => rw [hw] at e3; simp [Except.bind] at e3
    | ok w =>
    rw [hw] at e3
    simp only [Except.bind] at e3
    have hsl := unfold_matvec (x := x) (a := (g.op axes i).axis) (s := (g.op axes i).stride) (w := g.kernel.entry [] i) f1 h0 f2 f3
    have hax : convDim x.ndim ((axes.getD i 0 : Nat) : Int) = .ok (g.op axes i).axis := convDim_nat f1
    simp only [e2, hax]
    cases hu : x.unfold (g.op axes i).axis ((g.kernel.entry [] i).length : Int) ((g.op axes i).stride : Int) with
    | error e => rw [hu] at hsl; simp [Except.bind] at hsl
    | ok y =>
    rw [hu] at hsl
    simp only [Except.bind] at hsl
    simp only [e3]
    exact hsl

theorem PoolIs.loop (h : PoolIs pool g m) {axes : List Nat} (hi : g.isMany = true → axes.length ≤ m) :
    ∀ (n i : Nat) (x : Tensor α), i + n = axes.length →
      Fitting x ((List.range n).map fun j => g.op axes (i + j)) →
      SepPool.poolLoop pool i (castV (axes.drop i)) x = .ok (poolSeq x ((List.range n).map fun j => g.op axes (i + j)))
  | 0, i, x, hn, _ => by
    rw [List.drop_eq_nil_of_le (by omega)]
    rfl
  | n + 1, i, x, hn, hf => by
    have hlt : i < axes.length := by omega
    rw [List.range_succ_eq_map, List.map_cons, List.map_map] at hf ⊢
    have hd : axes.drop i = axes.getD i 0 :: axes.drop (i + 1) := by
      rw [List.drop_eq_getElem_cons hlt]
      simp [hlt]
    have hfun : (fun j => g.op axes (i + j)) ∘ Nat.succ = fun j => g.op axes (i + 1 + j) := by
      funext j
      simp only [Function.comp, Nat.succ_eq_add_one]
      congr 1
      omega
    rw [hfun] at hf ⊢
    rw [hd, castV, List.map_cons, SepPool.poolLoop]
    simp only [Nat.add_zero] at hf ⊢
    rw [h.step (fun hm => by have := hi hm; omega) hf.1]
    simp only [bind, Except.bind]
    exact h.loop hi n (i + 1) (slide x (g.op axes i)) (by omega) hf.2

theorem PoolIs.loop_all (h : PoolIs pool g m) {axes : List Nat} (hi : g.isMany = true → axes.length ≤ m) {x : Tensor α}
    (hf : Fitting x (g.ops axes)) : SepPool.poolLoop pool 0 (castV axes) x = .ok (poolSeq x (g.ops axes)) := by
  have := h.loop hi axes.length 0 x (by omega) (by simpa [PoolArgs.ops] using hf)
  simpa [PoolArgs.ops] using this

/-- a kernel longer than the axis it is applied to is an error -/
theorem PoolIs.step_error (h : PoolIs pool g m) {i : Nat} (hi : g.isMany = true → i < m) {axes : List Nat} {x : Tensor α}
    (ha : (g.op axes i).axis < x.ndim) (hl : x.shape.getD (g.op axes i).axis 0 < (g.op axes i).kernel.length) :
    SepPool.poolStep pool i ((axes.getD i 0 : Nat) : Int) x = .error .runtime := by
  have e1 := h.getSize hi
  have e2 := h.getStride hi axes
  have hl' : x.shape.getD (g.op axes i).axis 0 < (g.kernel.entry [] i).length := hl
  cases hk : pool.kernelSize.get (i : Int) with
  | error e => rw [hk] at e1; simp [Except.bind] at e1
  | ok k =>
  rw [hk] at e1
  simp only [Except.bind] at e1
  simp only [SepPool.poolStep, hk, e1, bind, Except.bind]
  rw [if_neg (by omega)]
  cases hs : pool.stride.get (i : Int) with
  | error e => rw [hs] at e2; simp [Except.bind] at e2
  | ok s =>
  rw [hs] at e2
  simp only [Except.bind] at e2
  have hax : convDim x.ndim ((axes.getD i 0 : Nat) : Int) = .ok (g.op axes i).axis := convDim_nat ha
  simp only [e2, hax]
  rw [Tensor.unfold, if_pos ha, if_pos (by omega)]

/-! ## without a padder -/

theorem checkAxes_castV {n : Nat} {axes : List Nat} (h : ∀ k ∈ axes, k < n) : checkAxes n (.seq (castV axes)) = .ok (castV axes) := by
  have h1 : (castV axes).map (fun (a : Int) => if a ≥ 0 then a else (n : Int) + a) = castV axes := by
    rw [castV, List.map_map]
    apply List.map_congr_left
    intro k _
    simp only [Function.comp]
    rw [if_pos (by omega)]
  simp only [checkAxes, h1]
  rw [if_pos]
  rw [List.all_eq_true]
  intro a ha
  obtain ⟨k, hk, rfl⟩ := List.mem_map.1 (show a ∈ axes.map (fun n : Nat => (n : Int)) from ha)
  have := h k hk
  simp only [decide_eq_true_eq]
  omega

theorem PoolIs.forward_none (h : PoolIs pool g m) {x : Tensor α} {ax : Axes} {axes : List Nat}
    (hax : axesOf x.ndim ax = some axes) (hm : g.isMany = true → axes.length = m) (hf : Fitting x (g.ops axes)) (junk : List Nat → α) :
    SepPool.forward pool none junk x ax = (none, .ok (poolSeq x (g.ops axes))) := by
  obtain ⟨hc, hlt⟩ := checkAxes_spec hax
  have hnd : pool.ndim = 0 ∨ pool.ndim = ((castV axes).length : Int) := by
    rw [h.ndim]
    split_ifs with hh
    · right; simp [castV, hm hh]
    · left; rfl
  simp only [SepPool.forward, hc, if_pos hnd, SepPool.pad, checkAxes_castV hlt]
  rw [h.loop_all (fun hh => by rw [hm hh]) hf]

end TI
