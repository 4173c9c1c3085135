import Verif.Props.Cases
import Verif.Proofs.SsimOne

/-!
# Filtering with blends and multiples of kernels (C160)
-/

set_option linter.unusedSectionVars false

namespace TI
open Tensor Spec

section
variable {α : Type} [Field α] [LinearOrder α] [IsStrictOrderedRing α] [FloorRing α] {a b : α} {i N m : Nat} {q q1 q2 : PoolArgs α} {axes : List Nat} {x : Tensor α} {ax : Axes} {gp : PadArgs α}
  {pool pool1 pool2 : SepPool α} {p : Padder α}

/-- the arguments `q` differ from `q1` and `q2` in the kernel of axis `i` only (of `N` axes), which is the combination with coefficients `a` and `b` of theirs -/
structure Spec.Mixes (a b : α) (i N : Nat) (q1 q2 q : PoolArgs α) : Prop where
  stride1 : q1.stride = q.stride
  stride2 : q2.stride = q.stride
  same1 : ∀ j < N, j ≠ i → q1.kernel.entry [] j = q.kernel.entry [] j
  same2 : ∀ j < N, j ≠ i → q2.kernel.entry [] j = q.kernel.entry [] j
  size1 : (q1.kernel.entry [] i).length = (q.kernel.entry [] i).length
  size2 : (q2.kernel.entry [] i).length = (q.kernel.entry [] i).length
  ne : q.kernel.entry [] i ≠ []
  mix : ∀ j < (q.kernel.entry [] i).length, (q.kernel.entry [] i).getD j 0 = a * (q1.kernel.entry [] i).getD j 0 + b * (q2.kernel.entry [] i).getD j 0

/-- the kernels of `q` on `N` axes are multiples of those of `q1` -/
structure Spec.Multiples (c : Nat → α) (N : Nat) (q1 q : PoolArgs α) : Prop where
  stride : q1.stride = q.stride
  ne : ∀ j < N, q1.kernel.entry [] j ≠ []
  kernel : ∀ j < N, q.kernel.entry [] j = (q1.kernel.entry [] j).map (c j * ·)

/-- the same numbers of weights and the same strides -/
def SameSizes (N : Nat) (q1 q : PoolArgs α) : Prop := q1.stride = q.stride ∧ ∀ j < N, (q1.kernel.entry [] j).length = (q.kernel.entry [] j).length

theorem Spec.Mixes.sizes1 (h : Mixes a b i N q1 q2 q) : SameSizes N q1 q :=
  ⟨h.stride1, fun j hj => by
    by_cases e : j = i
    · rw [e, h.size1]
    · rw [h.same1 j hj e]⟩

theorem Spec.Mixes.sizes2 (h : Mixes a b i N q1 q2 q) : SameSizes N q2 q :=
  ⟨h.stride2, fun j hj => by
    by_cases e : j = i
    · rw [e, h.size2]
    · rw [h.same2 j hj e]⟩

theorem Spec.Multiples.sizes {c : Nat → α} (h : Multiples c N q1 q) : SameSizes N q1 q := ⟨h.stride, fun j hj => by rw [h.kernel j hj, List.length_map]⟩

theorem SameSizes.symm (h : SameSizes N q1 q) : SameSizes N q q1 := ⟨h.1.symm, fun j hj => (h.2 j hj).symm⟩

theorem SameSizes.op (h : SameSizes N q1 q) {j : Nat} (hj : j < N) : (q1.op axes j).axis = (q.op axes j).axis ∧ (q1.op axes j).kernel.length = (q.op axes j).kernel.length ∧
    (q1.op axes j).stride = (q.op axes j).stride := by
  refine ⟨rfl, h.2 j hj, ?_⟩
  show (q1.stride.entry none j).getD (q1.kernel.entry [] j).length = (q.stride.entry none j).getD (q.kernel.entry [] j).length
  rw [h.1, h.2 j hj]

theorem ne_nil_congr {u v : List α} (h : u.length = v.length) (hv : v ≠ []) : u ≠ [] := by
  rintro rfl
  exact hv (List.length_eq_zero_iff.1 h.symm)

theorem slide_shape_sizes {o o' : PoolOp α} {y : Tensor α} (hs : x.shape = y.shape) (h : o.axis = o'.axis ∧ o.kernel.length = o'.kernel.length ∧ o.stride = o'.stride) :
    (slide x o).shape = (slide y o').shape := by
  rw [slide_shape, slide_shape, h.1, h.2.1, h.2.2, hs]
  by_cases hk : o'.kernel = []
  · rw [if_pos hk, if_pos (List.length_eq_zero_iff.1 (by rw [h.2.1, hk]; rfl))]
  · rw [if_neg hk, if_neg (ne_nil_congr h.2.1 hk)]

theorem SameSizes.fitting (h : SameSizes N q1 q) : ∀ {l : List Nat} {x y : Tensor α}, (∀ j ∈ l, j < N) → x.shape = y.shape → Fitting y (l.map (q.op axes)) → Fitting x (l.map (q1.op axes))
  | [], _, _, _, _, _ => trivial
  | j :: l, x, y, hl, hs, hf => by
    have ho := h.op (axes := axes) (hl j (by simp))
    refine ⟨fun hk => ?_, h.fitting (fun k hk => hl k (by simp [hk])) (slide_shape_sizes hs ho) hf.2⟩
    obtain ⟨h1, h2, h3⟩ := hf.1 (ne_nil_congr ho.2.1.symm hk)
    rw [ho.1, ho.2.1, ho.2.2, ndim, hs]
    exact ⟨h1, h2, h3⟩

theorem SameSizes.sameOps_eq (h : SameSizes axes.length q1 q) (S : List Nat) : sameOps q1 gp S axes = sameOps q gp S axes := by
  rw [sameOps, sameOps]
  congr 1
  refine List.map_congr_left fun j hj => ?_
  have hj' := List.mem_range.1 hj
  obtain ⟨_, h2, h3⟩ := h.op (axes := axes) hj'
  rw [withWidths_entry _ _ _ _ hj', withWidths_entry _ _ _ _ hj']
  simp only [sameSetting, h2, h3]

theorem SameSizes.sameCall (h : SameSizes axes.length q1 q) (hf : q1.isMany = true → q1.Fits axes.length) (hc : SameCall q gp x ax axes) : SameCall q1 gp x ax axes where
  axes_eq := hc.axes_eq
  ne := hc.ne
  nodup := hc.nodup
  fits := hf
  rest := hc.rest
  stride i hi := by rw [(h.op hi).2.2]; exact hc.stride i hi
  pos := hc.pos
  valued := by rw [h.sameOps_eq]; exact hc.valued

/-- one axis -/
theorem slide_mix {o o1 o2 : PoolOp α} (h1 : o1.axis = o.axis ∧ o1.kernel.length = o.kernel.length ∧ o1.stride = o.stride)
    (h2 : o2.axis = o.axis ∧ o2.kernel.length = o.kernel.length ∧ o2.stride = o.stride) (hk : o.kernel ≠ [])
    (hm : ∀ j < o.kernel.length, o.kernel.getD j 0 = a * o1.kernel.getD j 0 + b * o2.kernel.getD j 0) : slide x o = lincomb a (slide x o1) b (slide x o2) := by
  have s1 := slide_shape_sizes (x := x) rfl h1
  have s2 := slide_shape_sizes (x := x) rfl h2
  refine ext_get s1.symm fun ix hix => ?_
  rw [lincomb_get (by rw [s1]; exact hix), slide_get hk hix, slide_get (ne_nil_congr h1.2.1 hk) (by rw [s1]; exact hix), slide_get (ne_nil_congr h2.2.1 hk) (by rw [s2]; exact hix),
    h1.1, h1.2.1, h1.2.2, h2.1, h2.2.1, h2.2.2, mul_sum_map, mul_sum_map, ← List.sum_map_add]
  congr 1
  refine List.map_congr_left fun j hj => ?_
  rw [hm j (List.mem_range.1 hj)]
  ring

theorem Spec.Mixes.poolSeq (h : Mixes a b i N q1 q2 q) : ∀ {l : List Nat} {x : Tensor α}, l.Nodup → (∀ j ∈ l, j < N) → i ∈ l → Fitting x (l.map (q.op axes)) →
    poolSeq x (l.map (q.op axes)) = lincomb a (poolSeq x (l.map (q1.op axes))) b (poolSeq x (l.map (q2.op axes)))
  | [], _, _, _, hi, _ => by cases hi
  | j :: l, x, hnd, hl, hi, hf => by
    rw [List.nodup_cons] at hnd
    have hl' : ∀ k ∈ l, k < N := fun k hk => hl k (by simp [hk])
    have e1 : ∀ k < N, k ≠ i → q1.op axes k = q.op axes k := fun k hk hki => by simp only [PoolArgs.op, h.same1 k hk hki, h.stride1]
    have e2 : ∀ k < N, k ≠ i → q2.op axes k = q.op axes k := fun k hk hki => by simp only [PoolArgs.op, h.same2 k hk hki, h.stride2]
    change Spec.poolSeq (slide x (q.op axes j)) (l.map (q.op axes)) = lincomb a (Spec.poolSeq (slide x (q1.op axes j)) (l.map (q1.op axes))) b (Spec.poolSeq (slide x (q2.op axes j)) (l.map (q2.op axes)))
    by_cases e : j = i
    · subst e
      have hne : ∀ k ∈ l, k ≠ j := fun k hk hkj => hnd.1 (hkj ▸ hk)
      have hj := hl j (by simp)
      have m1 : l.map (q1.op axes) = l.map (q.op axes) := List.map_congr_left fun k hk => e1 k (hl' k hk) (hne k hk)
      have m2 : l.map (q2.op axes) = l.map (q.op axes) := List.map_congr_left fun k hk => e2 k (hl' k hk) (hne k hk)
      have s1 := h.sizes1.op (axes := axes) hj
      have s2 := h.sizes2.op (axes := axes) hj
      rw [m1, m2, slide_mix s1 s2 h.ne h.mix]
      refine poolSeq_lincomb_fitting ((slide_shape_sizes rfl s1).trans (slide_shape_sizes rfl s2).symm) ?_
      exact SameSizes.fitting (q1 := q) (q := q) ⟨rfl, fun _ _ => rfl⟩ hl' (slide_shape_sizes rfl s1) hf.2
    · have hil : i ∈ l := by simpa [Ne.symm e] using hi
      rw [e1 j (hl j (by simp)) e, e2 j (hl j (by simp)) e]
      exact h.poolSeq hnd.2 hl' hil hf.2

theorem Spec.Multiples.poolSeq {c : Nat → α} (h : Multiples c N q1 q) : ∀ {l : List Nat} {x : Tensor α}, (∀ j ∈ l, j < N) → Fitting x (l.map (q1.op axes)) →
    poolSeq x (l.map (q.op axes)) = (poolSeq x (l.map (q1.op axes))).map ((l.map c).prod * ·)
  | [], x, _, _ => by
    refine ext_get rfl fun ix hix => ?_
    have hix' : InB x.shape ix := hix
    change x.get ix = (x.map _).get ix
    rw [get_map _ _ hix']
    simp
  | j :: l, x, hl, hf => by
    have hj := hl j (by simp)
    have hl' : ∀ k ∈ l, k < N := fun k hk => hl k (by simp [hk])
    have ho := h.sizes.op (axes := axes) hj
    have hne : (q.op axes j).kernel ≠ [] := ne_nil_congr ho.2.1.symm (h.ne j hj)
    have e : slide x (q.op axes j) = lincomb (c j) (slide x (q1.op axes j)) 0 (slide x (q1.op axes j)) := by
      refine slide_mix ho ho hne fun k hk => ?_
      have hk' : k < (q1.kernel.entry [] j).length := by rw [← ho.2.1] at hk; exact hk
      have : (q.op axes j).kernel = (q1.kernel.entry [] j).map (c j * ·) := h.kernel j hj
      rw [this]
      simp [PoolArgs.op, hk']
    change Spec.poolSeq (slide x (q.op axes j)) (l.map (q.op axes)) = (Spec.poolSeq (slide x (q1.op axes j)) (l.map (q1.op axes))).map _
    have hf' : Fitting (slide x (q.op axes j)) (l.map (q1.op axes)) := SameSizes.fitting (q1 := q1) (q := q1) ⟨rfl, fun _ _ => rfl⟩ hl' (slide_shape_sizes rfl ho).symm hf.2
    rw [h.poolSeq hl' hf', e, poolSeq_lincomb_fitting rfl hf.2]
    refine ext_get rfl fun ix hix => ?_
    have hix' : InB (Spec.poolSeq (slide x (q1.op axes j)) (l.map (q1.op axes))).shape ix := hix
    rw [get_map _ _ (show InB (lincomb (c j) _ 0 _).shape ix from hix'), get_map _ _ hix', lincomb_get hix', List.map_cons, List.prod_cons]
    ring

/-- **C160.** Without padding, filtering with a combination of two kernels on one axis (and the same kernels and strides on the others) is the combination of the filtered images. -/
theorem C160_valid (h1 : Built pool1 q1 m) (h2 : Built pool2 q2 m) (h3 : Built pool q m) (hq : Mixes a b i axes.length q1 q2 q) (hi : i < axes.length) (hax : axesOf x.ndim ax = some axes)
    (hm : q1.isMany = true ∨ q2.isMany = true ∨ q.isMany = true → axes.length = m) (hf : Fitting x (q.ops axes)) (junk : List Nat → α) :
    ∃ u v, (pool1.forward none junk x ax).2 = .ok u ∧ (pool2.forward none junk x ax).2 = .ok v ∧ (pool.forward none junk x ax).2 = .ok (lincomb a u b v) := by
  have hr : ∀ j ∈ List.range axes.length, j < axes.length := fun j => List.mem_range.1
  refine ⟨_, _, by rw [h1.poolIs.1.forward_none hax (fun h => hm (Or.inl h)) (hq.sizes1.fitting hr rfl hf) junk],
    by rw [h2.poolIs.1.forward_none hax (fun h => hm (Or.inr (Or.inl h))) (hq.sizes2.fitting hr rfl hf) junk], ?_⟩
  rw [h3.poolIs.1.forward_none hax (fun h => hm (Or.inr (Or.inr h))) hf junk]
  exact congrArg Except.ok (hq.poolSeq List.nodup_range hr (List.mem_range.2 hi) hf)

/-- **C160** with a padder of any mode: the images are padded alike -/
theorem C160_same (h1 : Built pool1 q1 m) (h2 : Built pool2 q2 m) (h3 : Built pool q m) (hq : Mixes a b i axes.length q1 q2 q) (hi : i < axes.length)
    (hm : q1.isMany = true ∨ q2.isMany = true ∨ q.isMany = true → axes.length = m) (c3 : SameCall q gp x ax axes) (hp : Holds p gp)
    (junk : List Nat → α) :
    ∃ u v, (pool1.forward (some p) junk x ax).2 = .ok u ∧ (pool2.forward (some p) junk x ax).2 = .ok v ∧ (pool.forward (some p) junk x ax).2 = .ok (lincomb a u b v) := by
  have hr : ∀ j ∈ List.range axes.length, j < axes.length := fun j => List.mem_range.1
  have c1 : SameCall q1 gp x ax axes := hq.sizes1.sameCall (fun h => hm (Or.inl h) ▸ h1.poolIs.1.fits) c3
  have c2 : SameCall q2 gp x ax axes := hq.sizes2.sameCall (fun h => hm (Or.inr (Or.inl h)) ▸ h2.poolIs.1.fits) c3
  refine ⟨_, _, by rw [h1.poolIs.1.forward_same c1 (fun h => hm (Or.inl h)) hp junk], by rw [h2.poolIs.1.forward_same c2 (fun h => hm (Or.inr (Or.inl h))) hp junk], ?_⟩
  rw [h3.poolIs.1.forward_same c3 (fun h => hm (Or.inr (Or.inr h))) hp junk, hq.sizes1.sameOps_eq, hq.sizes2.sameOps_eq]
  exact congrArg Except.ok (hq.poolSeq List.nodup_range hr (List.mem_range.2 hi) c3.poolOps.fitting)

/-- **C160**: multiples of the kernels multiply the filtered image by the product of the factors. -/
theorem C160_multiples {c : Nat → α} (h1 : Built pool1 q1 m) (h3 : Built pool q m) (hq : Multiples c axes.length q1 q) (hax : axesOf x.ndim ax = some axes)
    (hm : q1.isMany = true ∨ q.isMany = true → axes.length = m) (hf : Fitting x (q1.ops axes)) (junk : List Nat → α) :
    ∃ u, (pool1.forward none junk x ax).2 = .ok u ∧ (pool.forward none junk x ax).2 = .ok (u.map (((List.range axes.length).map c).prod * ·)) := by
  have hr : ∀ j ∈ List.range axes.length, j < axes.length := fun j => List.mem_range.1
  refine ⟨_, by rw [h1.poolIs.1.forward_none hax (fun h => hm (Or.inl h)) hf junk], ?_⟩
  rw [h3.poolIs.1.forward_none hax (fun h => hm (Or.inr h)) (hq.sizes.symm.fitting hr rfl hf) junk]
  exact congrArg Except.ok (hq.poolSeq hr hf)

/-- **C160**: the same with a padder of any mode -/
theorem C160_multiples_same {c : Nat → α} (h1 : Built pool1 q1 m) (h3 : Built pool q m) (hq : Multiples c axes.length q1 q) (hm : q1.isMany = true ∨ q.isMany = true → axes.length = m)
    (c1 : SameCall q1 gp x ax axes) (hp : Holds p gp) (junk : List Nat → α) :
    ∃ u, (pool1.forward (some p) junk x ax).2 = .ok u ∧ (pool.forward (some p) junk x ax).2 = .ok (u.map (((List.range axes.length).map c).prod * ·)) := by
  have hr : ∀ j ∈ List.range axes.length, j < axes.length := fun j => List.mem_range.1
  have c3 : SameCall q gp x ax axes := hq.sizes.symm.sameCall (fun h => hm (Or.inr h) ▸ h3.poolIs.1.fits) c1
  refine ⟨_, by rw [h1.poolIs.1.forward_same c1 (fun h => hm (Or.inl h)) hp junk], ?_⟩
  rw [h3.poolIs.1.forward_same c3 (fun h => hm (Or.inr h)) hp junk, ← hq.sizes.sameOps_eq]
  exact congrArg Except.ok (hq.poolSeq hr c1.poolOps.fitting)

end

namespace KernelCase

/-- `SeparablePoolNd(kernel=[[1/4, 1/2, 1/4], [1, 0]], stride=[1, None])` -/
def left : PoolArgs ℚ := ⟨.many [[1 / 4, 1 / 2, 1 / 4], [1, 0]], .many [some 1, none]⟩

/-- `SeparablePoolNd(kernel=[[1/4, 1/2, 1/4], [0, 1]], stride=[1, None])` -/
def right : PoolArgs ℚ := ⟨.many [[1 / 4, 1 / 2, 1 / 4], [0, 1]], .many [some 1, none]⟩

/-- `SeparablePoolNd(kernel=[[1, 2, 1], [1, 2]], stride=[1, None])` -/
def integers : PoolArgs ℚ := ⟨.many [[1, 2, 1], [1, 2]], .many [some 1, none]⟩

theorem valid {q : PoolArgs ℚ} (h : q.stride = Case.poolArgs.stride) : q.Valid := by
  intro s hs
  rw [h] at hs
  simp [Case.poolArgs, Given.values] at hs
  rcases hs with rfl | rfl <;> simp

theorem mixes : Mixes (1 / 3) (2 / 3) 1 2 left right Case.poolArgs where
  stride1 := rfl
  stride2 := rfl
  same1 j hj hne := by obtain rfl : j = 0 := by omega
                       rfl
  same2 j hj hne := by obtain rfl : j = 0 := by omega
                       rfl
  size1 := rfl
  size2 := rfl
  ne := by decide
  mix := by decide +kernel

theorem multiples : Multiples (fun j => if j = 0 then 4 else 3) 2 Case.poolArgs integers where
  stride := rfl
  ne := by decide
  kernel := by decide +kernel

/-- C160: the pooling of the cases is one third of `left` and two thirds of `right`, and `integers` gives twelve times its result -/
example {x : Tensor ℚ} (hx : x.shape = [2, 6, 9]) (junk : List Nat → ℚ) : ∃ pool1 pool2 pool3 pool u v w,
    SepPool.init (left.kernel.toPy PoolArgs.pyKernel) (left.stride.toPy PoolArgs.pyStride) = .ok pool1 ∧ SepPool.init (right.kernel.toPy PoolArgs.pyKernel) (right.stride.toPy PoolArgs.pyStride) = .ok pool2 ∧
    SepPool.init (integers.kernel.toPy PoolArgs.pyKernel) (integers.stride.toPy PoolArgs.pyStride) = .ok pool3 ∧
    SepPool.init (Case.poolArgs.kernel.toPy PoolArgs.pyKernel) (Case.poolArgs.stride.toPy PoolArgs.pyStride) = .ok pool ∧
    (pool1.forward (some (Case.padArgs.padder 2)) junk x (.seq [1, -1])).2 = .ok u ∧ (pool2.forward (some (Case.padArgs.padder 2)) junk x (.seq [1, -1])).2 = .ok v ∧
    (pool.forward (some (Case.padArgs.padder 2)) junk x (.seq [1, -1])).2 = .ok (lincomb (1 / 3) u (2 / 3) v) ∧
    (pool.forward none junk x (.seq [1, -1])).2 = .ok w ∧ (pool3.forward none junk x (.seq [1, -1])).2 = .ok (w.map (12 * ·)) := by
  obtain ⟨pool1, e1, h1⟩ := C30_constructor (g := left) (m := 2) (by decide) ⟨rfl, rfl⟩ (valid rfl)
  obtain ⟨pool2, e2, h2⟩ := C30_constructor (g := right) (m := 2) (by decide) ⟨rfl, rfl⟩ (valid rfl)
  obtain ⟨pool3, e3, h3⟩ := C30_constructor (g := integers) (m := 2) (by decide) ⟨rfl, rfl⟩ (valid rfl)
  obtain ⟨pool, e, h⟩ := Case.built
  obtain ⟨u, v, r1, r2, r⟩ := C160_same h1 h2 h mixes (by decide) (fun _ => rfl) (Case.poolSame hx) (holds_padder Case.padArgs 2) junk
  obtain ⟨w, r3, r4⟩ := C160_multiples h h3 multiples (Case.axes hx) (fun _ => rfl) (h.poolOps (Case.axes hx) (fun _ => rfl) (by decide) (Case.pairFits hx)).fitting junk
  refine ⟨pool1, pool2, pool3, pool, u, v, w, e1, e2, e3, e, r1, r2, r, r3, ?_⟩
  rw [r4]
  norm_num [List.range_succ]

end KernelCase

end TI
