import Verif.Proofs.Compose
import Verif.Proofs.MsSsim
import Verif.Props.PoolMore

/-!
# Two poolings in a row: C90
-/

set_option linter.unusedSectionVars false

namespace TI
open Tensor Spec

variable {α : Type} [Field α] [LinearOrder α] [IsStrictOrderedRing α]
variable {x : Tensor α} {ax : Axes} {axes : List Nat}

/-! ## C90 -/

section
variable {g₁ g₂ g : PoolArgs α} {m₁ m₂ m : Nat} {pool₁ pool₂ pool : SepPool α}

/-- the two windows of every axis fit one after the other -/
def Spec.FitTwice (g₁ g₂ : PoolArgs α) (axes shape : List Nat) : Prop := ∀ i < axes.length,
  (g₁.op axes i).kernel ≠ [] ∧ (g₂.op axes i).kernel ≠ [] ∧
  (g₁.op axes i).kernel.length ≤ shape.getD (axes.getD i 0) 0 ∧
  (g₂.op axes i).kernel.length ≤ (shape.getD (axes.getD i 0) 0 - (g₁.op axes i).kernel.length) / (g₁.op axes i).stride + 1

/-- the third pooling has on every axis the composed weights and the product of the strides -/
def Spec.ComposedOf (g₁ g₂ g : PoolArgs α) (axes : List Nat) : Prop := ∀ i < axes.length,
  (g.op axes i).kernel = composed (g₁.op axes i).kernel (g₁.op axes i).stride (g₂.op axes i).kernel ∧
  (g.op axes i).stride = (g₁.op axes i).stride * (g₂.op axes i).stride

/-- the axes pooled twice -/
def twices (g₁ g₂ : PoolArgs α) (axes : List Nat) : List (Twice α) := (List.range axes.length).map fun i =>
  ⟨axes.getD i 0, (g₁.op axes i).kernel, (g₁.op axes i).stride, (g₂.op axes i).kernel, (g₂.op axes i).stride⟩

theorem poolSeq_composed (hnd : axes.Nodup) (hlt : ∀ a ∈ axes, a < x.ndim)
    (hs₁ : ∀ i < axes.length, 0 < (g₁.op axes i).stride) (hs₂ : ∀ i < axes.length, 0 < (g₂.op axes i).stride)
    (hf : FitTwice g₁ g₂ axes x.shape) (hc : ComposedOf g₁ g₂ g axes) :
    PoolOps x (g₁.ops axes) ∧ PoolOps (poolSeq x (g₁.ops axes)) (g₂.ops axes) ∧ PoolOps x (g.ops axes) ∧
      poolSeq (poolSeq x (g₁.ops axes)) (g₂.ops axes) = poolSeq x (g.ops axes) := by
  have hwc : ∀ i < axes.length, windowCount (x.shape.getD (axes.getD i 0) 0) (g₁.op axes i).kernel.length (g₁.op axes i).stride 1 =
      (x.shape.getD (axes.getD i 0) 0 - (g₁.op axes i).kernel.length) / (g₁.op axes i).stride + 1 := by
    intro i hi
    exact windowCount_pos (hs₁ i hi) (List.length_pos_iff.2 (hf i hi).1) (hf i hi).2.2.1
  have hax : ∀ i < axes.length, axes.getD i 0 < x.ndim := fun i hi => hlt _ (getD_mem_lt hi)
  have h1 : PoolOps x (g₁.ops axes) := by
    refine ⟨by rw [ops_axis]; exact hnd, ?_, ?_, ?_⟩ <;> intro o ho _ <;> obtain ⟨i, hi, rfl⟩ := mem_ops.1 ho
    · exact hax i hi
    · exact hs₁ i hi
    · exact (hf i hi).2.2.1
  have h2 : PoolOps (poolSeq x (g₁.ops axes)) (g₂.ops axes) := by
    refine ⟨by rw [ops_axis]; exact hnd, ?_, ?_, ?_⟩ <;> intro o ho _ <;> obtain ⟨i, hi, rfl⟩ := mem_ops.1 ho
    · rw [poolSeq_ndim]; exact hax i hi
    · exact hs₂ i hi
    · show _ ≤ (poolSeq x (g₁.ops axes)).shape.getD (axes.getD i 0) 0
      rw [poolSeq_shape h1, find_ops hnd hi (hf i hi).1]
      simp only
      exact (hf i hi).2.2.2.trans (hwc i hi).ge
  have h3 : PoolOps x (g.ops axes) := by
    refine ⟨by rw [ops_axis]; exact hnd, ?_, ?_, ?_⟩ <;> intro o ho _ <;> obtain ⟨i, hi, rfl⟩ := mem_ops.1 ho
    · exact hax i hi
    · rw [(hc i hi).2]
      exact Nat.mul_pos (hs₁ i hi) (hs₂ i hi)
    · rw [(hc i hi).1, composed_length]
      exact (windowCount_composed (hs₁ i hi) (hs₂ i hi) (List.length_pos_iff.2 (hf i hi).1) (List.length_pos_iff.2 (hf i hi).2.1)
        (hf i hi).2.2.1 ((hf i hi).2.2.2.trans (hwc i hi).ge)).1
  refine ⟨h1, h2, h3, ?_⟩
  have e1 : g₁.ops axes = (twices g₁ g₂ axes).map Twice.first := by
    rw [twices, List.map_map]; rfl
  have e2 : g₂.ops axes = (twices g₁ g₂ axes).map Twice.second := by
    rw [twices, List.map_map]; rfl
  have e3 : g.ops axes = (twices g₁ g₂ axes).map Twice.both := by
    rw [twices, List.map_map, PoolArgs.ops]
    apply List.map_congr_left
    intro i hi
    have := hc i (List.mem_range.1 hi)
    simp only [Function.comp, Twice.both, ← this.1, ← this.2]
    rfl
  rw [e1, e2, e3]
  apply poolSeq_twice
  · rw [twices, List.map_map]
    have := ops_axis g₁ axes
    rw [PoolArgs.ops, List.map_map] at this
    rw [show ((fun t : Twice α => t.axis) ∘ fun i => (⟨axes.getD i 0, (g₁.op axes i).kernel, (g₁.op axes i).stride, (g₂.op axes i).kernel,
      (g₂.op axes i).stride⟩ : Twice α)) = (fun o : PoolOp α => o.axis) ∘ g₁.op axes from rfl, this]
    exact hnd
  · intro t ht
    obtain ⟨i, hi, rfl⟩ := List.mem_map.1 ht
    have hi := List.mem_range.1 hi
    exact ⟨hax i hi, (hf i hi).1, (hf i hi).2.1, hs₁ i hi, hs₂ i hi, (hf i hi).2.2.1, (hf i hi).2.2.2.trans (hwc i hi).ge⟩

/-- **C90.** Pooling the result of a pooling again (same axes, no padder) is one pooling with the composed weights and the product
of the strides. -/
theorem C90_twice (h₁ : Built pool₁ g₁ m₁) (h₂ : Built pool₂ g₂ m₂) (h : Built pool g m) (hax : axesOf x.ndim ax = some axes)
    (hnd : axes.Nodup) (hm₁ : g₁.isMany = true → axes.length = m₁) (hm₂ : g₂.isMany = true → axes.length = m₂)
    (hm : g.isMany = true → axes.length = m) (hf : FitTwice g₁ g₂ axes x.shape) (hc : ComposedOf g₁ g₂ g axes)
    (junk junk' junk'' : List Nat → α) :
    ∃ y z, SepPool.forward pool₁ none junk x ax = (none, .ok y) ∧ SepPool.forward pool₂ none junk' y ax = (none, .ok z) ∧
      SepPool.forward pool none junk'' x ax = (none, .ok z) := by
  obtain ⟨p1, p2, p3, e⟩ := poolSeq_composed hnd (checkAxes_spec hax).2
    (fun i hi => op_stride_pos h₁.poolIs.2.2 (h₁.poolIs.1.fits_axes hm₁) hi (hf i hi).1)
    (fun i hi => op_stride_pos h₂.poolIs.2.2 (h₂.poolIs.1.fits_axes hm₂) hi (hf i hi).2.1) hf hc
  refine ⟨_, _, h₁.poolIs.1.forward_none hax hm₁ p1.fitting junk,
    h₂.poolIs.1.forward_none (by rw [poolSeq_ndim]; exact hax) hm₂ p2.fitting junk', ?_⟩
  rw [h.poolIs.1.forward_none hax hm p3.fitting junk'', e]

/-- **C90**: the one pooling can be written down explicitly -/
theorem C90_constructor (h₁ : Built pool₁ g₁ m₁) (h₂ : Built pool₂ g₂ m₂) (hax : axesOf x.ndim ax = some axes)
    (hne : axes ≠ []) (hnd : axes.Nodup) (hm₁ : g₁.isMany = true → axes.length = m₁) (hm₂ : g₂.isMany = true → axes.length = m₂)
    (hf : FitTwice g₁ g₂ axes x.shape) (junk junk' junk'' : List Nat → α) :
    ∃ pool y z, SepPool.init (.seq ((List.range axes.length).map fun i => PoolArgs.pyKernel
          (composed (g₁.op axes i).kernel (g₁.op axes i).stride (g₂.op axes i).kernel)))
        (.seq ((List.range axes.length).map fun i => .leaf (some (((g₁.op axes i).stride * (g₂.op axes i).stride : Nat) : Int)))) = .ok pool ∧
      SepPool.forward pool₁ none junk x ax = (none, .ok y) ∧ SepPool.forward pool₂ none junk' y ax = (none, .ok z) ∧
      SepPool.forward pool none junk'' x ax = (none, .ok z) := by
  let g : PoolArgs α := ⟨.many ((List.range axes.length).map fun i => composed (g₁.op axes i).kernel (g₁.op axes i).stride (g₂.op axes i).kernel),
    .many ((List.range axes.length).map fun i => some ((g₁.op axes i).stride * (g₂.op axes i).stride))⟩
  have hs₁ := fun i hi => op_stride_pos h₁.poolIs.2.2 (h₁.poolIs.1.fits_axes hm₁) (i := i) hi (hf i hi).1
  have hs₂ := fun i hi => op_stride_pos h₂.poolIs.2.2 (h₂.poolIs.1.fits_axes hm₂) (i := i) hi (hf i hi).2.1
  have hg : g.Fits axes.length := ⟨by simp [g, Given.Fits], by simp [g, Given.Fits]⟩
  have hv : g.Valid := by
    intro s hs
    obtain ⟨i, hi, rfl⟩ := List.mem_map.1 hs
    have hi := List.mem_range.1 hi
    have := Nat.mul_pos (hs₁ i hi) (hs₂ i hi)
    simp only [ne_eq, Option.some.injEq]
    omega
  obtain ⟨pool, e, hb⟩ := C30_constructor (List.length_pos_iff.2 hne) hg hv
  have hc : ComposedOf g₁ g₂ g axes := by
    intro i hi
    simp [g, PoolArgs.op, Given.entry, hi]
  obtain ⟨y, z, r⟩ := C90_twice h₁ h₂ hb hax hnd hm₁ hm₂ (fun _ => rfl) hf hc junk junk' junk''
  refine ⟨pool, y, z, ?_, r⟩
  simpa [g, Given.toPy, List.map_map, Function.comp_def, PoolArgs.pyStride] using e

end

/-! ### averages -/

theorem composed_avg {k l : Nat} (hk : 0 < k) (hl : 0 < l) : composed (avgKernel k : List α) k (avgKernel l) = avgKernel (k * l) := by
  have hlen : (composed (avgKernel k : List α) k (avgKernel l)).length = k * l := by
    rw [composed_length, avgKernel_length, avgKernel_length]
    obtain ⟨l, rfl⟩ := Nat.exists_eq_succ_of_ne_zero hl.ne'
    simp
    ring
  apply List.ext_getElem (by rw [hlen, avgKernel_length])
  intro j hj _
  have hj' : j < k * l := by rw [hlen] at hj; exact hj
  have hq : j / k < l := Nat.div_lt_of_lt_mul hj'
  simp only [composed, List.getElem_map, List.getElem_range, avgKernel_length]
  have e : ((List.range l).map fun b => (avgKernel l : List α).getD b 0 * if b * k ≤ j then (avgKernel k : List α).getD (j - b * k) 0 else 0) =
      (List.range l).map fun b => if b = j / k then (1 / (l : α)) * (1 / (k : α)) else 0 := by
    apply List.map_congr_left
    intro b hb
    have hb := List.mem_range.1 hb
    have e1 : (avgKernel l : List α).getD b 0 = 1 / l := by simp [avgKernel, hb]
    rw [e1]
    have hdiv := Nat.div_add_mod j k
    have hmod := Nat.mod_lt j hk
    split_ifs with h1 h2 h2
    · have : j - b * k < k := by
        subst h2
        rw [Nat.mul_comm]
        omega
      congr 1
      simp [avgKernel, this]
    · have : k ≤ j - b * k := by
        have hb' : b < j / k := lt_of_le_of_ne ((Nat.le_div_iff_mul_le hk).2 h1) h2
        have : (b + 1) * k ≤ j := (Nat.le_div_iff_mul_le hk).1 hb'
        rw [Nat.add_mul, Nat.one_mul] at this
        omega
      have : (avgKernel k : List α).getD (j - b * k) 0 = 0 := by
        rw [List.getD_eq_getElem?_getD, List.getElem?_eq_none (by rw [avgKernel_length]; exact this)]
        rfl
      rw [this, mul_zero]
    · exfalso
      apply h1
      rw [h2]
      exact Nat.div_mul_le_self j k
    · rw [mul_zero]
  rw [e]
  have : ((List.range l).map fun b => if b = j / k then (1 / (l : α)) * (1 / (k : α)) else 0).sum = (1 / (l : α)) * (1 / (k : α)) := by
    rw [List.sum_map_ite_eq]
    rw [List.count_eq_one_of_mem List.nodup_range (List.mem_range.2 hq)]
    simp
  rw [this]
  simp [avgKernel]

theorem avgArgs_stride (s : Given Nat) (axes : List Nat) (i : Nat) : ((avgArgs α s (.one none)).op axes i).stride = s.entry 0 i := by
  have : ((avgArgs α s (.one none)).op axes i).stride = ((avgArgs α s (.one none)).op axes i).kernel.length := rfl
  rw [this, avgArgs_kernel, avgKernel_length]

theorem avg_twice {k l kl : Given Nat} {axes shape : List Nat}
    (hk : ∀ i < axes.length, 0 < k.entry 0 i ∧ 0 < l.entry 0 i ∧ kl.entry 0 i = k.entry 0 i * l.entry 0 i ∧
      kl.entry 0 i ≤ shape.getD (axes.getD i 0) 0) :
    FitTwice (avgArgs α k (.one none)) (avgArgs α l (.one none)) axes shape ∧
      ComposedOf (avgArgs α k (.one none)) (avgArgs α l (.one none)) (avgArgs α kl (.one none)) axes ∧
      (∀ i < axes.length, 0 < ((avgArgs α k (.one none)).op axes i).stride) ∧
      ∀ i < axes.length, 0 < ((avgArgs α l (.one none)).op axes i).stride := by
  refine ⟨?_, ?_, fun i hi => by rw [avgArgs_stride]; exact (hk i hi).1, fun i hi => by rw [avgArgs_stride]; exact (hk i hi).2.1⟩
  · intro i hi
    obtain ⟨h1, h2, h3, h4⟩ := hk i hi
    simp only [avgArgs_stride, avgArgs_kernel, avgKernel_length, ← List.length_pos_iff]
    rw [h3] at h4
    have : k.entry 0 i ≤ k.entry 0 i * l.entry 0 i := Nat.le_mul_of_pos_right _ h2
    refine ⟨h1, h2, by omega, ?_⟩
    have : l.entry 0 i - 1 ≤ (shape.getD (axes.getD i 0) 0 - k.entry 0 i) / k.entry 0 i := by
      rw [Nat.le_div_iff_mul_le h1, Nat.sub_mul, Nat.mul_comm (l.entry 0 i)]
      omega
    omega
  · intro i hi
    obtain ⟨h1, h2, h3, h4⟩ := hk i hi
    simp only [avgArgs_stride, avgArgs_kernel]
    rw [h3]
    exact ⟨(composed_avg h1 h2).symm, rfl⟩

/-- **C90**, averages: averaging blocks of size `k` and then blocks of size `l` of the averages is averaging blocks of size `k · l`
(one size for all axes or one per axis; strides are the block sizes). -/
theorem C90_averages {k l kl : Given Nat} {m₁ m₂ m : Nat} {pool₁ pool₂ pool : SepPool α}
    (h₁ : Built pool₁ (avgArgs α k (.one none)) m₁) (h₂ : Built pool₂ (avgArgs α l (.one none)) m₂) (h : Built pool (avgArgs α kl (.one none)) m)
    (hax : axesOf x.ndim ax = some axes) (hnd : axes.Nodup) (hm₁ : k.isMany = true → axes.length = m₁)
    (hm₂ : l.isMany = true → axes.length = m₂) (hm : kl.isMany = true → axes.length = m)
    (hk : ∀ i < axes.length, 0 < k.entry 0 i ∧ 0 < l.entry 0 i ∧ kl.entry 0 i = k.entry 0 i * l.entry 0 i ∧
      kl.entry 0 i ≤ x.shape.getD (axes.getD i 0) 0)
    (junk junk' junk'' : List Nat → α) :
    ∃ y z, SepPool.forward pool₁ none junk x ax = (none, .ok y) ∧ SepPool.forward pool₂ none junk' y ax = (none, .ok z) ∧
      SepPool.forward pool none junk'' x ax = (none, .ok z) := by
  have hmany : ∀ s : Given Nat, (avgArgs α s (.one none)).isMany = s.isMany := by
    intro s
    cases s <;> rfl
  have := avg_twice (α := α) hk
  exact C90_twice h₁ h₂ h hax hnd (fun e => hm₁ (hmany k ▸ e)) (fun e => hm₂ (hmany l ▸ e)) (fun e => hm (hmany kl ▸ e)) this.1 this.2.1
    junk junk' junk''

/-- do `f` `n` times -/
def Spec.repeated {β : Type} (f : β → Except Err β) : Nat → β → Except Err β
  | 0, x => .ok x
  | n + 1, x => f x >>= repeated f n

theorem halved_ops (axes : List Nat) : (avgArgs α (.one 2) (.one none)).ops axes = (halver (α := α)).ops axes := by
  apply List.map_congr_left
  intro i _
  simp [PoolArgs.op, avgArgs, Given.map, Given.entry, halver, avgKernel, List.replicate]

theorem slide_single {x : Tensor α} {a : Nat} : slide x ⟨a, [1], 1⟩ = x := by
  have hsh : (slide x ⟨a, [1], 1⟩).shape = x.shape := by
    rw [slide_shape]
    simp only [reduceCtorEq, if_false, List.length_singleton]
    have : windowCount (x.shape.getD a 0) 1 1 1 = x.shape.getD a 0 := by
      rw [windowCount_eq Nat.one_pos]
      split_ifs <;> omega
    rw [this, set_getD_self]
  apply ext_get hsh
  intro ix hix
  rw [slide_get (by simp) hix]
  have : ix.set a (ix.getD a 0) = ix := set_getD_self
  simp only [List.length_singleton, List.range_one, List.map_cons, List.map_nil, List.sum_cons, List.sum_nil, add_zero, Nat.mul_one, this]
  simp

theorem poolSeq_single : ∀ {ops : List (PoolOp α)} {x : Tensor α}, (∀ o ∈ ops, o.axis < x.ndim ∧ o.kernel = [1] ∧ o.stride = 1) →
    poolSeq x ops = x
  | [], _, _ => rfl
  | o :: ops, x, h => by
    obtain ⟨h1, h2, h3⟩ := h o (by simp)
    have e : slide x o = x := by
      rw [show o = ⟨o.axis, [1], 1⟩ by rw [← h2, ← h3]]
      exact slide_single
    show poolSeq (slide x o) ops = x
    rw [e]
    exact poolSeq_single fun p hp => h p (by simp [hp])

theorem downsample_times : ∀ (n : Nat) {x : Tensor α}, axes.Nodup → (∀ a ∈ axes, a < x.ndim) → (∀ a ∈ axes, 2 ^ n ≤ x.shape.getD a 0) →
    ∀ junk : List Nat → α, repeated (fun y => SSIM.downsample junk y (castV axes)) n x =
      .ok (poolSeq x ((avgArgs α (.one (2 ^ n)) (.one none)).ops axes))
  | 0, x, hnd, hlt, _, _ => by
    rw [repeated, poolSeq_single]
    intro o ho
    obtain ⟨i, hi, rfl⟩ := mem_ops.1 ho
    exact ⟨hlt _ (getD_mem_lt hi), by simp [PoolArgs.op, avgArgs, Given.map, Given.entry, avgKernel], by
      simp [PoolArgs.op, avgArgs, Given.map, Given.entry, avgKernel]⟩
  | n + 1, x, hnd, hlt, hsz, junk => by
    have h2 : ∀ a ∈ axes, 2 ≤ x.shape.getD a 0 := by
      intro a ha
      have := hsz a ha
      rw [pow_succ] at this
      have := Nat.one_le_two_pow (n := n)
      omega
    rw [repeated, downsample_eq hnd hlt h2 junk]
    show repeated _ n (halved axes x) = _
    rw [downsample_times n hnd (by rw [halved_ndim]; exact hlt) (by
      intro a ha
      rw [halved_size hnd hlt h2, if_pos ha]
      have := hsz a ha
      rw [pow_succ] at this
      omega) junk]
    rw [show halved axes x = poolSeq x ((halver (α := α)).ops axes) from rfl, ← halved_ops]
    congr 1
    have := avg_twice (α := α) (k := .one 2) (l := .one (2 ^ n)) (kl := .one (2 ^ (n + 1))) (axes := axes) (shape := x.shape) (by
      intro i hi
      refine ⟨by simp [Given.entry], by simp [Given.entry], by simp [Given.entry, pow_succ, Nat.mul_comm], ?_⟩
      exact hsz _ (getD_mem_lt hi))
    exact (poolSeq_composed hnd hlt this.2.2.1 this.2.2.2 this.1 this.2.1).2.2.2

/-- **C90**, the levels of MS-SSIM: downsampling `n` times is averaging blocks of `2 ^ n` samples along every axis, once -/
theorem C90_levels {m n : Nat} {pool : SepPool α} (h : Built pool (avgArgs α (.one (2 ^ n)) (.one none)) m) (hnd : axes.Nodup)
    (hlt : ∀ a ∈ axes, a < x.ndim) (hsz : ∀ a ∈ axes, 2 ^ n ≤ x.shape.getD a 0) (junk junk' : List Nat → α) :
    ∃ z, repeated (fun y => SSIM.downsample junk y (castV axes)) n x = .ok z ∧
      SepPool.forward pool none junk' x (.seq (castV axes)) = (none, .ok z) := by
  refine ⟨_, downsample_times n hnd hlt hsz junk, ?_⟩
  have hax : axesOf x.ndim (.seq (castV axes)) = some axes := normAxes_castV hlt
  refine h.poolIs.1.forward_none hax (fun e => by cases e) (h.poolOps hax (fun e => by cases e) hnd ?_).fitting junk'
  intro o ho
  obtain ⟨i, hi, rfl⟩ := mem_ops.1 ho
  rw [avgArgs_kernel, avgKernel_length]
  exact hsz _ (getD_mem_lt hi)

/-- **C90**: the constructor builds the averaging poolings spoken of above -/
theorem C90_built {k : Given Nat} {m : Nat} (hm : 0 < m) (hk : k.Fits m) :
    ∃ pool : SepPool α, SepPool.avgInit (k.toPy fun k : Nat => .leaf (some (k : Int))) (.leaf none) = .ok pool ∧
      Built pool (avgArgs α k (.one none)) m := by
  obtain ⟨pool, e, hb, _⟩ := C34_average_kernels (α := α) (size := k) (st := .one none) hm hk trivial (by simp [Given.values])
  exact ⟨pool, e, hb⟩

/-- two windows `[1, -2]` and `[1, 2, 3]`, the first at distance 2 -/
example : composed ([1, -2] : List ℚ) 2 [1, 2, 3] = [1, -2, 2, -4, 3, -6] := by decide +kernel

/-- overlapping windows: the weights of the binomial filter -/
example : composed ([1, 1] : List ℚ) 1 (composed [1, 1] 1 [1, 1]) = [1, 3, 3, 1] := by decide +kernel

/-- a 5×6 image averaged in blocks of 2 and these in blocks of 1×3 -/
example (x : Tensor ℚ) (hx : x.shape = [5, 6]) (junk : List Nat → ℚ) : ∃ (p₁ p₂ p : SepPool ℚ) (y z : Tensor ℚ),
    SepPool.avgInit (.leaf (some 2)) (.leaf none) = .ok p₁ ∧ SepPool.avgInit (.seq [.leaf (some 1), .leaf (some 3)]) (.leaf none) = .ok p₂ ∧
    SepPool.avgInit (.seq [.leaf (some 2), .leaf (some 6)]) (.leaf none) = .ok p ∧
    SepPool.forward p₁ none junk x .none = (none, .ok y) ∧ SepPool.forward p₂ none junk y .none = (none, .ok z) ∧
    SepPool.forward p none junk x .none = (none, .ok z) := by
  obtain ⟨p₁, e₁, h₁⟩ := C90_built (α := ℚ) (k := .one 2) (m := 2) (by decide) trivial
  obtain ⟨p₂, e₂, h₂⟩ := C90_built (α := ℚ) (k := .many [1, 3]) (m := 2) (by decide) rfl
  obtain ⟨p, e, h⟩ := C90_built (α := ℚ) (k := .many [2, 6]) (m := 2) (by decide) rfl
  obtain ⟨y, z, r⟩ := C90_averages (x := x) (ax := .none) (axes := [0, 1]) h₁ h₂ h (by simp only [ndim, hx]; decide) (by decide)
    (fun e => by cases e) (fun _ => rfl) (fun _ => rfl) (by
      intro i hi
      have hi : i < 2 := hi
      rw [hx]
      interval_cases i <;> simp [Given.entry]) junk junk junk
  exact ⟨p₁, p₂, p, y, z, e₁, e₂, e, r⟩

/-- three levels of an image of 17×8 samples -/
example (x : Tensor ℚ) (hx : x.shape = [17, 8]) (junk : List Nat → ℚ) : ∃ (p : SepPool ℚ) (z : Tensor ℚ),
    SepPool.avgInit (.leaf (some 8)) (.leaf none) = .ok p ∧ repeated (fun y => SSIM.downsample junk y [0, 1]) 3 x = .ok z ∧
      SepPool.forward p none junk x (.seq [0, 1]) = (none, .ok z) := by
  obtain ⟨p, e, h⟩ := C90_built (α := ℚ) (k := .one (2 ^ 3)) (m := 2) (by decide) trivial
  obtain ⟨z, r⟩ := C90_levels (x := x) (axes := [0, 1]) h (by decide) (by simp only [ndim, hx]; decide) (by rw [hx]; decide) junk junk
  exact ⟨p, z, e, r⟩

end TI
