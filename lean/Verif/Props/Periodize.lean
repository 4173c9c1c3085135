import Verif.Proofs.Periodize
import Verif.Props.PadMisc
import Verif.Props.Pool

/-!
# Axes of odd size in mode `periodize` (C22 and C31 in full)
-/

set_option linter.unusedSectionVars false

namespace TI

open Tensor Spec

/-! ## C22 -/

section
variable {α : Type} [Field α] [LinearOrder α] [IsStrictOrderedRing α] {p : Padder α} {x : Tensor α} {s : AxisPad α} {a : Nat} {axis : Int}

theorem Spec.PadCall.axis_eq (h : PadCall p x (.int axis) [a] [s]) : normAxis x.ndim axis = some a := by
  have := h.axes_eq
  simp only [axesOf, normAxes] at this
  split at this
  · rename_i k ks h1 h2
    cases h2
    simp only [Option.some.injEq, List.cons.injEq, and_true] at this
    rw [h1, this]
  · cases this

/-- **C22** in the remaining case, `periodize` on an axis of odd size `n`: `forward` repeats the last sample once more.  `pad_axis` returns this result without its last sample if samples are added
after, if exactly two are added before, or if `n = 1` and an even number is added before; else it raises RuntimeError. -/
theorem C22_pad_axis_odd (h : PadCall p x (.int axis) [a] [s]) (hmode : s.mode = .periodize) (hz : ¬ (s.before = 0 ∧ s.after = 0)) (hodd : x.shape.getD a 0 % 2 = 1)
    (junk junk' : List Nat → α) :
    ∃ z, p.forward junk' x (.int axis) = .ok z ∧ z.shape = x.shape.set a (s.before + x.shape.getD a 0 + s.after + 1) ∧
      if 0 < s.after ∨ s.before = 2 ∨ x.shape.getD a 0 = 1 ∧ s.before % 2 = 0 then
        ∃ y, p.padAxis junk x (-1) axis = .ok y ∧ y.shape = x.shape.set a (s.before + x.shape.getD a 0 + s.after) ∧ ∀ ix, InB y.shape ix → y.get ix = z.get ix
      else p.padAxis junk x (-1) axis = .error .runtime := by
  have hzr : zipRight [a] [s] = [(a, s)] := rfl
  have hal : a < x.shape.length := normAxis_lt h.axis_eq
  have hz1 : padSeq x (zipRight [a] [s]) = extendAxis Spec.periodize a s.before (s.after + 1) x := by
    rw [hzr]
    simp only [padSeq, List.foldl_cons, List.foldl_nil, padStep, if_neg hz, AxisPad.rule?, hmode, AxisPad.total, Mode.isPeriodize, if_true, hodd]
  refine ⟨_, forward_call h junk', by rw [hz1]; rfl, ?_⟩
  rw [padAxis_periodize (s := s) (a := a) (by simpa using h.reads 0 (by simp)) h.axis_eq hmode hz hodd, hz1]
  split_ifs with hc
  · refine ⟨_, rfl, rfl, ?_⟩
    intro ix hix
    have hix' : InB (x.shape.set a (s.before + x.shape.getD a 0 + s.after)) ix := hix
    have hl := hix'.lt (k := a) (by simpa using hal)
    rw [getD_set_self _ _ _ _ hal] at hl
    have hix2 : InB (x.shape.set a (s.before + x.shape.getD a 0 + (s.after + 1))) ix := by
      have := hix'.set (d := a) (i := ix.getD a 0) (m := s.before + x.shape.getD a 0 + (s.after + 1)) (by omega)
      rwa [set_getD_self] at this
    rw [extendAxis, get_ofFn hix', extendAxis, get_ofFn hix2]
  · rfl

/-- **C22**, exactly: `pad_axis` and `forward` on one axis agree unless samples are added to an axis of odd size in mode `periodize`. -/
theorem C22_pad_axis_iff (h : PadCall p x (.int axis) [a] [s]) (junk junk' : List Nat → α) :
    p.padAxis junk x (-1) axis = p.forward junk' x (.int axis) ↔ ¬ (s.mode = .periodize ∧ x.shape.getD a 0 % 2 = 1 ∧ ¬ (s.before = 0 ∧ s.after = 0)) := by
  constructor
  · rintro he ⟨hm, ho, hz⟩
    obtain ⟨z, h1, h2, h3⟩ := C22_pad_axis_odd h hm hz ho junk junk'
    rw [he, h1] at h3
    split_ifs at h3
    obtain ⟨y, e1, e2, _⟩ := h3
    cases e1
    have := congrArg (fun l => l.getD a 0) (h2.symm.trans e2)
    simp only [getD_set_self _ _ _ _ (show a < x.shape.length from normAxis_lt h.axis_eq)] at this
    omega
  · intro hn
    by_cases hz : s.before = 0 ∧ s.after = 0
    · have hzr : zipRight [a] [s] = [(a, s)] := rfl
      rw [forward_call h, hzr]
      simp only [padSeq, List.foldl_cons, List.foldl_nil, padStep, if_pos hz]
      have hr : Reads p (-1) s := by simpa using h.reads 0 (by simp)
      simp only [Padder.padAxis, hr.width, bind, Except.bind]
      rw [if_pos (by omega)]
      rfl
    · refine C22_pad_axis_forward_partial h ?_ junk junk'
      intro hm
      have : s.mode = .periodize := by
        cases hs : s.mode <;> rw [hs] at hm <;> first | rfl | cases hm
      by_contra ho
      exact hn ⟨this, by omega, hz⟩

end

namespace Example

/-- `Padder(pad_width=(before, after), mode="periodize")` -/
def oddPadder (b a : Nat) : Padder ℚ := (⟨.one (b, a), .one .periodize, .one (0, 0), .one (0, 0), .one (none, none)⟩ : PadArgs ℚ).padder 1

/-- its setting for every axis -/
def oddSetting (b a : Nat) : AxisPad ℚ := ⟨b, a, .periodize, (0, 0), (0, 0), (none, none)⟩

theorem oddCall (b a : Nat) : PadCall (oddPadder b a) x3 (.int 0) [0] [oddSetting b a] where
  ndim_ne := by decide
  axes_eq := by decide
  nodup := by decide
  len := rfl
  reads := by
    intro j h
    obtain rfl : j = 0 := by simpa using h
    exact ⟨rfl, rfl, rfl, rfl, rfl⟩
  valued := by
    intro o ho _
    obtain rfl : o = (0, oddSetting b a) := by simpa [zipRight] using ho
    exact ⟨by simp [AxisPad.rule?, oddSetting], by simp [oddSetting], show 0 < 3 by decide⟩

end Example

/-- one sample before three: `forward` returns five samples, `pad_axis` raises -/
example (junk junk' : List Nat → ℚ) : (∃ z, (Example.oddPadder 1 0).forward junk' Example.x3 (.int 0) = .ok z ∧ z.shape = [5]) ∧
    (Example.oddPadder 1 0).padAxis junk Example.x3 (-1) 0 = .error .runtime := by
  obtain ⟨z, h1, h2, h3⟩ := C22_pad_axis_odd (Example.oddCall 1 0) rfl (by decide) (by decide) junk junk'
  rw [if_neg (by decide)] at h3
  exact ⟨⟨z, h1, h2⟩, h3⟩

/-- one sample on both sides: `forward` returns six samples, `pad_axis` the first five of them -/
example (junk junk' : List Nat → ℚ) : ∃ z y, (Example.oddPadder 1 1).forward junk' Example.x3 (.int 0) = .ok z ∧ z.shape = [6] ∧
    (Example.oddPadder 1 1).padAxis junk Example.x3 (-1) 0 = .ok y ∧ y.shape = [5] ∧ y.get [4] = z.get [4] := by
  obtain ⟨z, h1, h2, h3⟩ := C22_pad_axis_odd (Example.oddCall 1 1) rfl (by decide) (by decide) junk junk'
  rw [if_pos (by decide)] at h3
  obtain ⟨y, h4, h5, h6⟩ := h3
  exact ⟨z, y, h1, h2, h4, h5, h6 [4] (by rw [h5]; decide)⟩

/-- the two methods differ on three samples -/
example (junk junk' : List Nat → ℚ) : (Example.oddPadder 2 0).padAxis junk Example.x3 (-1) 0 ≠ (Example.oddPadder 2 0).forward junk' Example.x3 (.int 0) := by
  intro h
  exact (C22_pad_axis_iff (Example.oddCall 2 0) junk junk').1 h ⟨rfl, by decide, by decide⟩

/-! ## C31 -/

section
variable {α : Type} [Field α] [LinearOrder α] [IsStrictOrderedRing α] {pool pool' : SepPool α} {g : PoolArgs α} {m : Nat} {x : Tensor α} {ax : Axes} {axes : List Nat}

/-- windows of a same-padded axis with one more sample -/
theorem sameTotal_windows_succ {k s n : Nat} (hk : 0 < k) (hs : 0 < s) (hn : 0 < n) (ht : PoolArgs.sameTotal k s n ≠ 0) :
    windowCount (n + PoolArgs.sameTotal k s n + 1) k s 1 = ceilDiv n s + if s = 1 then 1 else 0 := by
  rw [PoolArgs.sameTotal] at ht ⊢
  rw [windowCount_eq hs, Nat.one_mul]
  obtain ⟨c1, c2, c3⟩ := ceilDiv_bounds hs hn
  generalize hc : ceilDiv n s = c at *
  obtain ⟨c, rfl⟩ : ∃ c', c = c' + 1 := ⟨c - 1, by omega⟩
  simp only [Nat.add_sub_cancel] at c2 c3
  have e : ((c + 1 : Nat) : Int) * s - s + k - n = ((c * s : Nat) : Int) + k - n := by push_cast; ring
  rw [e] at ht ⊢
  have hX : n + (((c * s : Nat) : Int) + k - n).toNat + 1 - (k - 1) - 1 = c * s + 1 := by
    generalize c * s = q at *
    omega
  rw [if_pos (by omega), hX]
  by_cases h1 : s = 1
  · subst h1
    rw [if_pos rfl, Nat.div_one]
    omega
  · rw [if_neg h1, Nat.add_zero, Nat.mul_comm, Nat.mul_add_div hs, Nat.div_eq_of_lt (by omega), Nat.add_zero]

/-- **C31** with a same padder in any mode: axes with stride `s` get `⌈n/s⌉` entries, one more exactly if the mode is `periodize`, `n` is odd, the stride is 1 and the kernel has at least two weights;
all others keep their size. -/
theorem C31_same_shape {gp : PadArgs α} {p : Padder α} (hb : Built pool g m) (hc : SameCall g gp x ax axes) (hm : g.isMany = true → axes.length = m) (hp : Holds p gp)
    (junk : List Nat → α) :
    ∃ p' z, SepPool.forward pool (some p) junk x ax = (p', .ok z) ∧ z.ndim = x.ndim ∧
      (∀ i < axes.length, (g.op axes i).kernel ≠ [] → z.shape.getD (axes.getD i 0) 0 = ceilDiv (x.shape.getD (axes.getD i 0) 0) (g.op axes i).stride +
        if (gp.mode.entry .unknown i).isPeriodize = true ∧ x.shape.getD (axes.getD i 0) 0 % 2 = 1 ∧ (g.op axes i).stride = 1 ∧ 2 ≤ (g.op axes i).kernel.length then 1 else 0) ∧
      (∀ k, (∀ i < axes.length, axes.getD i 0 = k → (g.op axes i).kernel = []) → z.shape.getD k 0 = x.shape.getD k 0) := by
  have hpo := hc.poolOps
  have hnd : ((sameOps g gp x.shape axes).map Prod.fst).Nodup := by rw [sameOps_fst]; exact hc.nodup
  have hsize : ∀ i < axes.length, ∀ T, T = PoolArgs.sameTotal (g.op axes i).kernel.length (g.op axes i).stride (x.shape.getD (axes.getD i 0) 0) →
      (padSeq x (sameOps g gp x.shape axes)).shape.getD (axes.getD i 0) 0 = x.shape.getD (axes.getD i 0) 0 + T +
        if T ≠ 0 ∧ (gp.mode.entry .unknown i).isPeriodize = true ∧ x.shape.getD (axes.getD i 0) 0 % 2 = 1 then 1 else 0 := by
    rintro i hi T rfl
    by_cases hper : (gp.mode.entry .unknown i).isPeriodize = false ∨ x.shape.getD (axes.getD i 0) 0 % 2 = 0
    · rw [hc.padded_size hi hper, if_neg, Nat.add_zero]
      rintro ⟨_, h1, h2⟩
      rw [h1] at hper
      rcases hper with h | h
      · cases h
      · omega
    · rw [not_or] at hper
      have hmode : gp.mode.entry .unknown i = .periodize := by
        cases hs : gp.mode.entry .unknown i <;> rw [hs] at hper <;> first | rfl | exact absurd rfl hper.1
      rw [hc.padded hi]
      have hb : (sameSetting g gp x.shape axes i).before = PoolArgs.sameTotal (g.op axes i).kernel.length (g.op axes i).stride
          (x.shape.getD (axes.getD i 0) 0) - PoolArgs.sameTotal (g.op axes i).kernel.length (g.op axes i).stride (x.shape.getD (axes.getD i 0) 0) / 2 := rfl
      have ha : (sameSetting g gp x.shape axes i).after = PoolArgs.sameTotal (g.op axes i).kernel.length (g.op axes i).stride
          (x.shape.getD (axes.getD i 0) 0) / 2 := rfl
      have hmm : (sameSetting g gp x.shape axes i).mode = .periodize := hmode
      rw [AxisPad.total, hmm, hb, ha]
      simp only [Mode.isPeriodize, if_true, hmode]
      generalize PoolArgs.sameTotal _ _ _ = t
      have h2 : x.shape.getD (axes.getD i 0) 0 % 2 = 1 := by omega
      simp only [h2, and_true]
      split_ifs <;> omega
  refine ⟨_, _, hb.poolIs.1.forward_same hc hm hp junk, ?_, ?_, ?_⟩
  · rw [poolSeq_ndim, padSeq_ndim hc.opsOK]
  · intro i hi hk
    rw [poolSeq_shape hpo, find_ops hc.nodup hi hk]
    simp only
    rw [hsize i hi _ rfl]
    have hk0 := List.length_pos_iff.2 hk
    have hs := hc.stride i hi
    have hn : 0 < x.shape.getD (axes.getD i 0) 0 := hc.pos _ (by simp [hi])
    by_cases hT : PoolArgs.sameTotal (g.op axes i).kernel.length (g.op axes i).stride (x.shape.getD (axes.getD i 0) 0) = 0
    · rw [if_neg (fun h => h.1 hT), Nat.add_zero, sameTotal_windows hk0 hs hn, if_neg, Nat.add_zero]
      rintro ⟨_, _, h3, h4⟩
      rw [PoolArgs.sameTotal, h3, ceilDiv_one] at hT
      omega
    · by_cases hp : (gp.mode.entry .unknown i).isPeriodize = true ∧ x.shape.getD (axes.getD i 0) 0 % 2 = 1
      · rw [if_pos ⟨hT, hp⟩, sameTotal_windows_succ hk0 hs hn hT]
        congr 1
        by_cases h1 : (g.op axes i).stride = 1
        · rw [if_pos h1, if_pos]
          refine ⟨hp.1, hp.2, h1, ?_⟩
          rw [PoolArgs.sameTotal, h1, ceilDiv_one] at hT
          omega
        · rw [if_neg h1, if_neg (fun h => h1 h.2.2.1)]
      · rw [if_neg (fun h => hp h.2), Nat.add_zero, sameTotal_windows hk0 hs hn, if_neg (fun h => hp ⟨h.1, h.2.1⟩), Nat.add_zero]
  · intro k hk
    rw [poolSeq_shape hpo, find_ops_none hk]
    simp only
    by_cases hmem : k ∈ axes
    · obtain ⟨i, hi, rfl⟩ := List.mem_iff_getElem.1 hmem
      have e : axes[i] = axes.getD i 0 := by simp [hi]
      rw [e] at hk ⊢
      have hk0 := hk i hi rfl
      have hs := hc.stride i hi
      have hn : 0 < x.shape.getD (axes.getD i 0) 0 := hc.pos _ (by simp [hi])
      have h0 : PoolArgs.sameTotal (g.op axes i).kernel.length (g.op axes i).stride (x.shape.getD (axes.getD i 0) 0) = 0 := by
        rw [hk0]
        obtain ⟨c1, c2, c3⟩ := ceilDiv_bounds hs hn
        generalize hcd : ceilDiv (x.shape.getD (axes.getD i 0) 0) (g.op axes i).stride = c at *
        obtain ⟨c, rfl⟩ : ∃ c', c = c' + 1 := ⟨c - 1, by omega⟩
        rw [PoolArgs.sameTotal, hcd]
        simp only [Nat.add_sub_cancel] at c2 c3
        have e : ((c + 1 : Nat) : Int) * (g.op axes i).stride - (g.op axes i).stride = ((c * (g.op axes i).stride : Nat) : Int) := by
          push_cast; ring
        rw [e]
        simp only [List.length_nil, Nat.cast_zero, add_zero]
        omega
      rw [hsize i hi 0 h0.symm, if_neg (fun h => h.1 rfl)]
      rfl
    · rw [padSeq_shape hc.opsOK hnd x hc.lt, settingAt_none (by rw [sameOps_fst]; exact hmem)]

/-- **C31**, filters: after `to_filter` a same-padded module keeps the shape exactly if no axis of odd size is filtered by two or more weights in mode `periodize`. -/
theorem C31_filter_shape_iff {gp : PadArgs α} {p : Padder α} (hb : Built pool g m) (hf : pool.toFilter = .ok pool') (hc : SameCall { g with stride := .one (some 1) } gp x ax axes)
    (hm : g.kernel.isMany = true → axes.length = m) (hp : Holds p gp) (junk : List Nat → α) :
    ∃ p' z, SepPool.forward pool' (some p) junk x ax = (p', .ok z) ∧
      (z.shape = x.shape ↔ ∀ i < axes.length, (gp.mode.entry .unknown i).isPeriodize = true → 2 ≤ (g.op axes i).kernel.length → x.shape.getD (axes.getD i 0) 0 % 2 = 0) := by
  obtain ⟨p', z, h1, h2, h3, h4⟩ := C31_same_shape (Built.filter hb hf) hc (by intro h; apply hm; simpa [PoolArgs.isMany, Given.isMany] using h) hp junk
  refine ⟨p', z, h1, ?_, ?_⟩
  · intro hz i hi hmode hk
    have hk' : (PoolArgs.op { g with stride := .one (some 1) } axes i).kernel ≠ [] := by
      intro h
      have h' : (g.op axes i).kernel = [] := h
      rw [h'] at hk
      simp at hk
    have h := h3 i hi hk'
    rw [hz] at h
    by_contra ho
    rw [if_pos ⟨hmode, by omega, rfl, hk⟩] at h
    have e : ceilDiv (x.shape.getD (axes.getD i 0) 0) (PoolArgs.op { g with stride := .one (some 1) } axes i).stride = x.shape.getD (axes.getD i 0) 0 := ceilDiv_one _
    omega
  · intro h
    apply list_ext_getD h2
    intro k _
    by_cases hk : ∀ i < axes.length, axes.getD i 0 = k → (PoolArgs.op { g with stride := .one (some 1) } axes i).kernel = []
    · exact h4 k hk
    · push Not at hk
      obtain ⟨i, hi, rfl, hk⟩ := hk
      rw [h3 i hi hk, if_neg, Nat.add_zero]
      · exact ceilDiv_one _
      · rintro ⟨q1, q2, _, q4⟩
        have := h i hi q1 q4
        omega

end

namespace Example

theorem sameCall_periodize (st : Nat) (hst : 0 < st) : SameCall (⟨.one [1, 1, 1], .one (some st)⟩ : PoolArgs ℚ) (modeArgs .periodize) x3 .none [0] where
  axes_eq := by decide
  ne := by decide
  nodup := by decide
  fits := by intro h; cases h
  rest := ⟨trivial, trivial, trivial, trivial⟩
  stride := by intro i _; exact hst
  pos := by decide
  valued := by
    intro o ho _
    obtain ⟨i, _, rfl⟩ := sameOps_mem ho
    exact ⟨by simp [sameSetting, AxisPad.rule?, modeArgs, Given.entry], by simp [sameSetting, modeArgs, Given.entry]⟩

/-- `SeparablePoolNd(kernel=[1, 1, 1], stride=2)` -/
def tri2 : SepPool ℚ := { tri with stride := ⟨.leaf (some 2), [], 0⟩ }

theorem tri2_built : Built tri2 ⟨.one [1, 1, 1], .one (some 2)⟩ 1 :=
  .separable (by decide) ⟨trivial, trivial⟩ (by intro s hs; simp [Given.values] at hs; simp [hs]) rfl

end Example

/-- three weights with stride 1 turn three periodized samples into four, with stride 2 into two -/
example (junk : List Nat → ℚ) : (∃ p' z, SepPool.forward Example.tri (some Example.periodizePadder) junk Example.x3 .none = (p', .ok z) ∧ z.shape.getD 0 0 = 4) ∧
    ∃ p' z, SepPool.forward Example.tri2 (some Example.periodizePadder) junk Example.x3 .none = (p', .ok z) ∧ z.shape.getD 0 0 = 2 := by
  constructor
  · obtain ⟨p', z, h1, _, h3, _⟩ := C31_same_shape Example.tri_built (Example.sameCall_periodize 1 (by decide)) (by intro h; cases h) (holds_padder _ 1) junk
    exact ⟨p', z, h1, h3 0 (by decide) (by decide)⟩
  · obtain ⟨p', z, h1, _, h3, _⟩ := C31_same_shape Example.tri2_built (Example.sameCall_periodize 2 (by decide)) (by intro h; cases h) (holds_padder _ 1) junk
    exact ⟨p', z, h1, h3 0 (by decide) (by decide)⟩

/-- so the filter does not keep the shape -/
example (junk : List Nat → ℚ) : ∃ pool' p' z, Example.tri2.toFilter = .ok pool' ∧ SepPool.forward pool' (some Example.periodizePadder) junk Example.x3 .none = (p', .ok z) ∧
    z.shape ≠ Example.x3.shape := by
  obtain ⟨p', z, h1, h2⟩ := C31_filter_shape_iff Example.tri2_built (pool' := Example.tri) rfl (Example.sameCall_periodize 1 (by decide)) (by intro h; cases h) (holds_padder _ 1) junk
  refine ⟨_, p', z, rfl, h1, ?_⟩
  rw [Ne, h2]
  intro h
  exact absurd (h 0 (by decide) rfl (by decide)) (by decide)

end TI
