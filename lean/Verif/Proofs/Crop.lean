import Verif.Model.Random
import Verif.Spec.Misc
import Verif.Proofs.NdSpecLaws
import Verif.Proofs.PadCall
import Verif.Proofs.Edges

/-!
# random_crop
-/

namespace TI
open Tensor Spec

variable {α : Type}

/-- `torch.randint(h)` returns a number below `h` -/
def GoodDraw (draw : Nat → Nat → Nat) : Prop := ∀ k h, 0 < h → draw k h < h

/-- a size as a Python value -/
def pySize (o : Option Nat) : Py (Option Int) := .leaf (o.map fun n : Nat => (n : Int))

/-- the index tuple after the loop, for the starts `b` -/
def idxAt (size : Nat → Option Nat) : Nat → (Nat → Nat) → List Nat → List PySlice → List PySlice
  | _, _, [], idx => idx
  | i, b, a :: as, idx => idxAt size (i + 1) (fun j => b (j + 1)) as (match size i with
    | none => idx
    | some l => idx.set a (.between (b 0 : Nat) ((b 0 : Nat) + (l : Nat))))

/-- the starts leave room for one sample more -/
def Inside (shape : List Nat) (size : Nat → Option Nat) (i : Nat) (b : Nat → Nat) (as : List Nat) : Prop :=
  ∀ j < as.length, ∀ l, size (i + j) = some l → b j + l < shape.getD (as.getD j 0) 0

/-- the specification `size[i]` gives the sizes -/
def SizeIs (S : NdSpec (Option Int)) (size : Nat → Option Nat) (m : Nat) : Prop := ∀ i < m, S.get (i : Int) = .ok (pySize (size i))

section
variable {S : NdSpec (Option Int)} {size : Nat → Option Nat} {m : Nat} {shape : List Nat}

theorem cropLoop_congr {d d' : Nat → Nat → Nat} : ∀ (as : List Int) (i k : Nat) (idx : List PySlice), (∀ q, k ≤ q → d q = d' q) →
    cropLoop d S shape i k as idx = cropLoop d' S shape i k as idx
  | [], i, k, idx, _ => rfl
  | a :: as, i, k, idx, h => by
    simp only [cropLoop]
    congr 1
    funext len
    match len with
    | .seq _ => rfl
    | .leaf none => exact cropLoop_congr as (i + 1) k idx h
    | .leaf (some l) =>
      simp only
      congr 1
      funext n
      split_ifs
      · rfl
      · rw [h k (le_refl k)]
        congr 1
        funext idx
        exact cropLoop_congr as (i + 1) (k + 1) idx fun q hq => h q (by omega)

theorem cropLoop_none {d : Nat → Nat → Nat} {i k a : Nat} {as : List Nat} {idx : List PySlice} (hS : S.get (i : Int) = .ok (pySize none)) :
    cropLoop d S shape i k (castV (a :: as)) idx = cropLoop d S shape (i + 1) k (castV as) idx := by
  have hc : castV (a :: as) = (a : Int) :: castV as := rfl
  simp [hc, cropLoop, hS, pySize, bind, Except.bind]

theorem cropLoop_some {d : Nat → Nat → Nat} {i k a l : Nat} {as : List Nat} {idx : List PySlice} (hS : S.get (i : Int) = .ok (pySize (some l)))
    (ha : a < shape.length) (hidx : idx.length = shape.length) :
    cropLoop d S shape i k (castV (a :: as)) idx = if shape.getD a 0 ≤ l then .error .runtime else
      cropLoop d S shape (i + 1) (k + 1) (castV as)
        (idx.set a (.between (d k (shape.getD a 0 - l) : Nat) ((d k (shape.getD a 0 - l) : Nat) + (l : Nat)))) := by
  have hc : castV (a :: as) = (a : Int) :: castV as := rfl
  have hn : pyIndex shape (a : Int) = .ok (shape.getD a 0) := by rw [pyIndex_nat ha]; simp [ha]
  have hput : ∀ v, pyAssign idx (a : Int) v = .ok (idx.set a v) := by
    intro v
    have h0 : ¬ ((a : Int) < 0) := by omega
    simp only [pyAssign, if_neg h0]
    rw [if_pos (by omega), Int.toNat_natCast]
  rw [hc]
  simp only [cropLoop, hS, pySize, Option.map_some, bind, Except.bind, hn]
  by_cases h : shape.getD a 0 ≤ l
  · rw [if_pos h, if_pos (by omega)]
  · rw [if_neg h, if_neg (by omega), hput]
    simp only
    have : ((shape.getD a 0 : Int) - (l : Int)).toNat = shape.getD a 0 - l := by omega
    rw [this]

theorem cropLoop_ok {d : Nat → Nat → Nat} (hd : GoodDraw d) : ∀ (as : List Nat) (i k : Nat) (idx : List PySlice), i + as.length ≤ m →
    SizeIs S size m → (∀ a ∈ as, a < shape.length) → idx.length = shape.length →
    (∀ j < as.length, ∀ l, size (i + j) = some l → l < shape.getD (as.getD j 0) 0) →
    ∃ b, Inside shape size i b as ∧ cropLoop d S shape i k (castV as) idx = .ok (idxAt size i b as idx)
  | [], i, k, idx, _, _, _, _, _ => ⟨fun _ => 0, fun j hj => by simp at hj, rfl⟩
  | a :: as, i, k, idx, hm, hS, ha, hidx, hl => by
    have hm' : i + 1 + as.length ≤ m := by simp at hm; omega
    have hl' : ∀ j < as.length, ∀ l, size (i + 1 + j) = some l → l < shape.getD (as.getD j 0) 0 := by
      intro j hj l h
      have := hl (j + 1) (by simpa using hj) l (by rw [← h]; congr 1; omega)
      simpa using this
    have hSi := hS i (by simp at hm; omega)
    cases hsz : size i with
    | none =>
      rw [hsz] at hSi
      obtain ⟨b, h1, h2⟩ := cropLoop_ok hd as (i + 1) k idx hm' hS (fun c hc => ha c (by simp [hc])) hidx hl'
      refine ⟨fun j => if j = 0 then 0 else b (j - 1), ?_, ?_⟩
      · intro j hj l h
        cases j with
        | zero => rw [Nat.add_zero, hsz] at h; cases h
        | succ j =>
          have := h1 j (by simpa using hj) l (by rw [← h]; congr 1; omega)
          simpa using this
      · rw [cropLoop_none hSi, h2]
        simp [idxAt, hsz]
    | some l =>
      rw [hsz] at hSi
      have hlt : l < shape.getD a 0 := by simpa using hl 0 (by simp) l (by simpa using hsz)
      rw [cropLoop_some hSi (ha a (by simp)) hidx, if_neg (by omega)]
      obtain ⟨b, h1, h2⟩ := cropLoop_ok hd as (i + 1) (k + 1)
        (idx.set a (.between (d k (shape.getD a 0 - l) : Nat) ((d k (shape.getD a 0 - l) : Nat) + (l : Nat)))) hm' hS
        (fun c hc => ha c (by simp [hc])) (by simpa using hidx) hl'
      refine ⟨fun j => if j = 0 then d k (shape.getD a 0 - l) else b (j - 1), ?_, ?_⟩
      · intro j hj l' h
        cases j with
        | zero =>
          rw [Nat.add_zero, hsz] at h
          cases h
          have := hd k (shape.getD a 0 - l) (by omega)
          simp only [if_true, List.getD_cons_zero]
          omega
        | succ j =>
          have := h1 j (by simpa using hj) l' (by rw [← h]; congr 1; omega)
          simpa using this
      · rw [h2]
        simp [idxAt, hsz]

theorem cropLoop_reach : ∀ (as : List Nat) (i k : Nat) (idx : List PySlice) (b : Nat → Nat), i + as.length ≤ m →
    SizeIs S size m → (∀ a ∈ as, a < shape.length) → idx.length = shape.length → Inside shape size i b as →
    ∃ d, GoodDraw d ∧ cropLoop d S shape i k (castV as) idx = .ok (idxAt size i b as idx)
  | [], i, k, idx, b, _, _, _, _, _ => ⟨fun _ _ => 0, fun _ _ h => h, rfl⟩
  | a :: as, i, k, idx, b, hm, hS, ha, hidx, hb => by
    have hm' : i + 1 + as.length ≤ m := by simp at hm; omega
    have hSi := hS i (by simp at hm; omega)
    have hb' : Inside shape size (i + 1) (fun j => b (j + 1)) as := by
      intro j hj l h
      have := hb (j + 1) (by simpa using hj) l (by rw [← h]; congr 1; omega)
      simpa using this
    cases hsz : size i with
    | none =>
      rw [hsz] at hSi
      obtain ⟨d, h1, h2⟩ := cropLoop_reach as (i + 1) k idx (fun j => b (j + 1)) hm' hS (fun c hc => ha c (by simp [hc])) hidx hb'
      refine ⟨d, h1, ?_⟩
      rw [cropLoop_none hSi, h2]
      simp [idxAt, hsz]
    | some l =>
      rw [hsz] at hSi
      have hlt : b 0 + l < shape.getD a 0 := by simpa using hb 0 (by simp) l (by simpa using hsz)
      obtain ⟨d, h1, h2⟩ := cropLoop_reach as (i + 1) (k + 1) (idx.set a (.between (b 0 : Nat) ((b 0 : Nat) + (l : Nat))))
        (fun j => b (j + 1)) hm' hS (fun c hc => ha c (by simp [hc])) (by simpa using hidx) hb'
      refine ⟨fun q h => if q = k then (if b 0 < h then b 0 else 0) else d q h, ?_, ?_⟩
      · intro q h hh
        simp only
        split_ifs with c1 c2
        · exact c2
        · exact hh
        · exact h1 q h hh
      · rw [cropLoop_some hSi (ha a (by simp)) hidx, if_neg (by omega)]
        simp only [if_true]
        rw [if_pos (by omega), cropLoop_congr (d' := d) _ _ _ _ (by
          intro q hq
          funext h
          rw [if_neg (by omega)]), h2]
        simp [idxAt, hsz]

theorem cropLoop_large {d : Nat → Nat → Nat} : ∀ (as : List Nat) (i k : Nat) (idx : List PySlice), i + as.length ≤ m →
    SizeIs S size m → (∀ a ∈ as, a < shape.length) → idx.length = shape.length →
    (∃ j < as.length, ∃ l, size (i + j) = some l ∧ shape.getD (as.getD j 0) 0 ≤ l) →
    cropLoop d S shape i k (castV as) idx = .error .runtime
  | [], i, k, idx, _, _, _, _, ⟨j, hj, _⟩ => by simp at hj
  | a :: as, i, k, idx, hm, hS, ha, hidx, ⟨j, hj, l, h, hle⟩ => by
    have hm' : i + 1 + as.length ≤ m := by simp at hm; omega
    have hSi := hS i (by simp at hm; omega)
    have hnext : (∃ l, size i = some l ∧ shape.getD a 0 ≤ l) ∨
        (∃ j < as.length, ∃ l, size (i + 1 + j) = some l ∧ shape.getD (as.getD j 0) 0 ≤ l) := by
      cases j with
      | zero => exact Or.inl ⟨l, by simpa using h, by simpa using hle⟩
      | succ j => exact Or.inr ⟨j, by simpa using hj, l, by rw [← h]; congr 1; omega, by simpa using hle⟩
    cases hsz : size i with
    | none =>
      rw [hsz] at hSi
      rw [cropLoop_none hSi]
      rcases hnext with ⟨l, h, _⟩ | hnext
      · rw [hsz] at h; cases h
      · exact cropLoop_large as (i + 1) k idx hm' hS (fun c hc => ha c (by simp [hc])) hidx hnext
    | some l' =>
      rw [hsz] at hSi
      rw [cropLoop_some hSi (ha a (by simp)) hidx]
      split_ifs with hc
      · rfl
      · rcases hnext with ⟨l, h, hle⟩ | hnext
        · rw [hsz] at h; cases h; exact absurd hle hc
        · exact cropLoop_large as (i + 1) (k + 1) _ hm' hS (fun c hc => ha c (by simp [hc])) (by simpa using hidx) hnext

theorem idxAt_length : ∀ (as : List Nat) (i : Nat) (b : Nat → Nat) (idx : List PySlice), (idxAt size i b as idx).length = idx.length
  | [], _, _, _ => rfl
  | a :: as, i, b, idx => by
    simp only [idxAt]
    rw [idxAt_length as]
    cases size i <;> simp

theorem idxAt_rest : ∀ (as : List Nat) (i : Nat) (b : Nat → Nat) (idx : List PySlice) (k : Nat), k ∉ as →
    (idxAt size i b as idx)[k]? = idx[k]?
  | [], _, _, _, _, _ => rfl
  | a :: as, i, b, idx, k, hk => by
    simp only [List.mem_cons, not_or] at hk
    simp only [idxAt]
    rw [idxAt_rest as _ _ _ k hk.2]
    cases size i with
    | none => rfl
    | some l => simp only; rw [List.getElem?_set_ne (Ne.symm hk.1)]

theorem idxAt_at : ∀ (as : List Nat) (i : Nat) (b : Nat → Nat) (idx : List PySlice), as.Nodup → (∀ a ∈ as, a < idx.length) →
    ∀ j < as.length, (idxAt size i b as idx)[as.getD j 0]? = match size (i + j) with
      | none => idx[as.getD j 0]?
      | some l => some (.between (b j : Nat) ((b j : Nat) + (l : Nat)))
  | [], _, _, _, _, _, j, hj => by simp at hj
  | a :: as, i, b, idx, hnd, hlt, j, hj => by
    have hnd' := List.nodup_cons.1 hnd
    simp only [idxAt]
    cases j with
    | zero =>
      rw [List.getD_cons_zero, idxAt_rest as _ _ _ a hnd'.1, Nat.add_zero]
      cases size i with
      | none => rfl
      | some l => simp only; rw [List.getElem?_set_self (hlt a (by simp))]
    | succ j =>
      have hj' : j < as.length := by simpa using hj
      have hmem : as.getD j 0 ∈ as := by simp [hj']
      have hne : a ≠ as.getD j 0 := by rintro rfl; exact hnd'.1 hmem
      rw [List.getD_cons_succ, idxAt_at as (i + 1) (fun j => b (j + 1)) _ hnd'.2 (by
        intro c hc
        have := hlt c (by simp [hc])
        cases size i with
        | none => exact this
        | some l => simpa using this) j hj', show i + 1 + j = i + (j + 1) by omega]
      cases size (i + (j + 1)) with
      | some l => rfl
      | none =>
        simp only
        cases size i with
        | none => rfl
        | some l => simp only; rw [List.getElem?_set_ne hne]

end

/-! ## slices -/

theorem resolveAll_getElem? : ∀ (idx : List PySlice) (shape : List Nat) (k : Nat), idx.length = shape.length →
    (resolveAll idx shape)[k]? = match idx[k]?, shape[k]? with
      | some s, some n => some (s.resolve n)
      | _, _ => none
  | [], [], k, _ => by simp [resolveAll]
  | s :: idx, n :: shape, 0, _ => by simp [resolveAll]
  | s :: idx, n :: shape, k + 1, h => by
    simp only [resolveAll, List.getElem?_cons_succ]
    exact resolveAll_getElem? idx shape k (by simpa using h)

theorem resolveAll_len {idx : List PySlice} {shape : List Nat} (h : idx.length = shape.length) : (resolveAll idx shape).length = shape.length := by
  induction shape generalizing idx with
  | nil => cases idx <;> simp [resolveAll]
  | cons n shape ih =>
    cases idx with
    | nil => simp at h
    | cons s idx => simp [resolveAll, ih (by simpa using h)]

theorem getSlice_cropped [Zero α] {x : Tensor α} {idx : List PySlice} (h : idx.length = x.ndim) (hstep : ∀ s ∈ idx, s.step = 1) :
    x.getSlice idx = cropped x ((resolveAll idx x.shape).map (·.lo)) ((resolveAll idx x.shape).map (·.cnt)) := by
  simp only [getSlice, cropped]
  apply ofFn_congr
  intro ix hix
  congr 1
  rw [rngMap]
  apply List.ext_getElem?
  intro k
  rw [List.getElem?_zipWith, List.getElem?_zipWith, List.getElem?_map, resolveAll_getElem? idx x.shape k h]
  cases h1 : idx[k]? with
  | none => cases ix[k]? <;> rfl
  | some s =>
    cases h2 : x.shape[k]? with
    | none => cases ix[k]? <;> rfl
    | some n =>
      cases ix[k]? with
      | none => rfl
      | some i =>
        have hs : (s.resolve n).step = 1 := hstep s (List.mem_of_getElem? h1)
        simp only [Option.map_some, hs, Nat.one_mul, Nat.add_comm]

theorem idxAt_step {size : Nat → Option Nat} : ∀ (as : List Nat) (i : Nat) (b : Nat → Nat) (idx : List PySlice), (∀ s ∈ idx, s.step = 1) →
    ∀ s ∈ idxAt size i b as idx, s.step = 1
  | [], _, _, _, h => h
  | a :: as, i, b, idx, h => by
    simp only [idxAt]
    apply idxAt_step as
    intro s hs
    cases hsz : size i with
    | none => rw [hsz] at hs; exact h s hs
    | some l =>
      rw [hsz] at hs
      rcases List.mem_or_eq_of_mem_set hs with h1 | rfl
      · exact h s h1
      · rfl

/-- the starts and sizes of the crop per axis -/
theorem crop_ranges {size : Nat → Option Nat} {shape axes : List Nat} {b : Nat → Nat} (hnd : axes.Nodup) (hlt : ∀ a ∈ axes, a < shape.length)
    (hb : Inside shape size 0 b axes) :
    IsWindow shape axes size ((resolveAll (idxAt size 0 b axes (List.replicate shape.length PySlice.full)) shape).map (·.lo))
      ((resolveAll (idxAt size 0 b axes (List.replicate shape.length PySlice.full)) shape).map (·.cnt)) ∧
    ∀ i < axes.length, ∀ l, size i = some l →
      ((resolveAll (idxAt size 0 b axes (List.replicate shape.length PySlice.full)) shape).map (·.lo)).getD (axes.getD i 0) 0 = b i := by
  set idx := idxAt size 0 b axes (List.replicate shape.length PySlice.full) with hidx
  have hlen : idx.length = shape.length := by rw [hidx, idxAt_length]; simp
  have hrl := resolveAll_len hlen
  have hfull : ∀ k < shape.length, (List.replicate shape.length PySlice.full)[k]? = some PySlice.full := by
    intro k hk; simp [hk]
  have hget : ∀ k (s : PySlice), k < shape.length → idx[k]? = some s →
      ((resolveAll idx shape).map (·.lo)).getD k 0 = (s.resolve (shape.getD k 0)).lo ∧
      ((resolveAll idx shape).map (·.cnt)).getD k 0 = (s.resolve (shape.getD k 0)).cnt := by
    intro k s hk hs
    have hn : shape[k]? = some (shape.getD k 0) := by simp [hk]
    have hr := resolveAll_getElem? idx shape k hlen
    rw [hs, hn] at hr
    simp only at hr
    simp only [List.getD_eq_getElem?_getD, List.getElem?_map, hr, Option.map_some, Option.getD_some, and_self]
  have hfullr : ∀ n, (PySlice.full.resolve n).lo = 0 ∧ (PySlice.full.resolve n).cnt = n := by
    intro n; simp [PySlice.full, PySlice.resolve]
  have hbet : ∀ n c l : Nat, c + l < n → ((PySlice.between (c : Nat) ((c : Nat) + (l : Nat))).resolve n).lo = c ∧
      ((PySlice.between (c : Nat) ((c : Nat) + (l : Nat))).resolve n).cnt = l := by
    intro n c l h
    have h1 : normBound n (c : Int) = c := by simp only [normBound]; rw [if_neg (by omega)]; omega
    have h2 : normBound n ((c : Int) + (l : Int)) = c + l := by simp only [normBound]; rw [if_neg (by omega)]; omega
    simp [PySlice.between, PySlice.resolve, h1, h2]
  have hax : ∀ i < axes.length, axes.getD i 0 ∈ axes := by intro i hi; simp [hi]
  have hat := fun i hi => idxAt_at (size := size) axes 0 b (List.replicate shape.length PySlice.full) hnd (by simpa using hlt) i hi
  have hpart : ∀ i < axes.length, ∀ l, size i = some l →
      ((resolveAll idx shape).map (·.lo)).getD (axes.getD i 0) 0 = b i ∧ ((resolveAll idx shape).map (·.cnt)).getD (axes.getD i 0) 0 = l := by
    intro i hi l hl
    have h := hat i hi
    simp only [Nat.zero_add, hl] at h
    have h2 := hget _ _ (hlt _ (hax i hi)) h
    have hin := hb i hi l (by simpa using hl)
    have h3 := hbet (shape.getD (axes.getD i 0) 0) (b i) l hin
    exact ⟨h2.1.trans h3.1, h2.2.trans h3.2⟩
  refine ⟨⟨by simp [hrl], by simp [hrl], ?_, ?_, ?_⟩, fun i hi l hl => (hpart i hi l hl).1⟩
  · intro k hk hn
    have h := idxAt_rest (size := size) axes 0 b (List.replicate shape.length PySlice.full) k hn
    rw [hfull k hk] at h
    have h2 := hget k _ hk h
    exact ⟨h2.1.trans (hfullr _).1, h2.2.trans (hfullr _).2⟩
  · intro i hi hsz
    have h := hat i hi
    simp only [Nat.zero_add, hsz] at h
    rw [hfull _ (hlt _ (hax i hi))] at h
    have h2 := hget _ _ (hlt _ (hax i hi)) h
    exact ⟨h2.1.trans (hfullr _).1, h2.2.trans (hfullr _).2⟩
  · intro i hi l hl
    have h1 := hpart i hi l hl
    have hin := hb i hi l (by simpa using hl)
    rw [h1.1]
    exact ⟨by omega, h1.2⟩

theorem sizeIs_given {g : Given (Option Nat)} {m : Nat} (hm : 0 < m) (hg : g.Fits m) :
    ∃ S, NdSpec.ofItem [] (g.toPy pySize) = .ok S ∧ SizeIs S (g.entry none) m := by
  cases g with
  | one o => exact ⟨_, ofItem_leaf0 _, fun i _ => rfl⟩
  | many l =>
    have hl : l.length = m := hg
    have := ofItem_leaves (l := l.map fun o : Option Nat => o.map fun n : Nat => (n : Int)) (by
      intro h
      have := congrArg List.length h
      simp only [List.length_map, List.length_nil] at this
      omega)
    rw [List.map_map] at this
    refine ⟨_, this, ?_⟩
    intro i hi
    have : IsSpec (⟨.seq (l.map pySize), [(l.length : Int)], 1⟩ : NdSpec (Option Int)) pySize (.many l) := ⟨rfl, rfl, [], rfl⟩
    have h2 := this.get (m := m) hg none (i := i) (fun _ => hi)
    have hl' : (List.map (fun o : Option Nat => o.map fun n : Nat => (n : Int)) l).length = l.length := by simp
    rw [hl']
    exact h2

end TI
