import Verif.Spec.Pool
import Verif.Spec.Axes
import Verif.Proofs.PoolOps
import Verif.Proofs.Outer

/-!
# `any_conv_1d` slides a window along one axis
-/

set_option linter.unusedSectionVars false

namespace TI
open Tensor Spec

variable {α : Type} [Field α]

theorem numel_pos {s : List Nat} (h : ∀ n ∈ s, 0 < n) : 0 < numel s := by
  induction s with
  | nil => simp [numel]
  | cons n s ih => exact Nat.mul_pos (h n (by simp)) (ih fun k hk => h k (by simp [hk]))

theorem numel_eq_zero {s : List Nat} (h : 0 ∈ s) : numel s = 0 := by
  induction s with
  | nil => cases h
  | cons n s ih =>
    rcases List.mem_cons.1 h with h | h
    · simp [numel, ← h]
    · simp [numel, ih h]

theorem shape_split {s : List Nat} {d : Nat} (hd : d < s.length) : s = s.take d ++ s.getD d 0 :: s.drop (d + 1) := by
  have : s.getD d 0 = s[d] := by simp [hd]
  rw [this, List.getElem_cons_drop, List.take_append_drop]

theorem set_split {s : List Nat} {d : Nat} (hd : d < s.length) (m : Nat) : s.set d m = s.take d ++ m :: s.drop (d + 1) := by
  rw [List.set_eq_take_append_cons_drop, if_pos hd]

theorem numel_split {s : List Nat} {d : Nat} (hd : d < s.length) :
    numel s = numel (s.take d) * (s.getD d 0 * numel (s.drop (d + 1))) := by
  conv_lhs => rw [shape_split hd]
  rw [numel_append]
  rfl

theorem reshape_ok (x : Tensor α) {s : List Nat} (h : numel x.shape = numel s) :
    ∃ y, x.reshape s = .ok y ∧ y.shape = s ∧ y.data = x.data := by
  refine ⟨⟨s, x.data, by rw [x.wf, h]⟩, ?_, rfl, rfl⟩
  rw [reshape, dif_pos (by rw [x.wf, h])]

/-- entry of a tensor with merged leading and trailing axes -/
theorem get_merged {x y : Tensor α} {d : Nat} (hd : d < x.shape.length)
    (hs : y.shape = [numel (x.shape.take d), 1, x.shape.getD d 0, numel (x.shape.drop (d + 1))]) (hdata : y.data = x.data)
    {a b : List Nat} {i : Nat} (ha : a.length = d) :
    y.get [ravel (x.shape.take d) a, 0, i, ravel (x.shape.drop (d + 1)) b] = x.get (a ++ i :: b) := by
  have h1 : ravel x.shape (a ++ i :: b) = ravel (x.shape.take d) a * (x.shape.getD d 0 * numel (x.shape.drop (d + 1))) +
      (i * numel (x.shape.drop (d + 1)) + ravel (x.shape.drop (d + 1)) b) := by
    conv_lhs => rw [shape_split hd]
    rw [ravel_append (by simp; omega)]
    rfl
  have h2 : ravel y.shape [ravel (x.shape.take d) a, 0, i, ravel (x.shape.drop (d + 1)) b] =
      ravel (x.shape.take d) a * (x.shape.getD d 0 * numel (x.shape.drop (d + 1))) +
      (i * numel (x.shape.drop (d + 1)) + ravel (x.shape.drop (d + 1)) b) := by
    rw [hs]
    simp [ravel, numel]
  rw [Tensor.get, Tensor.get, hdata, h1, h2]

theorem inB_pieces {s ix : List Nat} {d : Nat} (hd : d < s.length) (h : InB s ix) :
    InB (s.take d) (ix.take d) ∧ ix.getD d 0 < s.getD d 0 ∧ InB (s.drop (d + 1)) (ix.drop (d + 1)) ∧
      ix = ix.take d ++ ix.getD d 0 :: ix.drop (d + 1) := by
  have hl := h.length_eq
  have e := shape_split (s := ix) (d := d) (by omega)
  have h' := h
  rw [shape_split hd, e, inB_append (by simp; omega)] at h'
  refine ⟨?_, h'.2.1, ?_, e⟩
  · exact h'.1
  · exact h'.2.2

theorem window_fit {h k d : Nat} (hk : 0 < k) : ((h : Int) < (d : Int) * ((k : Int) - 1) + 1) ↔ ¬ d * (k - 1) < h := by
  have : (d : Int) * ((k : Int) - 1) = ((d * (k - 1) : Nat) : Int) := by
    push_cast [Nat.cast_sub (show 1 ≤ k by omega)]
    ring
  rw [this]
  omega

theorem window_out {h k d s : Nat} (hk : 0 < k) (hs : 0 < s) (hf : d * (k - 1) < h) :
    ((h : Int) - (d : Int) * ((k : Int) - 1) - 1).toNat / (s : Int).toNat + 1 = windowCount h k s d := by
  have : (d : Int) * ((k : Int) - 1) = ((d * (k - 1) : Nat) : Int) := by
    push_cast [Nat.cast_sub (show 1 ≤ k by omega)]
    ring
  rw [windowCount_eq hs, if_pos hf, this]
  congr 2
  omega

/-- the last step of `any_conv_1d`: the merged axes are separated again -/
theorem view_back {x z : Tensor α} {d : Nat} (hd : d < x.shape.length) {c : Nat} (hpos : 0 < numel (x.shape.take d ++ x.shape.drop (d + 1)))
    (hz : numel z.shape = numel (x.shape.take d) * (c * numel (x.shape.drop (d + 1)))) :
    ∃ y, z.viewInfer (x.shape.take d) (x.shape.drop (d + 1)) = .ok y ∧ y.shape = x.shape.set d c ∧ y.data = z.data := by
  have hz' : numel z.shape = c * numel (x.shape.take d ++ x.shape.drop (d + 1)) := by
    rw [hz, numel_append]; ring
  have hq : numel z.shape / numel (x.shape.take d ++ x.shape.drop (d + 1)) = c := by
    rw [hz', Nat.mul_div_cancel _ hpos]
  rw [viewInfer]
  rw [if_neg (by omega), if_pos (by rw [hz']; exact Nat.mul_mod_left _ _), hq]
  obtain ⟨y, h1, h2, h3⟩ := reshape_ok z (s := x.shape.take d ++ [c] ++ x.shape.drop (d + 1)) (by
    rw [hz, numel_append, numel_append]; simp [numel]; ring)
  refine ⟨y, h1, ?_, h3⟩
  rw [h2, set_split hd]
  simp

/-- the middle step: a convolution of the merged tensor, both variants -/
structure Merged (x : Tensor α) (d : Nat) (w : List α) (s dil : Nat) (z : Tensor α) : Prop where
  size : numel z.shape = numel (x.shape.take d) * (windowCount (x.shape.getD d 0) w.length s dil * numel (x.shape.drop (d + 1)))
  entry : ∀ a t b, InB (x.shape.take d) a → t < windowCount (x.shape.getD d 0) w.length s dil → InB (x.shape.drop (d + 1)) b →
    z.data.getD (ravel (x.shape.take d) a * (windowCount (x.shape.getD d 0) w.length s dil * numel (x.shape.drop (d + 1))) +
      (t * numel (x.shape.drop (d + 1)) + ravel (x.shape.drop (d + 1)) b)) 0 =
      ((List.range w.length).map fun j => w.getD j 0 * x.get (a ++ (t * s + j * dil) :: b)).sum

theorem merged_result {x z : Tensor α} {d : Nat} (hd : d < x.shape.length) {w : List α} {s dil : Nat}
    (hpos : 0 < numel (x.shape.take d ++ x.shape.drop (d + 1))) (h : Merged x d w s dil z) :
    z.viewInfer (x.shape.take d) (x.shape.drop (d + 1)) = .ok (slideDilated x d w s dil) := by
  obtain ⟨y, h1, h2, h3⟩ := view_back hd hpos h.size
  rw [h1]
  congr 1
  apply ext_get h2
  intro ix hix
  rw [h2] at hix
  rw [slideDilated, get_ofFn hix]
  have hd' : d < (x.shape.set d (windowCount (x.shape.getD d 0) w.length s dil)).length := by simpa using hd
  obtain ⟨p1, p2, p3, p4⟩ := inB_pieces hd' hix
  have e1 : (x.shape.set d (windowCount (x.shape.getD d 0) w.length s dil)).take d = x.shape.take d := by
    rw [List.take_set_of_le (Nat.le_refl d)]
  have e2 : (x.shape.set d (windowCount (x.shape.getD d 0) w.length s dil)).drop (d + 1) = x.shape.drop (d + 1) := by
    rw [List.drop_set_of_lt (by omega)]
  rw [e1] at p1
  rw [e2] at p3
  rw [getD_set_self _ _ _ _ hd] at p2
  have hl := p1.length_eq
  have hr : ravel y.shape ix = ravel (x.shape.take d) (ix.take d) *
      (windowCount (x.shape.getD d 0) w.length s dil * numel (x.shape.drop (d + 1))) +
      (ix.getD d 0 * numel (x.shape.drop (d + 1)) + ravel (x.shape.drop (d + 1)) (ix.drop (d + 1))) := by
    rw [h2, set_split hd]
    conv_lhs => rw [p4]
    rw [ravel_append hl]
    rfl
  rw [Tensor.get, h3, hr, h.entry _ _ _ p1 p2 p3]
  congr 1
  apply List.map_congr_left
  intro j _
  congr 2
  have hix' := hix.length_eq
  rw [set_split (by simpa using hix' ▸ hd')]

theorem merged_column {x y : Tensor α} {d : Nat} (hd : d < x.shape.length)
    (hs : y.shape = [numel (x.shape.take d), 1, x.shape.getD d 0, numel (x.shape.drop (d + 1))]) (hdata : y.data = x.data)
    {w : List α} (hw : w ≠ []) {s dil : Nat} (hs0 : 0 < s) (hd0 : 0 < dil) (hf : dil * (w.length - 1) < x.shape.getD d 0) :
    ∃ z, conv2dColumn y w s dil = .ok z ∧ Merged x d w s dil z := by
  have hk : 0 < w.length := List.length_pos_iff.2 hw
  rw [conv2dColumn, hs]
  simp only
  rw [if_neg (by
    push Not
    refine ⟨by omega, by omega, hw, ?_⟩
    rw [← not_lt, window_fit hk]
    simpa using hf), window_out hk hs0 hf]
  refine ⟨_, rfl, ⟨by simp [numel], ?_⟩⟩
  intro a t b ha ht hb
  have hin : InB [numel (x.shape.take d), 1, windowCount (x.shape.getD d 0) w.length s dil, numel (x.shape.drop (d + 1))]
      [ravel (x.shape.take d) a, 0, t, ravel (x.shape.drop (d + 1)) b] :=
    ⟨ravel_lt ha, Nat.one_pos, ht, ravel_lt hb, trivial⟩
  have hr : ravel [numel (x.shape.take d), 1, windowCount (x.shape.getD d 0) w.length s dil, numel (x.shape.drop (d + 1))]
      [ravel (x.shape.take d) a, 0, t, ravel (x.shape.drop (d + 1)) b] = ravel (x.shape.take d) a *
      (windowCount (x.shape.getD d 0) w.length s dil * numel (x.shape.drop (d + 1))) +
      (t * numel (x.shape.drop (d + 1)) + ravel (x.shape.drop (d + 1)) b) := by
    simp [ravel, numel]
  have := get_ofFn (f := fun ix => ((List.range w.length).map fun j =>
        w.getD j 0 * y.get [ix.getD 0 0, 0, ix.getD 2 0 * (s : Int).toNat + j * (dil : Int).toNat, ix.getD 3 0]).sum) hin
  rw [Tensor.get, shape_ofFn, hr] at this
  rw [this]
  congr 1
  apply List.map_congr_left
  intro j _
  congr 1
  have hal : a.length = d := by rw [ha.length_eq]; simp; omega
  rw [← get_merged hd hs hdata hal]
  rfl

theorem merged_row {x y : Tensor α} {d : Nat} (hd : d + 1 = x.shape.length)
    (hs : y.shape = [numel (x.shape.take d), 1, x.shape.getD d 0]) (hdata : y.data = x.data)
    {w : List α} (hw : w ≠ []) {s dil : Nat} (hs0 : 0 < s) (hd0 : 0 < dil) (hf : dil * (w.length - 1) < x.shape.getD d 0) :
    ∃ z, conv1dRow y w s dil = .ok z ∧ Merged x d w s dil z := by
  have hk : 0 < w.length := List.length_pos_iff.2 hw
  have hpost : x.shape.drop (d + 1) = [] := by rw [hd]; simp
  have hdl : d < x.shape.length := by omega
  rw [conv1dRow, hs]
  simp only
  rw [if_neg (by
    push Not
    refine ⟨by omega, by omega, hw, ?_⟩
    rw [← not_lt, window_fit hk]
    simpa using hf), window_out hk hs0 hf]
  refine ⟨_, rfl, ⟨by simp [numel, hpost], ?_⟩⟩
  intro a t b ha ht hb
  rw [hpost] at hb ⊢
  have hb0 : b = [] := List.length_eq_zero_iff.1 hb.length_eq
  subst hb0
  have hin : InB [numel (x.shape.take d), 1, windowCount (x.shape.getD d 0) w.length s dil] [ravel (x.shape.take d) a, 0, t] :=
    ⟨ravel_lt ha, Nat.one_pos, ht, trivial⟩
  have hr : ravel [numel (x.shape.take d), 1, windowCount (x.shape.getD d 0) w.length s dil]
      [ravel (x.shape.take d) a, 0, t] = ravel (x.shape.take d) a *
      (windowCount (x.shape.getD d 0) w.length s dil * numel []) + (t * numel [] + ravel [] []) := by
    simp [ravel, numel]
  have := get_ofFn (f := fun ix => ((List.range w.length).map fun j =>
        w.getD j 0 * y.get [ix.getD 0 0, 0, ix.getD 2 0 * (s : Int).toNat + j * (dil : Int).toNat]).sum) hin
  rw [Tensor.get, shape_ofFn, hr] at this
  rw [this]
  congr 1
  apply List.map_congr_left
  intro j _
  congr 1
  have hal : a.length = d := by rw [ha.length_eq]; simp; omega
  have hget : x.get (a ++ [t * s + j * dil]) = x.data.getD (ravel (x.shape.take d) a * x.shape.getD d 0 + (t * s + j * dil)) 0 := by
    rw [Tensor.get]
    congr 1
    conv_lhs => rw [shape_split hdl]
    rw [ravel_append (by simp; omega), hpost]
    simp [ravel, numel]
  rw [hget, Tensor.get, hs, hdata]
  simp [ravel, numel]

/-- `any_conv_1d` on a tensor without empty axes -/
theorem anyConv1d_eq {x : Tensor α} {w : List α} {dim : Int} {d s dil : Nat} (hdim : normAxis x.ndim dim = some d)
    (hpos : ∀ n ∈ x.shape, 0 < n) (hw : w ≠ []) (hs : 0 < s) (hdil : 0 < dil) (hf : dil * (w.length - 1) < x.shape.getD d 0) :
    anyConv1d x w dim s dil = .ok (slideDilated x d w s dil) := by
  have hd : d < x.shape.length ∧ dim < x.ndim ∧ (dim = (x.ndim : Int) - 1 ∨ dim = -1 ↔ d + 1 = x.shape.length) := by
    rw [normAxis] at hdim
    rw [show x.shape.length = x.ndim from rfl]
    split_ifs at hdim with h1 h2
    · injection hdim; omega
    · injection hdim; omega
  have hconv : convDim x.ndim dim = .ok d := by
    rw [normAxis] at hdim
    simp only [convDim]
    split_ifs at hdim with h1 h2
    · simp only [Option.some.injEq] at hdim
      rw [if_pos h2, if_pos (by omega), hdim]
    · simp only [Option.some.injEq] at hdim
      rw [if_neg h2, if_pos (by omega), hdim]
  have hP : 0 < numel (x.shape.take d) := numel_pos fun n hn => hpos n (List.mem_of_mem_take hn)
  have hQ : 0 < numel (x.shape.drop (d + 1)) := numel_pos fun n hn => hpos n (List.mem_of_mem_drop hn)
  have hPQ : 0 < numel (x.shape.take d ++ x.shape.drop (d + 1)) := by rw [numel_append]; exact Nat.mul_pos hP hQ
  have hn : 0 < x.shape.getD d 0 := by omega
  have hsplit := numel_split hd.1
  simp only [anyConv1d, hconv, bind, Except.bind]
  by_cases hlast : d + 1 = x.shape.length
  · rw [if_pos (Or.comm.1 (hd.2.2.2 hlast))]
    have hl : x.shape.getLastD 0 = x.shape.getD d 0 := by
      rw [List.getLastD_eq_getLast?, List.getLast?_eq_getElem?, List.getD_eq_getElem?_getD]
      congr 2
      omega
    have hpost : x.shape.drop (d + 1) = [] := by rw [hlast]; simp
    obtain ⟨y, h1, h2, h3⟩ : ∃ y, x.viewInfer [] [1, x.shape.getLastD 0] = .ok y ∧
        y.shape = [numel (x.shape.take d), 1, x.shape.getD d 0] ∧ y.data = x.data := by
      rw [hl, viewInfer]
      simp only [List.nil_append]
      have hk : numel [1, x.shape.getD d 0] = x.shape.getD d 0 := by simp [numel]
      rw [hpost] at hsplit
      simp only [numel, Nat.mul_one] at hsplit
      rw [hk, if_neg (by omega), if_pos (by rw [hsplit]; exact Nat.mul_mod_left _ _), hsplit, Nat.mul_div_cancel _ hn]
      exact reshape_ok x (by rw [hsplit]; simp [numel])
    rw [h1]
    simp only
    obtain ⟨z, h4, h5⟩ := merged_row hlast h2 h3 hw hs hdil hf
    rw [h4]
    simp only
    exact merged_result hd.1 hPQ h5
  · rw [if_neg (fun h => hlast (hd.2.2.1 (Or.comm.1 h)))]
    obtain ⟨y, h1, h2, h3⟩ : ∃ y, x.viewInfer [numel (x.shape.take d), 1, x.shape.getD d 0] [] = .ok y ∧
        y.shape = [numel (x.shape.take d), 1, x.shape.getD d 0, numel (x.shape.drop (d + 1))] ∧ y.data = x.data := by
      rw [viewInfer]
      simp only [List.append_nil]
      have hk : numel [numel (x.shape.take d), 1, x.shape.getD d 0] = numel (x.shape.take d) * x.shape.getD d 0 := by simp [numel]
      have hsplit' : numel x.shape = numel (x.shape.drop (d + 1)) * (numel (x.shape.take d) * x.shape.getD d 0) := by
        rw [hsplit]; ring
      have hkp : 0 < numel (x.shape.take d) * x.shape.getD d 0 := Nat.mul_pos hP hn
      rw [hk, if_neg (by omega), if_pos (by rw [hsplit']; exact Nat.mul_mod_left _ _), hsplit', Nat.mul_div_cancel _ hkp]
      exact reshape_ok x (by rw [hsplit']; simp [numel]; ring)
    rw [h1]
    simp only
    obtain ⟨z, h4, h5⟩ := merged_column hd.1 h2 h3 hw hs hdil hf
    rw [h4]
    simp only
    exact merged_result hd.1 hPQ h5

/-- a (dilated) kernel longer than the axis is an error -/
theorem anyConv1d_too_long {x : Tensor α} {w : List α} {dim : Int} {d s dil : Nat} (hdim : normAxis x.ndim dim = some d)
    (hpos : ∀ n ∈ x.shape, 0 < n) (hw : w ≠ []) (hdil : 0 < dil) (hf : ¬ dil * (w.length - 1) < x.shape.getD d 0) :
    anyConv1d x w dim s dil = .error .runtime := by
  have hd : d < x.shape.length ∧ dim < x.ndim ∧ (dim = (x.ndim : Int) - 1 ∨ dim = -1 ↔ d + 1 = x.shape.length) := by
    rw [normAxis] at hdim
    rw [show x.shape.length = x.ndim from rfl]
    split_ifs at hdim with h1 h2
    · injection hdim; omega
    · injection hdim; omega
  have hconv : convDim x.ndim dim = .ok d := by
    rw [normAxis] at hdim
    simp only [convDim]
    split_ifs at hdim with h1 h2
    · simp only [Option.some.injEq] at hdim
      rw [if_pos h2, if_pos (by omega), hdim]
    · simp only [Option.some.injEq] at hdim
      rw [if_neg h2, if_pos (by omega), hdim]
  have hP : 0 < numel (x.shape.take d) := numel_pos fun n hn => hpos n (List.mem_of_mem_take hn)
  have hQ : 0 < numel (x.shape.drop (d + 1)) := numel_pos fun n hn => hpos n (List.mem_of_mem_drop hn)
  have hn : 0 < x.shape.getD d 0 := hpos _ (by have := hd.1; simp [this])
  have hk : 0 < w.length := List.length_pos_iff.2 hw
  have hsplit := numel_split hd.1
  simp only [anyConv1d, hconv, bind, Except.bind]
  by_cases hlast : d + 1 = x.shape.length
  · rw [if_pos (Or.comm.1 (hd.2.2.2 hlast))]
    have hl : x.shape.getLastD 0 = x.shape.getD d 0 := by
      rw [List.getLastD_eq_getLast?, List.getLast?_eq_getElem?, List.getD_eq_getElem?_getD]
      congr 2
      omega
    have hpost : x.shape.drop (d + 1) = [] := by rw [hlast]; simp
    obtain ⟨y, h1, h2, h3⟩ : ∃ y, x.viewInfer [] [1, x.shape.getLastD 0] = .ok y ∧
        y.shape = [numel (x.shape.take d), 1, x.shape.getD d 0] ∧ y.data = x.data := by
      rw [hl, viewInfer]
      simp only [List.nil_append]
      have hk' : numel [1, x.shape.getD d 0] = x.shape.getD d 0 := by simp [numel]
      rw [hpost] at hsplit
      simp only [numel, Nat.mul_one] at hsplit
      rw [hk', if_neg (by omega), if_pos (by rw [hsplit]; exact Nat.mul_mod_left _ _), hsplit, Nat.mul_div_cancel _ hn]
      exact reshape_ok x (by rw [hsplit]; simp [numel])
    rw [h1]
    simp only
    rw [conv1dRow, h2]
    simp only
    rw [if_pos (Or.inr (Or.inr (Or.inr ((window_fit hk).2 hf))))]
  · rw [if_neg (fun h => hlast (hd.2.2.1 (Or.comm.1 h)))]
    obtain ⟨y, h1, h2, h3⟩ : ∃ y, x.viewInfer [numel (x.shape.take d), 1, x.shape.getD d 0] [] = .ok y ∧
        y.shape = [numel (x.shape.take d), 1, x.shape.getD d 0, numel (x.shape.drop (d + 1))] ∧ y.data = x.data := by
      rw [viewInfer]
      simp only [List.append_nil]
      have hk' : numel [numel (x.shape.take d), 1, x.shape.getD d 0] = numel (x.shape.take d) * x.shape.getD d 0 := by simp [numel]
      have hsplit' : numel x.shape = numel (x.shape.drop (d + 1)) * (numel (x.shape.take d) * x.shape.getD d 0) := by
        rw [hsplit]; ring
      have hkp : 0 < numel (x.shape.take d) * x.shape.getD d 0 := Nat.mul_pos hP hn
      rw [hk', if_neg (by omega), if_pos (by rw [hsplit']; exact Nat.mul_mod_left _ _), hsplit', Nat.mul_div_cancel _ hkp]
      exact reshape_ok x (by rw [hsplit']; simp [numel]; ring)
    rw [h1]
    simp only
    rw [conv2dColumn, h2]
    simp only
    rw [if_pos (Or.inr (Or.inr (Or.inr ((window_fit hk).2 hf))))]

theorem slideDilated_one {x : Tensor α} {d : Nat} {w : List α} (hw : w ≠ []) (s : Nat) : slideDilated x d w s 1 = slide x ⟨d, w, s⟩ := by
  simp [slideDilated, slide, hw]

end TI
