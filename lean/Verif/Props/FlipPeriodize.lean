import Verif.Props.Flip
import Verif.Props.Periodize

/-!
# Reversing an axis of odd size in mode `periodize` (C91 in full)
-/

set_option linter.unusedSectionVars false

namespace TI

open Tensor Spec

variable {α : Type} [Field α] [LinearOrder α] [IsStrictOrderedRing α] {p p' : Padder α} {x : Tensor α} {s : AxisPad α} {d : Nat} {ax : Axes}

theorem periodize_inside {n : Nat} {u : Nat → α} {t : Nat} (h : t < n) (ho : n % 2 = 1) : Spec.periodize n u t = u t := by
  rw [Spec.periodize, if_neg (by omega), Spec.circular]
  have e : ((t : Int) % ((n + 1 : Nat) : Int)).toNat = t := by
    rw [Int.emod_eq_of_lt (by omega) (by omega)]; rfl
  simp only [e, if_pos h]

theorem periodize_const {n : Nat} {u : Nat → α} {c : α} (hn : 0 < n) (h : ∀ j < n, u j = c) (ho : n % 2 = 1) (z : Int) : Spec.periodize n u z = c := by
  rw [Spec.periodize, if_neg (by omega), Spec.circular]
  split_ifs with hj
  · exact h _ hj
  · exact h _ (by omega)

/-- **C91** in the remaining case, `periodize` on an axis of odd size: padding with the widths exchanged commutes with reversing the axis exactly if the tensor is constant along that axis. -/
theorem C91_periodize_iff (h : PadCall p x ax [d] [s]) (h' : PadCall p' (flipped d x) ax [d] [s.mirrored]) (hmode : s.mode = .periodize)
    (hz : ¬ (s.before = 0 ∧ s.after = 0)) (hodd : x.shape.getD d 0 % 2 = 1) (junk junk' : List Nat → α) :
    ∃ z, p.forward junk x ax = .ok z ∧ (p'.forward junk' (flipped d x) ax = .ok (flipped d z) ↔ ∀ ix, InB x.shape ix → x.get ix = x.get (ix.set d 0)) := by
  have hd : d < x.shape.length := (checkAxes_spec h.axes_eq).2 d (by simp)
  have e1 : padSeq x (zipRight [d] [s]) = extendAxis Spec.periodize d s.before (s.after + 1) x := by
    rw [show zipRight [d] [s] = [(d, s)] from rfl]
    simp only [padSeq, List.foldl_cons, List.foldl_nil, padStep, if_neg hz, AxisPad.rule?, hmode, AxisPad.total, Mode.isPeriodize, if_true, hodd]
  have hz' : ¬ (s.mirrored.before = 0 ∧ s.mirrored.after = 0) := fun q => hz ⟨q.2, q.1⟩
  have hm' : s.mirrored.mode = .periodize := hmode
  have e2 : padSeq (flipped d x) (zipRight [d] [s.mirrored]) = extendAxis Spec.periodize d s.after (s.before + 1) (flipped d x) := by
    rw [show zipRight [d] [s.mirrored] = [(d, s.mirrored)] from rfl]
    simp only [padSeq, List.foldl_cons, List.foldl_nil, padStep, if_neg hz', AxisPad.rule?, hm', AxisPad.total, Mode.isPeriodize, if_true, flipped_shape, hodd]
    rfl
  refine ⟨_, forward_call h junk, ?_⟩
  rw [forward_call h' junk', e1, e2]
  generalize hn : x.shape.getD d 0 = n at *
  have hn0 : 0 < n := by omega
  -- the two results at one position
  have L : ∀ ix, InB (x.shape.set d (s.after + n + (s.before + 1))) ix →
      (extendAxis Spec.periodize d s.after (s.before + 1) (flipped d x)).get ix = Spec.periodize n (fun j => (flipped d x).get (ix.set d j)) ((ix.getD d 0 : Int) - s.after) := by
    intro ix hix
    rw [extendAxis, flipped_shape, hn, get_ofFn hix]
  have hsh : x.shape.set d (s.before + n + (s.after + 1)) = x.shape.set d (s.after + n + (s.before + 1)) := by
    rw [show s.before + n + (s.after + 1) = s.after + n + (s.before + 1) by omega]
  have R : ∀ ix, InB (x.shape.set d (s.after + n + (s.before + 1))) ix →
      (flipped d (extendAxis Spec.periodize d s.before (s.after + 1) x)).get ix = Spec.periodize n (fun j => x.get (ix.set d j)) ((n : Int) + s.after - ix.getD d 0) := by
    intro ix hix
    have hl := hix.lt (k := d) (by simpa using hd)
    rw [getD_set_self _ _ _ _ hd] at hl
    have hix2 : InB (x.shape.set d (s.before + n + (s.after + 1))) ix := by rw [hsh]; exact hix
    have hs : (extendAxis Spec.periodize d s.before (s.after + 1) x).shape = x.shape.set d (s.before + n + (s.after + 1)) := by rw [← hn]; rfl
    rw [flipped_get (by rw [hs]; exact hix2), hs, getD_set_self _ _ _ _ hd, extendAxis, hn,
      get_ofFn (hix2.set (d := d) (i := s.before + n + (s.after + 1) - 1 - ix.getD d 0) (m := s.before + n + (s.after + 1)) (by omega)),
      getD_set_self _ _ _ _ (by rw [hix.length_eq]; simpa using hd)]
    congr 1
    · funext j; rw [List.set_set]
    · omega
  have F : ∀ ix, InB (x.shape.set d (s.after + n + (s.before + 1))) ix → ∀ j < n, (flipped d x).get (ix.set d j) = x.get (ix.set d (n - 1 - j)) := by
    intro ix hix j hj
    have hb : InB x.shape (ix.set d j) := by
      have := hix.set (d := d) (i := j) (m := n) hj
      rwa [← hn, set_getD_self] at this
    rw [flipped_get hb, hn, getD_set_self _ _ _ _ (by rw [hix.length_eq]; simpa using hd), List.set_set]
  constructor
  · intro he ix hix
    have he' := Except.ok.inj he
    have step : ∀ j, j + 1 < n → x.get (ix.set d j) = x.get (ix.set d (j + 1)) := by
      intro j hj
      have hix' : InB (x.shape.set d (s.after + n + (s.before + 1))) (ix.set d (s.after + (n - 1 - j))) := by
        have h0 : InB (x.shape.set d n) ix := by rw [← hn, set_getD_self]; exact hix
        exact h0.set (by omega)
      have := (L _ hix').symm.trans ((congrArg (fun t => t.get (ix.set d (s.after + (n - 1 - j)))) he').trans (R _ hix'))
      rw [getD_set_self _ _ _ _ (by rw [hix.length_eq]; exact hd)] at this
      rw [show ((s.after + (n - 1 - j) : Nat) : Int) - s.after = ((n - 1 - j : Nat) : Int) by omega, periodize_inside (by omega) hodd, F _ hix' _ (by omega),
        show (n : Int) + s.after - ((s.after + (n - 1 - j) : Nat) : Int) = ((j + 1 : Nat) : Int) by omega, periodize_inside hj hodd,
        List.set_set, List.set_set, show n - 1 - (n - 1 - j) = j by omega] at this
      exact this
    have all : ∀ j < n, x.get (ix.set d j) = x.get (ix.set d 0) := by
      intro j
      induction j with
      | zero => intro _; rfl
      | succ j ih => intro hj; rw [← step j hj, ih (by omega)]
    have hl := hix.lt hd
    rw [hn] at hl
    have := all _ hl
    rwa [set_getD_self] at this
  · intro hc
    have hk : ∀ ix, InB (x.shape.set d (s.after + n + (s.before + 1))) ix → ∀ j < n, x.get (ix.set d j) = x.get (ix.set d 0) := by
      intro ix hix j hj
      have hb : InB x.shape (ix.set d j) := by
        have := hix.set (d := d) (i := j) (m := n) hj
        rwa [← hn, set_getD_self] at this
      rw [hc _ hb, List.set_set]
    congr 1
    apply ext_get
    · show x.shape.set d (s.after + x.shape.getD d 0 + (s.before + 1)) = x.shape.set d (s.before + x.shape.getD d 0 + (s.after + 1))
      rw [hn, hsh]
    · intro ix hix
      have hix' : InB (x.shape.set d (s.after + n + (s.before + 1))) ix := by rw [← hn]; exact hix
      rw [L _ hix', R _ hix', periodize_const hn0 (hk _ hix') hodd, periodize_const hn0 _ hodd]
      intro j hj
      rw [F _ hix' j hj, hk _ hix' _ (by omega)]

/-- three samples 1, 2, 4 are not constant -/
example (junk junk' : List Nat → ℚ) : ∃ z, (Example.oddPadder 1 2).forward junk Example.x3 (.int 0) = .ok z ∧
    (Example.oddPadder 2 1).forward junk' (flipped 0 Example.x3) (.int 0) ≠ .ok (flipped 0 z) := by
  have h := Example.oddCall 2 1
  obtain ⟨z, h1, h2⟩ := C91_periodize_iff (Example.oddCall 1 2) (p' := Example.oddPadder 2 1)
    ⟨h.ndim_ne, h.axes_eq, h.nodup, h.len, h.reads, h.valued⟩ rfl (by decide) (by decide) junk junk'
  refine ⟨z, h1, fun he => ?_⟩
  exact absurd (h2.1 he [1] (by decide)) (by decide +kernel)

end TI
