import Verif.Proofs.MsSsim
import Verif.Proofs.WindowMean
import Verif.Props.Flip

/-!
# Reversing an axis: blurs, maps, reductions
-/

set_option linter.unusedSectionVars false

namespace TI
open Tensor Spec

section
variable {α : Type} [Field α]

/-! ## reductions -/

theorem flip_flip {s ix : List Nat} {d : Nat} (h : InB s ix) :
    (ix.set d (s.getD d 0 - 1 - ix.getD d 0)).set d (s.getD d 0 - 1 - (ix.set d (s.getD d 0 - 1 - ix.getD d 0)).getD d 0) = ix := by
  by_cases hd : d < s.length
  · have hlt := h.lt hd
    rw [List.set_set, getD_set_self _ _ _ _ (by rw [h.length_eq]; exact hd),
      show s.getD d 0 - 1 - (s.getD d 0 - 1 - ix.getD d 0) = ix.getD d 0 by omega, set_getD_self]
  · have hl : ix.length ≤ d := by rw [h.length_eq]; omega
    rw [List.set_eq_of_length_le (by simpa using hl), List.set_eq_of_length_le hl]

theorem onKept_set {ds ix : List Nat} {d v : Nat} (hd : d ∈ ds) : onKept ds (ix.set d v) = onKept ds ix := by
  rw [onKept, onKept, List.length_set]
  apply List.map_congr_left
  intro k hk
  have : k ≠ d := fun e => (mem_keptAxes.1 hk).2 (e ▸ hd)
  exact getD_set_ne _ _ _ _ _ this

/-- reversing a reduced axis permutes the positions that are collected -/
theorem collected_flip {s ds : List Nat} {d : Nat} (hd : d ∈ ds) (jx : List Nat) :
    ((collected s ds jx).map fun ix => ix.set d (s.getD d 0 - 1 - ix.getD d 0)).Perm (collected s ds jx) := by
  have hnd : (collected s ds jx).Nodup := (indices_nodup s).filter _
  refine (List.perm_ext_iff_of_nodup ?_ hnd).2 ?_
  · apply List.Nodup.map_on _ hnd
    intro u hu v hv e
    have := congrArg (fun ix : List Nat => ix.set d (s.getD d 0 - 1 - ix.getD d 0)) e
    rwa [flip_flip (mem_collected.1 hu).1, flip_flip (mem_collected.1 hv).1] at this
  · intro ix
    rw [List.mem_map]
    constructor
    · rintro ⟨jx', hj, rfl⟩
      obtain ⟨h1, h2⟩ := mem_collected.1 hj
      exact mem_collected.2 ⟨flip_inB h1, by rw [onKept_set hd]; exact h2⟩
    · intro h
      obtain ⟨h1, h2⟩ := mem_collected.1 h
      exact ⟨_, mem_collected.2 ⟨flip_inB h1, by rw [onKept_set hd]; exact h2⟩, flip_flip h1⟩

theorem flipped_collected {x : Tensor α} {ds : List Nat} {d : Nat} (hd : d ∈ ds) (jx : List Nat) :
    ((collected x.shape ds jx).map (flipped d x).get).Perm ((collected x.shape ds jx).map x.get) := by
  have e : (collected x.shape ds jx).map (flipped d x).get =
      ((collected x.shape ds jx).map fun ix => ix.set d (x.shape.getD d 0 - 1 - ix.getD d 0)).map x.get := by
    rw [List.map_map]
    apply List.map_congr_left
    intro ix hix
    exact flipped_get (mem_collected.1 hix).1
  rw [e]
  exact (collected_flip hd jx).map _

theorem mean_perm {l l' : List α} (h : l.Perm l') : mean l = mean l' := by
  rw [mean, mean, h.sum_eq, h.length_eq]

theorem meanOver_flip {x : Tensor α} {raxes : List Nat} {d : Nat} (hd : d ∈ reducedAxes x.ndim raxes) :
    meanOver (flipped d x) raxes = meanOver x raxes := by
  rw [meanOver, meanOver, flipped_shape, flipped_ndim]
  apply ofFn_congr
  intro jx _
  exact mean_perm (flipped_collected hd jx)

theorem meanKept_flip {x : Tensor α} {axes : List Nat} {d : Nat} (hd : d ∈ axes) : meanKept (flipped d x) axes = meanKept x axes := by
  rw [meanKept, meanKept, flipped_shape]
  apply ofFn_congr
  intro jx _
  exact mean_perm (flipped_collected hd _)

/-! ## maps -/

theorem times_flip {x y : Tensor α} {d : Nat} (h : y.shape = x.shape) : times (flipped d x) (flipped d y) = flipped d (times x y) := by
  apply ext_get (show (times (flipped d x) (flipped d y)).shape = (flipped d (times x y)).shape from rfl)
  intro ix hix
  have hix' : InB x.shape ix := hix
  rw [flipped_get (x := times x y) hix', times, times, get_ofFn (show InB (flipped d x).shape ix from hix'), flipped_get hix',
    flipped_get (show InB y.shape ix by rw [h]; exact hix'), h]
  rw [show (ofFn x.shape fun ix => x.get ix * y.get ix).shape = x.shape from rfl, get_ofFn (flip_inB hix')]

/-- a map made of blurred images is reversed with the images -/
theorem pointMap_flip {b : Tensor α → Tensor α} {y1 y2 : Tensor α} {d : Nat} (F : α → α → α → α → α → α) (h12 : y2.shape = y1.shape)
    (hsh : ∀ x, x.shape = y1.shape → (b x).shape = (b y1).shape)
    (hb : ∀ x, x.shape = y1.shape → b (flipped d x) = flipped d (b x)) :
    pointMap F b (flipped d y1) (flipped d y2) = flipped d (pointMap F b y1 y2) := by
  have e1 := hb y1 rfl
  have e2 := hb y2 h12
  have e3 := hb (times y1 y1) rfl
  have e4 := hb (times y2 y2) h12
  have e5 := hb (times y1 y2) rfl
  rw [pointMap, e1, e2, times_flip rfl, times_flip rfl, times_flip h12, e3, e4, e5]
  have e : (pointMap F b y1 y2).shape = (b y1).shape := rfl
  rw [flipped_shape, show flipped d (pointMap F b y1 y2) = ofFn (pointMap F b y1 y2).shape _ from rfl, e]
  apply ofFn_congr
  intro ix hix'
  have s2 := hsh y2 h12
  have s3 := hsh (times y1 y1) rfl
  have s4 := hsh (times y2 y2) h12
  have s5 := hsh (times y1 y2) rfl
  rw [flipped_get hix', flipped_get (x := b y2) (by rw [s2]; exact hix'), flipped_get (x := b (times y1 y1)) (by rw [s3]; exact hix'),
    flipped_get (x := b (times y2 y2)) (by rw [s4]; exact hix'), flipped_get (x := b (times y1 y2)) (by rw [s5]; exact hix'), s2, s3, s4, s5,
    pointMap, get_ofFn (flip_inB hix')]

end

/-! ## blurs -/

section
variable {α : Type} [Field α] [LinearOrder α] [IsStrictOrderedRing α]

theorem poolSeq_flip_one {d : Nat} : ∀ {ops : List (PoolOp α)} {x : Tensor α}, Fitting x ops →
    (∀ o ∈ ops, o.axis = d → o.stride = 1 ∧ o.kernel.reverse = o.kernel) → poolSeq (flipped d x) ops = flipped d (poolSeq x ops)
  | [], _, _, _ => rfl
  | o :: ops, x, h, hp => by
    have e : slide (flipped d x) o = flipped d (slide x o) := by
      by_cases hk : o.kernel = []
      · simp [slide, hk]
      by_cases hd : o.axis = d
      · obtain ⟨h1, h2⟩ := hp o (by simp) hd
        have := slide_flip_self (x := x) (d := d) (w := o.kernel) (s := o.stride) (hd ▸ (h.1 hk).1) (h.1 hk).2.1 (hd ▸ (h.1 hk).2.2)
          (by rw [h1, Nat.mod_one])
        rw [h2] at this
        obtain ⟨a, w, s⟩ := o
        simp only at hd
        subst hd
        exact this
      · exact slide_flip_other (fun hk => (h.1 hk).1) (fun hk => (h.1 hk).2.1) hd
    show poolSeq (slide (flipped d x) o) ops = flipped d (poolSeq (slide x o) ops)
    rw [e]
    exact poolSeq_flip_one h.2 fun q hq => hp q (by simp [hq])

/-- What a blur needs to commute with reversing axis `d` of `n` samples: palindromic weights; with a padder also palindromic padding settings, an
odd number of weights, and an even number of samples for `periodize`. -/
def Spec.FlipBlur (d : Nat) (axes : List Nat) (g : Given (List α)) (n : Nat) : Option (PadArgs α) → Prop
  | none => ∀ i < axes.length, axes.getD i 0 = d → (g.entry [] i).reverse = g.entry [] i
  | some gp => Palindromic d axes (PoolArgs.filter g) gp ∧ ∀ i < axes.length, axes.getD i 0 = d → (g.entry [] i).length % 2 = 1 ∧
      ((gp.mode.entry .unknown i).isPeriodize = true → n % 2 = 0)

theorem blurred_flip {g : Given (List α)} {gp : Option (PadArgs α)} {x : Tensor α} {ax : Axes} {axes : List Nat} {p : Option (Padder α)} {d : Nat}
    (h : BlurCall g gp x ax axes p) (hf : FlipBlur d axes g (x.shape.getD d 0) gp) :
    blurred g gp axes (flipped d x) = flipped d (blurred g gp axes x) := by
  cases gp with
  | none =>
    refine poolSeq_flip_one h.2.2 ?_
    intro o ho hd
    obtain ⟨i, hi, rfl⟩ := mem_ops.1 ho
    exact ⟨rfl, hf i hi hd⟩
  | some gp =>
    refine same_flip h.2 hf.1.mirrors (balanced_odd ?_)
    intro i hi hd
    exact ⟨rfl, hf.2 i hi hd⟩

end
end TI
