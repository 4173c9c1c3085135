import Verif.Proofs.ConvLike

/-!
# Bounds on `⌈n/s⌉`
-/

namespace TI
open Spec

theorem ceilDiv_bounds {n s : Nat} (hs : 0 < s) (hn : 0 < n) :
    0 < ceilDiv n s ∧ (ceilDiv n s - 1) * s < n ∧ n ≤ (ceilDiv n s - 1) * s + s := by
  rw [ceilDiv_eq hs]
  have h1 : (n + s - 1) / s = (n - 1) / s + 1 := by
    rw [show n + s - 1 = n - 1 + s by omega, Nat.add_div_right _ hs]
  rw [h1]
  have h2 := Nat.div_add_mod (n - 1) s
  have h3 := Nat.mod_lt (n - 1) hs
  rw [Nat.mul_comm] at h2
  simp only [Nat.add_sub_cancel]
  generalize (n - 1) / s = q at *
  refine ⟨by omega, by omega, by omega⟩

theorem ceilDiv_zero (s : Nat) : ceilDiv 0 s = 0 := rfl

end TI
