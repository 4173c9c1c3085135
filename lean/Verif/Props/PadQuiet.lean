import Verif.Proofs.SsimQuiet
import Verif.Props.PadMisc
import Verif.Props.Ssim

/-!
# Modes that write nothing: C89
-/

set_option linter.unusedSectionVars false

namespace TI
open Tensor Spec

variable {α : Type} [Field α] [LinearOrder α] [IsStrictOrderedRing α]
variable {p : Padder α} {x : Tensor α} {ax : Axes} {axes : List Nat} {ss : List (AxisPad α)}

/-- **C89.** What `Padder.forward` returns when the modes `"empty"` and `"zeros"` are mixed with modes that define values: at the positions
between the original samples of the quiet axes the result of padding the other axes, elsewhere whatever the fresh buffer contained.  A
widened `"zeros"` axis must not be handled before an axis on which something is written. -/
theorem C89_forward (h : KnownReq p x ax axes ss) (hz : ZerosLast (zipRight axes ss)) (junk : List Nat → α) :
    p.forward junk x ax = .ok (quietPad junk x (zipRight axes ss)) := forward_quietPad h hz junk

/-- **C89**, position by position -/
theorem C89_entries (h : KnownReq p x ax axes ss) (hz : ZerosLast (zipRight axes ss)) (junk : List Nat → α) :
    ∃ y, p.forward junk x ax = .ok y ∧ y.ndim = x.ndim ∧ ∀ ix, InB y.shape ix →
      (Inside x.shape (quietOps (zipRight axes ss)) ix →
        InB (padSeq x (writingOps (zipRight axes ss))).shape (back (quietOps (zipRight axes ss)) ix) ∧
        y.get ix = (padSeq x (writingOps (zipRight axes ss))).get (back (quietOps (zipRight axes ss)) ix)) ∧
      (¬ Inside x.shape (quietOps (zipRight axes ss)) ix → y.get ix = junk ix) := by
  obtain ⟨y, h1, h2, _, h4⟩ := forward_quiet h hz junk
  exact ⟨y, h1, h2, h4⟩

/-- **C89.** The original samples are kept. -/
theorem C89_interior (h : KnownReq p x ax axes ss) (hz : ZerosLast (zipRight axes ss)) (junk : List Nat → α) :
    ∃ y, p.forward junk x ax = .ok y ∧ ∀ ix, InB x.shape ix →
      InB y.shape (embed (zipRight axes ss) ix) ∧ y.get (embed (zipRight axes ss) ix) = x.get ix := by
  refine ⟨_, forward_quietPad h hz junk, fun ix hix => ?_⟩
  have hr := h.toPadReq
  refine quietPad_crop ?_ (zipRight_nodup hr.nodup hr.len_le) junk (fun o ho => (checkAxes_spec hr.axes_eq).2 _ (zipRight_mem ho).1) hix
  intro o ho hw
  obtain ⟨h1, h2⟩ := mem_writingOps.1 ho
  rcases h.known o h1 hw with h3 | h3
  · rw [h2] at h3; cases h3
  · exact h3.1

/-- **C89.** Two runs with buffers of different content agree at all positions between the original samples of the quiet axes. -/
theorem C89_deterministic_part (h : KnownReq p x ax axes ss) (hz : ZerosLast (zipRight axes ss)) (junk junk' : List Nat → α) :
    ∃ y y', p.forward junk x ax = .ok y ∧ p.forward junk' x ax = .ok y' ∧ y'.shape = y.shape ∧ ∀ ix, InB y.shape ix →
      Inside x.shape (quietOps (zipRight axes ss)) ix → y.get ix = y'.get ix := by
  refine ⟨_, _, forward_quietPad h hz junk, forward_quietPad h hz junk', rfl, fun ix hix hin => ?_⟩
  rw [quietPad_shape] at hix
  rw [quietPad, get_ofFn hix, quietPad, get_ofFn hix, if_pos hin, if_pos hin]

/-- **C89.** `forward` succeeds exactly if no widened `"zeros"` axis is handled before an axis on which something is written; otherwise it
raises TypeError. -/
theorem C89_type_error (h : KnownReq p x ax axes ss) (junk : List Nat → α) :
    ((∃ y, p.forward junk x ax = .ok y) ↔ ZerosLast (zipRight axes ss)) ∧
      (¬ ZerosLast (zipRight axes ss) → p.forward junk x ax = .error .type) := by
  refine ⟨⟨?_, fun hz => ⟨_, forward_quietPad h hz junk⟩⟩, fun hz => forward_order_raises h hz junk⟩
  rintro ⟨y, hy⟩
  by_contra hz
  rw [forward_order_raises h hz junk] at hy
  cases hy

namespace QuietExample
open SsimExample

/-- `Padder((1, 1), mode=[m0, m1])` -/
def pad2 (m0 m1 : Mode ℚ) : PadArgs ℚ := ⟨.one (1, 1), .many [m0, m1], .one (4, 4), .one (0, 0), .one (none, none)⟩

def img : Tensor ℚ := Tensor.ofFn [1, 2] fun ix => (ix.getD 1 0 + 1 : ℚ)

theorem known (m0 m1 : Mode ℚ) (h0 : m0 = .empty ∨ m0 = .zeros ∨ m0 = .replicate) (h1 : m1 = .empty ∨ m1 = .zeros ∨ m1 = .replicate) :
    KnownReq ((pad2 m0 m1).padder 2) img .none [0, 1] ((pad2 m0 m1).settings 2 2) where
  toPadReq := req_args (g := pad2 m0 m1) (m := 2) (by decide) ⟨trivial, rfl, trivial, trivial, trivial⟩ (by decide) (by decide) (by decide)
  known := by
    have e : zipRight [0, 1] ((pad2 m0 m1).settings 2 2) = [(0, (pad2 m0 m1).entry 0), (1, (pad2 m0 m1).entry 1)] := rfl
    rw [e]
    intro o ho _
    simp only [List.mem_cons, List.not_mem_nil, or_false] at ho
    rcases ho with rfl | rfl
    · rcases h0 with rfl | rfl | rfl
      · exact Or.inl rfl
      · exact Or.inl rfl
      · exact Or.inr ⟨by simp [AxisPad.rule?, pad2, PadArgs.entry, Given.entry], by simp [img, Tensor.ofFn]⟩
    · rcases h1 with rfl | rfl | rfl
      · exact Or.inl rfl
      · exact Or.inl rfl
      · exact Or.inr ⟨by simp [AxisPad.rule?, pad2, PadArgs.entry, Given.entry], by simp [img, Tensor.ofFn]⟩

theorem zerosLast (m0 m1 : Mode ℚ) (h : m0 = .zeros → m1 = .empty ∨ m1 = .zeros) :
    ZerosLast (zipRight [0, 1] ((pad2 m0 m1).settings 2 2)) := by
  have e : zipRight [0, 1] ((pad2 m0 m1).settings 2 2) = [(0, (pad2 m0 m1).entry 0), (1, (pad2 m0 m1).entry 1)] := rfl
  rw [e]
  refine List.Pairwise.cons ?_ (List.pairwise_singleton _ _)
  intro o ho hz _ _
  rw [List.mem_singleton] at ho
  subst ho
  have hz : m0 = .zeros := hz
  rcases h hz with rfl | rfl <;> rfl

/-- C89: `"empty"` on the rows, `"replicate"` on the columns: the middle row is written, the others are what the buffer contained -/
example : (quietPad (fun _ => 7) img (zipRight [0, 1] ((pad2 .empty .replicate).settings 2 2))).data = [7, 7, 7, 7, 1, 1, 2, 2, 7, 7, 7, 7] ∧
    (((pad2 .empty .replicate).padder 2).forward (fun _ => 7) img .none).toOption.map (·.data) = some [7, 7, 7, 7, 1, 1, 2, 2, 7, 7, 7, 7] := by
  decide +kernel

/-- C89 applies to it -/
example (junk : List Nat → ℚ) : ((pad2 .empty .replicate).padder 2).forward junk img .none =
    .ok (quietPad junk img (zipRight [0, 1] ((pad2 .empty .replicate).settings 2 2))) :=
  C89_forward (known _ _ (by simp) (by simp)) (zerosLast _ _ (by simp)) junk

/-- C89: `"replicate"` on the rows, `"zeros"` on the columns -/
example (junk : List Nat → ℚ) : ∃ y, ((pad2 .replicate .zeros).padder 2).forward junk img .none = .ok y ∧ ∀ ix, InB img.shape ix →
    InB y.shape (embed (zipRight [0, 1] ((pad2 .replicate .zeros).settings 2 2)) ix) ∧
    y.get (embed (zipRight [0, 1] ((pad2 .replicate .zeros).settings 2 2)) ix) = img.get ix :=
  C89_interior (known _ _ (by simp) (by simp)) (zerosLast _ _ (by simp)) junk

/-- C89: `"zeros"` on the rows, `"replicate"` on the columns raises TypeError -/
example (junk : List Nat → ℚ) : ((pad2 .zeros .replicate).padder 2).forward junk img .none = .error .type := by
  refine (C89_type_error (known _ _ (by simp) (by simp)) junk).2 fun h => ?_
  have e : zipRight [0, 1] ((pad2 .zeros .replicate).settings 2 2) = [(0, (pad2 .zeros .replicate).entry 0), (1, (pad2 .zeros .replicate).entry 1)] := rfl
  rw [e, ZerosLast, List.pairwise_cons] at h
  have := h.1 _ (List.mem_singleton_self _) rfl (by rintro ⟨h, _⟩; cases h) (by rintro ⟨h, _⟩; cases h)
  cases this

/-- C60: `SSIM(AvgPoolNd(3), "empty")` with cropping: what the buffers contained (7) shows in the map but not in the score -/
example : run 3 1 1 true (sig [0, 0, 3]) (sig [3, 0, 0]) (some ((args .empty).padder 1)) = some ([-1 / 5], [13261 / 11218, -1 / 5, 13261 / 11218]) := by
  decide +kernel

theorem knownCall_empty : KnownCall (PoolArgs.filter (.one (avgKernel (α := ℚ) 3))) (args .empty) (sig [1, 2, 4, 9]) .none [0] where
  axes_eq := by decide
  ne := by decide
  nodup := by decide
  fits := by intro h; cases h
  rest := ⟨trivial, trivial, trivial, trivial⟩
  stride := by intro i _; exact Nat.one_pos
  pos := by decide
  known := by
    intro o ho _
    obtain ⟨i, _, rfl⟩ := sameOps_mem ho
    exact Or.inl rfl
  zerosLast := List.pairwise_singleton _ _

/-- C60: the hypotheses hold for mode `"empty"` -/
example (y : Tensor ℚ) (hy : y.shape = [4]) (junk : List Nat → ℚ) : ∃ (pool : SepPool ℚ) (s : SSIM ℚ),
    SepPool.avgInit (.leaf (some 3)) (.leaf none) = .ok pool ∧ SSIM.init pool false (1 / 100) (3 / 100) true true = .ok s ∧
    ∃ score full full' q, s.forward junk (sig [1, 2, 4, 9]) y .none .none (some ((args .empty).padder 1)) = (q, .ok (score, full)) ∧
      s.forward junk (sig [1, 2, 4, 9]) y .none .none none = (none, .ok (score, full')) := by
  obtain ⟨pool, h1, h2, _⟩ := C34_average_kernels (α := ℚ) (size := .one 3) (st := .one none) (m := 1) (by decide) trivial trivial
    (by intro s hs; simp [Given.values] at hs; simp [hs])
  obtain ⟨f, hf, _⟩ := h2.poolIs.1.toFilter
  have hi : SSIM.init pool false (1 / 100) (3 / 100) true true = .ok (⟨f, false, 1 / 100, 3 / 100, true, true⟩ : SSIM ℚ) := by
    simp only [SSIM.init, hf, ok_bind]
  refine ⟨pool, _, h1, hi, C60_padding_irrelevant_partial hi h2 (by intro h; cases h) knownCall_empty (holds_padder _ 1) ?_ ?_ ?_ hy
    (raxes := [0]) (by decide) (by decide) junk⟩
  · intro i hi; exact Or.inr (by rw [Nat.lt_one_iff.1 hi]; decide)
  · intro i hi; rw [Nat.lt_one_iff.1 hi]; decide
  · intro _; decide

end QuietExample

end TI
