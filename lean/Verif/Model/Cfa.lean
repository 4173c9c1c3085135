import Verif.Model.Misc
import Verif.Model.NdSpec
import Mathlib.Algebra.Order.Field.Basic
import Mathlib.Algebra.BigOperators.Group.List.Basic

/-!
# torchimage/cfa: colour filter arrays

Strings are lists of characters.  `KeyError` is written `Err.index`, `NotImplementedError` is written `Err.runtime`.
Not modelled: dtype and device, the training of the convolution weights (`BayerConv2d` is used with arbitrary weights).
-/

namespace TI

namespace Tensor
variable {α : Type} [Zero α]

/-- `x.shape[:-k]` -/
def initShape (x : Tensor α) (k : Nat) : List Nat := x.shape.take (x.shape.length - k)

/-- `x.shape[-k]` for `k ≤ x.ndim` -/
def axisEnd (x : Tensor α) (k : Nat) : Nat := x.shape.getD (x.shape.length - k) 0

/-- the index tuple `(..., s₁, .., sₘ)` -/
def lastIdx (ndim : Nat) (sl : List PySlice) : List PySlice := List.replicate (ndim - sl.length) .full ++ sl

/-- `x[..., s₁, .., sₘ]`: slices on the last axes; IndexError if there are not enough axes -/
def getLast (x : Tensor α) (sl : List PySlice) : Except Err (Tensor α) :=
  if x.ndim < sl.length then .error .index else .ok (x.getSlice (lastIdx x.ndim sl))

/-- `y[..., s₁, .., sₘ] = v` -/
def setLast (y : Tensor α) (sl : List PySlice) (v : Tensor α) : Except Err (Tensor α) :=
  if y.ndim < sl.length then .error .index else y.setSlice (lastIdx y.ndim sl) v

/-- is there a channel `k` on axis -3 -/
def hasChan (x : Tensor α) (k : Nat) : Bool := 3 ≤ x.ndim ∧ k < x.axisEnd 3

/-- the index `[k]` as a slice -/
def one (k : Nat) : PySlice := .between k (k + 1)

/-- `x[..., [k], s, t]`; IndexError if there is no such channel -/
def getChan (x : Tensor α) (k : Nat) (s t : PySlice) : Except Err (Tensor α) :=
  if x.hasChan k then x.getLast [one k, s, t] else .error .index

/-- `y[..., [k], s, t] = v` -/
def setChan (y : Tensor α) (k : Nat) (s t : PySlice) (v : Tensor α) : Except Err (Tensor α) :=
  if y.hasChan k then y.setLast [one k, s, t] v else .error .index

/-- drop axis -3, which has length one -/
def squeeze3 (x : Tensor α) : Tensor α :=
  ofFn (x.initShape 3 ++ x.shape.drop (x.shape.length - 2)) fun ix =>
    x.get (ix.take (ix.length - 2) ++ 0 :: ix.drop (ix.length - 2))

/-- insert an axis of length one before the last two -/
def unsqueeze3 (x : Tensor α) : Tensor α :=
  ofFn (x.initShape 2 ++ 1 :: x.shape.drop (x.shape.length - 2)) fun ix =>
    x.get (ix.take (ix.length - 3) ++ ix.drop (ix.length - 2))

/-- `x[..., k, s, t]`: the integer index removes its axis -/
def getPlane (x : Tensor α) (k : Nat) (s t : PySlice) : Except Err (Tensor α) := do
  let y ← x.getChan k s t
  .ok y.squeeze3

/-- `y[..., k, s, t] = v` for a value with at least two axes: the region has no channel axis, so the value is lined up with the
axes before and after it -/
def setPlane (y : Tensor α) (k : Nat) (s t : PySlice) (v : Tensor α) : Except Err (Tensor α) :=
  y.setChan k s t v.unsqueeze3

/-- `torch.stack(xs, dim=-3)` -/
def stack3 (xs : List (Tensor α)) : Except Err (Tensor α) :=
  match xs with
  | [] => .error .runtime
  | x :: rest =>
    if x.ndim < 2 then .error .index
    else if rest.all fun y => y.shape == x.shape then
      .ok (ofFn (x.initShape 2 ++ (rest.length + 1) :: x.shape.drop (x.shape.length - 2)) fun ix =>
        ((x :: rest).map fun y => y.get (ix.take (ix.length - 3) ++ ix.drop (ix.length - 2))).getD (ix.getD (ix.length - 3) 0) 0)
    else .error .runtime

/-- `torch.cat(xs, dim=-3)`: the shapes agree on the other axes -/
def cat3 (xs : List (Tensor α)) : Except Err (Tensor α) :=
  match xs with
  | [] => .error .runtime
  | x :: rest =>
    if x.ndim < 3 then .error .index
    else if rest.all fun y => y.ndim == x.ndim && y.initShape 3 == x.initShape 3 && y.shape.drop (y.shape.length - 2) == x.shape.drop (x.shape.length - 2) then
      .ok (ofFn (x.initShape 3 ++ ((x :: rest).map fun y => y.axisEnd 3).sum :: x.shape.drop (x.shape.length - 2)) fun ix =>
        ((x :: rest).flatMap fun y => (List.range (y.axisEnd 3)).map fun k =>
          y.get (ix.take (ix.length - 3) ++ k :: ix.drop (ix.length - 2))).getD (ix.getD (ix.length - 3) 0) 0)
    else .error .runtime

end Tensor

/-! ## cfa/utils/validation.py -/

/-- validation.py:11-42 `check_sensor_alignment` on a string; anything else fails the first assertion.  `upper` is the ASCII one:
no other character has `R`, `G` or `B` as upper case. -/
def checkAlignment (s : List Char) : Except Err (List Char) :=
  if s.length ≠ 4 then .error .assertion
  else
    let s := s.map Char.toUpper
    if s = ['G', 'B', 'R', 'G'] ∨ s = ['G', 'R', 'B', 'G'] ∨ s = ['B', 'G', 'G', 'R'] ∨ s = ['R', 'G', 'G', 'B'] then .ok s
    else .error .assertion

section
variable {α : Type} [Zero α]

/-- validation.py:45-65 `check_1c_bayer` -/
def check1c (x : Tensor α) : Except Err Unit :=
  if 3 ≤ x.ndim ∧ x.axisEnd 3 = 1 ∧ x.axisEnd 2 % 2 = x.axisEnd 1 % 2 ∧ x.axisEnd 1 % 2 = 0 then .ok () else .error .assertion

/-- validation.py:68-86 `check_4c_bayer` -/
def check4c (x : Tensor α) : Except Err Unit :=
  if 3 ≤ x.ndim ∧ x.axisEnd 3 = 4 then .ok () else .error .assertion

/-- validation.py:89-110 `check_rgb` -/
def checkRgb (x : Tensor α) : Except Err Unit :=
  if 3 ≤ x.ndim ∧ x.axisEnd 3 = 3 then .ok () else .error .assertion

/-! ## cfa/utils/bayer_1c_4c.py -/

/-- the slice `r::2` -/
def every2 (r : Nat) : PySlice := .strided r 2

/-- `for r in 0, 1: for c in 0, 1:` around an update -/
def forCells (f : Nat → Nat → Tensor α → Except Err (Tensor α)) (y : Tensor α) : Except Err (Tensor α) := do
  let y ← f 0 0 y
  let y ← f 0 1 y
  let y ← f 1 0 y
  f 1 1 y

/-- `for r in 0, 1: for c in 0, 1:` around `list.append` -/
def listCells (f : Nat → Nat → Except Err (Tensor α)) : Except Err (List (Tensor α)) := do
  let a ← f 0 0
  let b ← f 0 1
  let c ← f 1 0
  let d ← f 1 1
  .ok [a, b, c, d]

/-- bayer_1c_4c.py:36-60 `bayer_1c_to_4c` -/
def bayer1cTo4c (x : Tensor α) : Except Err (Tensor α) := do
  check1c x
  let l ← listCells fun r c => x.getLast [every2 r, every2 c]
  Tensor.cat3 l

/-- bayer_1c_4c.py:63-89 `bayer_4c_to_1c`; `channel_index` is `2 * r + c` -/
def bayer4cTo1c (junk : List Nat → α) (x : Tensor α) : Except Err (Tensor α) := do
  check4c x
  let y := Tensor.empty junk (x.initShape 3 ++ [1, 2 * x.axisEnd 2, 2 * x.axisEnd 1])
  forCells (fun r c y => do
    let v ← x.getPlane (2 * r + c) .full .full
    y.setPlane 0 (every2 r) (every2 c) v) y

/-! ## cfa/utils/rgb_to_bayer.py -/

/-- rgb_to_bayer.py:28-32 and bayer_conv_2d.py:15-19 `_color_dict` -/
def colorIndex (c : Char) : Except Err Nat :=
  if c = 'R' then .ok 0 else if c = 'G' then .ok 1 else if c = 'B' then .ok 2 else .error .index

/-- `_color_dict[sensor_alignment[r * 2 + c]]` -/
def cellColor (sa : List Char) (r c : Nat) : Except Err Nat := do
  let l ← pyIndex sa ((r * 2 + c : Nat) : Int)
  colorIndex l

/-- rgb_to_bayer.py:35-65 `rgb_to_1c_bayer` -/
def rgbTo1c (junk : List Nat → α) (x : Tensor α) (sa : List Char) : Except Err (Tensor α) := do
  checkRgb x
  let sa ← checkAlignment sa
  if x.axisEnd 2 % 2 = x.axisEnd 1 % 2 ∧ x.axisEnd 1 % 2 = 0 then
    let y := Tensor.empty junk (x.initShape 3 ++ [1, x.axisEnd 2, x.axisEnd 1])
    forCells (fun r c y => do
      let k ← cellColor sa r c
      let v ← x.getPlane k (every2 r) (every2 c)
      y.setPlane 0 (every2 r) (every2 c) v) y
  else .error .assertion

/-- rgb_to_bayer.py:68-99 `rgb_to_4c_bayer` -/
def rgbTo4c (x : Tensor α) (sa : List Char) : Except Err (Tensor α) := do
  checkRgb x
  let sa ← checkAlignment sa
  if x.axisEnd 2 % 2 = x.axisEnd 1 % 2 ∧ x.axisEnd 1 % 2 = 0 then
    let l ← listCells fun r c => do
      let k ← cellColor sa r c
      x.getPlane k (every2 r) (every2 c)
    Tensor.stack3 l
  else .error .assertion

/-- `s.index(c)`: the first position -/
def indexOf (s : List Char) (c : Char) : Except Err Nat :=
  if c ∈ s then .ok (s.idxOf c) else .error .value

/-- `s.rindex(c)`: the last position -/
def rindexOf (s : List Char) (c : Char) : Except Err Nat :=
  if c ∈ s then .ok (s.length - 1 - s.reverse.idxOf c) else .error .value

/-! ## cfa/bayer_conv/bayer_conv_2d.py -/

/-- bayer_conv_2d.py:11 `relative_positions`: red, blue, green in a red row, green in a blue row -/
inductive Pos where
  | R | B | GR | GB
  deriving DecidableEq

/-- the strings of line 11 -/
def Pos.name : Pos → List Char
  | .R => ['R']
  | .B => ['B']
  | .GR => ['G', 'R']
  | .GB => ['G', 'B']

/-- bayer_conv_2d.py:44-55 `get_sensor_beg_index`: row and column of the first pixel of each kind -/
def begIndex (sa : List Char) : Except Err (Pos → Nat × Nat) := do
  let r ← indexOf sa 'R'
  let b ← indexOf sa 'B'
  .ok fun
    | .R => (r / 2, r % 2)
    | .B => (b / 2, b % 2)
    | .GR => (r / 2, 1 - r % 2)
    | .GB => (b / 2, 1 - b % 2)

/-- `for pos_rel in relative_positions:` around an update -/
def forPos {β : Type} (f : Pos → β → Except Err β) (y : β) : Except Err β := do
  let y ← f .R y
  let y ← f .B y
  let y ← f .GR y
  f .GB y

/-- bayer_conv_2d.py:138-142: the channel of the pixel and the channels of the other two colours -/
def posColors (p : Pos) : Except Err (Nat × Nat × Nat) := do
  let c ← pyIndex p.name 0
  let k ← colorIndex c
  match ['R', 'G', 'B'].filter (· ≠ c) with
  | [a, b] => do
    let a ← colorIndex a
    let b ← colorIndex b
    .ok (k, a, b)
  | _ => .error .value

/-- bayer_conv_2d.py:124-143 `last_step_demosaic` -/
def lastStep (junk : List Nat → α) (x y : Tensor α) (sa : List Char) : Except Err (Tensor α) := do
  let sa ← checkAlignment sa
  let beg ← begIndex sa
  if x.initShape 3 = y.initShape 3 ∧ x.shape.drop (x.shape.length - 2) = y.shape.drop (y.shape.length - 2) then
    let ret := Tensor.empty junk (x.initShape 3 ++ 3 :: x.shape.drop (x.shape.length - 2))
    forPos (fun p ret => do
      let (k, a, b) ← posColors p
      let (r, c) := beg p
      let v ← x.getLast [.full, every2 r, every2 c]
      let ret ← ret.setChan k (every2 r) (every2 c) v
      let v ← y.getChan 0 (every2 r) (every2 c)
      let ret ← ret.setChan a (every2 r) (every2 c) v
      let v ← y.getChan 1 (every2 r) (every2 c)
      ret.setChan b (every2 r) (every2 c) v) ret
  else .error .assertion

/-- PyTorch reflection padding, one axis of size `n` with `p` samples before it (negative: removed): the source of output `j` -/
def reflectSource (n : Nat) (p : Int) (j : Nat) : Nat :=
  let i : Int := if (j : Int) < p then 2 * p - j else if (j : Int) < n + p then j else 2 * (n + p - 1) - j
  (i - p).toNat

/-- PyTorch `nn.ReflectionPad2d((left, right, top, bottom))` on `(c, h, w)` or `(n, c, h, w)`: RuntimeError for other ranks, for empty
axes other than the batch, for a padding that is not smaller than the axis, and for an empty result -/
def reflectionPad2d (x : Tensor α) (left right top bottom : Int) : Except Err (Tensor α) :=
  let h := x.axisEnd 2
  let w := x.axisEnd 1
  if (x.ndim = 3 ∨ x.ndim = 4) ∧ x.axisEnd 3 ≠ 0 ∧ h ≠ 0 ∧ w ≠ 0 ∧ left < w ∧ right < w ∧ top < h ∧ bottom < h ∧
      1 ≤ h + top + bottom ∧ 1 ≤ w + left + right then
    .ok (Tensor.ofFn (x.initShape 2 ++ [((h : Int) + top + bottom).toNat, ((w : Int) + left + right).toNat]) fun ix =>
      x.get (ix.take (ix.length - 2) ++ [reflectSource h top (ix.getD (ix.length - 2) 0), reflectSource w left (ix.getD (ix.length - 1) 0)]))
  else .error .runtime

/-- bayer_conv_2d.py:22-41 `get_padding_layer`, applied -/
def bayerPad (kernelSize : Nat) (r c : Nat) (x : Tensor α) : Except Err (Tensor α) :=
  let offset : Int := ((kernelSize / 2 : Nat) : Int)
  reflectionPad2d x (offset - c) ((offset + 1) - (2 - c)) (offset - r) ((offset + 1) - (2 - r))

end

/-- bayer_conv_2d.py:58-83, the attributes of a `BayerConv2d`: for each kind of pixel, weights `(out, in, row, column)` and biases `(out)`;
`bias=False` is the bias zero -/
structure BayerConv (α : Type) where
  inC : Nat
  outC : Nat
  size : Nat
  weight : Pos → Nat → Nat → Nat → Nat → α
  bias : Pos → Nat → α

section
variable {α : Type} [Field α]

/-- PyTorch `nn.Conv2d(.., kernel_size, stride=2)` on `(c, h, w)` or `(n, c, h, w)`: RuntimeError if the channels do not match or the kernel
does not fit -/
def conv2dStride2 (inC outC size : Nat) (weight : Nat → Nat → Nat → Nat → α) (bias : Nat → α) (x : Tensor α) : Except Err (Tensor α) :=
  let h := x.axisEnd 2
  let w := x.axisEnd 1
  if (x.ndim = 3 ∨ x.ndim = 4) ∧ x.axisEnd 3 = inC ∧ size ≠ 0 ∧ size ≤ h ∧ size ≤ w then
    .ok (Tensor.ofFn (x.initShape 3 ++ [outC, (h - size) / 2 + 1, (w - size) / 2 + 1]) fun ix =>
      let o := ix.getD (ix.length - 3) 0
      let i := ix.getD (ix.length - 2) 0
      let j := ix.getD (ix.length - 1) 0
      ((List.range inC).map fun k => ((List.range size).map fun a => ((List.range size).map fun b =>
        weight o k a b * x.get (ix.take (ix.length - 3) ++ [k, 2 * i + a, 2 * j + b])).sum).sum).sum + bias o)
  else .error .runtime

namespace BayerConv

/-- bayer_conv_2d.py:97-99 `conv(pad(x))` for one kind of pixel -/
def convAt (m : BayerConv α) (p : Pos) (r c : Nat) (x : Tensor α) : Except Err (Tensor α) := do
  let x ← bayerPad m.size r c x
  conv2dStride2 m.inC m.outC m.size (m.weight p) (m.bias p) x

/-- bayer_conv_2d.py:85-100 `forward` -/
def forward (m : BayerConv α) (junk : List Nat → α) (x : Tensor α) (sa : List Char) : Except Err (Tensor α) := do
  let y := Tensor.empty junk (x.initShape 3 ++ m.outC :: x.shape.drop (x.shape.length - 2))
  let sa ← checkAlignment sa
  let beg ← begIndex sa
  forPos (fun p y => do
    let (r, c) := beg p
    let v ← m.convAt p r c x
    y.setLast [every2 r, every2 c] v) y

/-- bayer_conv_2d.py:102-121 `forward_unshuffle`; IndexError for 0-d and 1-d tensors (`x.shape[0]`, `x.shape[-2]`) -/
def forwardUnshuffle (m : BayerConv α) (junk : List Nat → α) (x : Tensor α) (sa : List Char) : Except Err (Tensor α) := do
  if x.ndim < 2 then .error .index
  else
    let y := Tensor.empty junk [x.shape.getD 0 0, m.outC * 4, x.axisEnd 2 / 2, x.axisEnd 1 / 2]
    let sa ← checkAlignment sa
    let beg ← begIndex sa
    forPos (fun p y => do
      let (r, c) := beg p
      let v ← m.convAt p r c x
      y.setSlice [.full, .strided (r * 2 + c : Nat) 4, .full, .full] v) y

/-- bayer_conv_2d.py:160-162 `weight_dict[key]` -/
def lookup (dict : List (List Char × List (List α))) (key : List Char) : Except Err (List (List α)) :=
  match dict.find? fun e => e.1 == key with
  | some e => .ok e.2
  | none => .error .index

/-- bayer_conv_2d.py:155-167 for one kind of pixel: the stacked weights of the other two colours -/
def dictWeights (dict : List (List Char × List (List α))) (p : Pos) : Except Err (List (List (List α))) := do
  let c ← pyIndex p.name 0
  match ['R', 'G', 'B'].filter (· ≠ c) with
  | [a, b] => do
    let wa ← lookup dict (a :: p.name)
    let wb ← lookup dict (b :: p.name)
    .ok [wa, wb]
  | _ => .error .value

/-- bayer_conv_2d.py:147-167 `PreTrainedBilinearInterpolator.__init__`; the arrays are square of one size (StopIteration for an empty
dictionary is written `Err.runtime`) -/
def pretrained (dict : List (List Char × List (List α))) : Except Err (BayerConv α) := do
  match dict with
  | [] => .error .runtime
  | (_, first) :: _ =>
    let wr ← dictWeights dict .R
    let wb ← dictWeights dict .B
    let wgr ← dictWeights dict .GR
    let wgb ← dictWeights dict .GB
    .ok
      { inC := 1, outC := 2, size := first.length
        weight := fun p o _ a b =>
          let l := match p with
            | .R => wr
            | .B => wb
            | .GR => wgr
            | .GB => wgb
          ((l.getD o []).getD a []).getD b 0
        bias := fun _ _ => 0 }

end BayerConv

/-! ## cfa/bayer_conv/gradient_corrected.py -/

/-- `np.array(rows) / 8` -/
def eighth (rows : List (List α)) : List (List α) := rows.map fun r => r.map fun v => v / 8

/-- gradient_corrected.py:15-21 -/
def wf0 : List (List α) := eighth [[0, 0, -1, 0, 0], [0, 0, 2, 0, 0], [-1, 2, 4, 2, -1], [0, 0, 2, 0, 0], [0, 0, -1, 0, 0]]

/-- gradient_corrected.py:24-30 -/
def wf1 : List (List α) :=
  eighth [[0, 0, 1 / 2, 0, 0], [0, -1, 0, -1, 0], [-1, 4, 5, 4, -1], [0, -1, 0, -1, 0], [0, 0, 1 / 2, 0, 0]]

/-- gradient_corrected.py:33 `wf_list[1].T` -/
def wf2 : List (List α) := (List.range 5).map fun i => (List.range 5).map fun j => ((wf1 (α := α)).getD j []).getD i 0

/-- gradient_corrected.py:36-42 -/
def wf3 : List (List α) :=
  eighth [[0, 0, -(3 / 2), 0, 0], [0, 2, 0, 2, 0], [-(3 / 2), 0, 6, 0, -(3 / 2)], [0, 2, 0, 2, 0], [0, 0, -(3 / 2), 0, 0]]

/-- gradient_corrected.py:49-54 `wf_dict` -/
def wfDict : List (List Char × List (List α)) :=
  [(['G', 'R'], wf0), (['G', 'B'], wf0), (['R', 'G', 'R'], wf1), (['B', 'G', 'B'], wf1), (['R', 'G', 'B'], wf2), (['B', 'G', 'R'], wf2),
    (['B', 'R'], wf3), (['R', 'B'], wf3)]

variable [LinearOrder α]

/-- PyTorch `x.clamp(lo, hi)`: the upper bound wins -/
def clampTo (lo hi v : α) : α := min (max v lo) hi

/-- bayer_conv_2d.py:169-174 `PreTrainedBilinearInterpolator.forward` -/
def BayerConv.interpolate (m : BayerConv α) (junk junk' : List Nat → α) (x : Tensor α) (sa : List Char) (clamp : α) : Except Err (Tensor α) := do
  let y ← m.forward junk x sa
  let z ← lastStep junk' x y sa
  .ok (z.map (clampTo 0 clamp))

/-- cfa/bayer_conv/__init__.py:2, gradient_corrected.py:56 `demosaic` -/
def demosaic (junk junk' : List Nat → α) (x : Tensor α) (sa : List Char) (clamp : α) : Except Err (Tensor α) := do
  let m ← BayerConv.pretrained wfDict
  m.interpolate junk junk' x sa clamp

/-! ## cfa/utils/bayer_to_rgb.py -/

/-- bayer_to_rgb.py:44-72 `downsample_4c_bayer_to_rgb` -/
def downsample4c (x : Tensor α) (sa : List Char) : Except Err (Tensor α) := do
  let sa ← checkAlignment sa
  check4c x
  let r ← indexOf sa 'R'
  let r ← x.getPlane r .full .full
  let g ← indexOf sa 'G'
  let g ← x.getPlane g .full .full
  let g' ← rindexOf sa 'G'
  let g' ← x.getPlane g' .full .full
  let s ← Tensor.bop (· + ·) g g'
  let s := s.map fun v => v / 2
  let b ← indexOf sa 'B'
  let b ← x.getPlane b .full .full
  Tensor.stack3 [r, s, b]

/-- bayer_to_rgb.py:19-41 `downsample_1c_bayer_to_rgb` -/
def downsample1c (x : Tensor α) (sa : List Char) : Except Err (Tensor α) := do
  let y ← bayer1cTo4c x
  downsample4c y sa

end

end TI
