import Verif.Model.Cfa
import Verif.Model.Flt

/-!
# torchimage/cfa for integer images, for images with entries that are not finite, and with the arithmetic left open

The code of `Model/Cfa.lean` once more, for tensors with entries of any type.  A convolution is a function of the output channel, the output position and the window, read
by channels, rows and columns.
-/

namespace TI

section
variable {β : Type} [Zero β]

/-- PyTorch `nn.Conv2d(.., kernel_size, stride=2)`, cf. `conv2dStride2`; `conv o ix l` is the result for output channel `o` at position `ix` with the window `l` -/
def conv2dWith (inC outC size : Nat) (conv : Nat → List Nat → List β → β) (x : Tensor β) : Except Err (Tensor β) :=
  let h := x.axisEnd 2
  let w := x.axisEnd 1
  if (x.ndim = 3 ∨ x.ndim = 4) ∧ x.axisEnd 3 = inC ∧ size ≠ 0 ∧ size ≤ h ∧ size ≤ w then
    .ok (Tensor.ofFn (x.initShape 3 ++ [outC, (h - size) / 2 + 1, (w - size) / 2 + 1]) fun ix =>
      let o := ix.getD (ix.length - 3) 0
      let i := ix.getD (ix.length - 2) 0
      let j := ix.getD (ix.length - 1) 0
      conv o ix ((List.range inC).flatMap fun k => (List.range size).flatMap fun a => (List.range size).map fun b =>
        x.get (ix.take (ix.length - 3) ++ [k, 2 * i + a, 2 * j + b])))
  else .error .runtime

/-- bayer_conv_2d.py:97-99 `conv(pad(x))`, cf. `BayerConv.convAt` -/
def convAtWith (inC outC size : Nat) (conv : Pos → Nat → List Nat → List β → β) (p : Pos) (r c : Nat) (x : Tensor β) : Except Err (Tensor β) := do
  let x ← bayerPad size r c x
  conv2dWith inC outC size (conv p) x

/-- bayer_conv_2d.py:85-100 `forward`, cf. `BayerConv.forward` -/
def bayerForwardWith (inC outC size : Nat) (conv : Pos → Nat → List Nat → List β → β) (junk : List Nat → β) (x : Tensor β) (sa : List Char) :
    Except Err (Tensor β) := do
  let y := Tensor.empty junk (x.initShape 3 ++ outC :: x.shape.drop (x.shape.length - 2))
  let sa ← checkAlignment sa
  let beg ← begIndex sa
  forPos (fun p y => do
    let (r, c) := beg p
    let v ← convAtWith inC outC size conv p r c x
    y.setLast [every2 r, every2 c] v) y

end

section
variable {α : Type} [Field α]

/-- the weights of one kernel, by channels, rows and columns -/
def BayerConv.weights (m : BayerConv α) (p : Pos) (o : Nat) : List α :=
  (List.range m.inC).flatMap fun k => (List.range m.size).flatMap fun a => (List.range m.size).map fun b => m.weight p o k a b

variable [LinearOrder α]

/-- gradient_corrected.py:56 `demosaic` with scalar products `dot` (of output channel, position, window and weights); `bias=False`, so nothing is added.  Clamping is exact. -/
def demosaicRounded (dot : Nat → List Nat → List α → List α → α) (junk junk' : List Nat → α) (x : Tensor α) (sa : List Char) (clamp : α) : Except Err (Tensor α) := do
  let m ← BayerConv.pretrained wfDict
  let y ← bayerForwardWith m.inC m.outC m.size (fun p o ix l => dot o ix l (m.weights p o)) junk x sa
  let z ← lastStep junk' x y sa
  .ok (z.map (clampTo 0 clamp))

/-- `v.clamp(lo, hi)`, cf. `clampTo`: NaN stays -/
def Flt.clampTo (lo hi : α) : Flt α → Flt α
  | .num a => .num (TI.clampTo lo hi a)
  | .inf true => .num (min lo hi)
  | .inf false => .num hi
  | .nan => .nan

/-- bayer_conv_2d.py:85-100 `forward` for images with entries that are not finite, cf. `BayerConv.forward`; every product with a weight is computed, also with a weight of zero.
Weights and biases are finite. -/
def BayerConv.forwardFlt (m : BayerConv α) (junk : List Nat → Flt α) (x : Tensor (Flt α)) (sa : List Char) : Except Err (Tensor (Flt α)) :=
  bayerForwardWith m.inC m.outC m.size (fun p o _ l => (List.zipWith (fun (w : α) v => .num w * v) (m.weights p o) l).sum + .num (m.bias p o)) junk x sa

/-- gradient_corrected.py:56 `demosaic` for images with entries that are not finite -/
def demosaicFlt (junk junk' : List Nat → Flt α) (x : Tensor (Flt α)) (sa : List Char) (clamp : α) : Except Err (Tensor (Flt α)) := do
  let m ← BayerConv.pretrained wfDict
  let y ← m.forwardFlt junk x sa
  let z ← lastStep junk' x y sa
  .ok (z.map (Flt.clampTo 0 clamp))

end

section
variable {α : Type} [Field α] [LinearOrder α] [FloorRing α] (t : IntType)

/-- bayer_to_rgb.py:44-72 `downsample_4c_bayer_to_rgb` for an image of integers, cf. `downsample4c`: the sum of the two green samples is one of integers, its half is a
floating-point number, and `torch.stack` converts the other channels to the type of this one -/
def downsample4cWord (x : Tensor t.Word) (sa : List Char) : Except Err (Tensor α) := do
  let sa ← checkAlignment sa
  check4c x
  let r ← indexOf sa 'R'
  let r ← x.getPlane r .full .full
  let g ← indexOf sa 'G'
  let g ← x.getPlane g .full .full
  let g' ← rindexOf sa 'G'
  let g' ← x.getPlane g' .full .full
  let s ← Tensor.bop (· + ·) g g'
  let s := (t.floats s : Tensor α).map fun v => v / 2
  let b ← indexOf sa 'B'
  let b ← x.getPlane b .full .full
  Tensor.stack3 [t.floats r, s, t.floats b]

/-- bayer_to_rgb.py:19-41 `downsample_1c_bayer_to_rgb` for an image of integers -/
def downsample1cWord (x : Tensor t.Word) (sa : List Char) : Except Err (Tensor α) := do
  let y ← bayer1cTo4c x
  downsample4cWord t y sa

/-- bayer_conv_2d.py:85-100 `forward` for an image of integers: the weights of `nn.Conv2d` are floating-point numbers, and PyTorch neither reflects nor convolves integers with them
(RuntimeError) -/
def bayerForwardWord (junk : List Nat → t.Word) (outC : Nat) (x : Tensor t.Word) (sa : List Char) : Except Err (Tensor t.Word) := do
  let y := Tensor.empty junk (x.initShape 3 ++ outC :: x.shape.drop (x.shape.length - 2))
  let sa ← checkAlignment sa
  let beg ← begIndex sa
  forPos (fun p y => do
    let (r, c) := beg p
    let v ← (.error .runtime : Except Err (Tensor t.Word))
    y.setLast [every2 r, every2 c] v) y

/-- gradient_corrected.py:56 `demosaic` for an image of integers: the first convolution raises -/
def demosaicWord (junk : List Nat → t.Word) (junk' : List Nat → α) (x : Tensor t.Word) (sa : List Char) (clamp : α) : Except Err (Tensor α) := do
  let y ← bayerForwardWord t junk 2 x sa
  let z ← lastStep junk' (t.floats x) (t.floats y) sa
  .ok (z.map (clampTo 0 clamp))

end

end TI
