import Verif.Model.Tensor
import Verif.Spec.PadCoord
import Mathlib.Algebra.BigOperators.Group.Finset.Basic

/-!
# What the colour filter array functions should compute

An image is a tensor of shape `b ++ [c, h, w]`; `b` is any batch shape.
-/

namespace TI.Spec

/-- colours -/
inductive Color where
  | red | green | blue
  deriving DecidableEq

/-- the four Bayer patterns, read row by row -/
inductive Pattern where
  | rggb | grbg | gbrg | bggr
  deriving DecidableEq

/-- the colour of the sensor at row `i`, column `j`: the pattern is repeated with period two -/
def Pattern.color (p : Pattern) (i j : Nat) : Color :=
  match p, i % 2, j % 2 with
  | .rggb, 0, 0 => .red
  | .rggb, 1, 1 => .blue
  | .grbg, 0, 1 => .red
  | .grbg, 1, 0 => .blue
  | .gbrg, 0, 1 => .blue
  | .gbrg, 1, 0 => .red
  | .bggr, 0, 0 => .blue
  | .bggr, 1, 1 => .red
  | _, _, _ => .green

/-- channel of a colour in an RGB image -/
def Color.channel : Color → Nat
  | .red => 0
  | .green => 1
  | .blue => 2

/-- the letter of a colour, upper case and lower case -/
def Color.letters : Color → Char × Char
  | .red => ('R', 'r')
  | .green => ('G', 'g')
  | .blue => ('B', 'b')

/-- the name of a pattern in upper case -/
def Pattern.name (p : Pattern) : List Char := [p.color 0 0, p.color 0 1, p.color 1 0, p.color 1 1].map fun c => c.letters.1

/-- a string that is the name of the pattern, each letter in either case -/
def Pattern.Spelled (p : Pattern) (s : List Char) : Prop :=
  ∃ a b c d, s = [a, b, c, d] ∧ (a = (p.color 0 0).letters.1 ∨ a = (p.color 0 0).letters.2) ∧
    (b = (p.color 0 1).letters.1 ∨ b = (p.color 0 1).letters.2) ∧ (c = (p.color 1 0).letters.1 ∨ c = (p.color 1 0).letters.2) ∧
    (d = (p.color 1 1).letters.1 ∨ d = (p.color 1 1).letters.2)

/-- kinds of pixels: red, blue, green with red in its row, green with blue in its row -/
inductive Kind where
  | red | blue | greenInRed | greenInBlue
  deriving DecidableEq

/-- the kind of the pixel at row `i`, column `j` -/
def Pattern.kind (p : Pattern) (i j : Nat) : Kind :=
  match p.color i j with
  | .red => .red
  | .blue => .blue
  | .green => if p.color i (j + 1) = .red then .greenInRed else .greenInBlue

/-- the two other colours, in the order red, green, blue -/
def Color.others : Color → Color × Color
  | .red => (.green, .blue)
  | .green => (.red, .blue)
  | .blue => (.red, .green)

/-- conditions for the convolution of size `k` to accept an image: rank 3 or 4, even sides, at least one channel, padding smaller than the sides -/
structure ConvFits (b : List Nat) (inC size h w : Nat) : Prop where
  rank : b.length ≤ 1
  channels : inC ≠ 0
  pos : size ≠ 0
  evenH : h % 2 = 0
  evenW : w % 2 = 0
  fitsH : size / 2 < h
  fitsW : size / 2 < w

/-- the neighbourhood of `(i, j)` in a one-channel image, continued by reflection about the edge samples -/
def around {α : Type} [Zero α] (x : Tensor α) (bi : List Nat) (h w i j : Nat) (di dj : Int) : α := x.get (bi ++ [0, reflC h (i + di), reflC w (j + dj)])

section
variable {α : Type} [Field α]

/-- the filter of one pixel: the neighbourhood of `(i, j)` in channel `k`, whose rows and columns are continued by reflection about the edge
samples; the centre of a filter of size `n` is at `n / 2` -/
def bayerFilter (x : Tensor α) (bi : List Nat) (h w inC size : Nat) (weight : Nat → Nat → Nat → α) (i j : Nat) : α :=
  ∑ k ∈ Finset.range inC, ∑ a ∈ Finset.range size, ∑ b ∈ Finset.range size,
    weight k a b * x.get (bi ++ [k, reflC h ((i : Int) + a - (size / 2 : Nat)), reflC w ((j : Int) + b - (size / 2 : Nat))])

/-- the estimate of colour `t` at a pixel of kind `k` from its neighbourhood, by Malvar, He and Cutler (2004): the mean of the nearest samples of
that colour, corrected by a multiple of the Laplacian of the measured colour -/
def malvar (k : Kind) (t : Color) (v : Int → Int → α) : α :=
  let cross := v (-1) 0 + v 1 0 + v 0 (-1) + v 0 1
  let diagonal := v (-1) (-1) + v (-1) 1 + v 1 (-1) + v 1 1
  let far := v (-2) 0 + v 2 0 + v 0 (-2) + v 0 2
  let atRow := (5 * v 0 0 + 4 * (v 0 (-1) + v 0 1) - diagonal - (v 0 (-2) + v 0 2) + 1 / 2 * (v (-2) 0 + v 2 0)) / 8
  let atColumn := (5 * v 0 0 + 4 * (v (-1) 0 + v 1 0) - diagonal - (v (-2) 0 + v 2 0) + 1 / 2 * (v 0 (-2) + v 0 2)) / 8
  match k, t with
  | .red, .green => (4 * v 0 0 + 2 * cross - far) / 8
  | .blue, .green => (4 * v 0 0 + 2 * cross - far) / 8
  | .red, .blue => (6 * v 0 0 + 2 * diagonal - 3 / 2 * far) / 8
  | .blue, .red => (6 * v 0 0 + 2 * diagonal - 3 / 2 * far) / 8
  | .greenInRed, .red => atRow
  | .greenInRed, .blue => atColumn
  | .greenInBlue, .red => atColumn
  | .greenInBlue, .blue => atRow
  | _, _ => v 0 0

/-- `pixel_unshuffle(z, 2)` of a tensor of shape `b ++ [c, h, w]` with even sides -/
def pixelUnshuffle (z : Tensor α) (b : List Nat) (c h w : Nat) : Tensor α :=
  Tensor.ofFn (b ++ [c * 4, h / 2, w / 2]) fun ix =>
    let bi := ix.take b.length
    let q := ix.getD b.length 0
    let i := ix.getD (b.length + 1) 0
    let j := ix.getD (b.length + 2) 0
    z.get (bi ++ [q / 4, 2 * i + q % 4 / 2, 2 * j + q % 2])

end

end TI.Spec
