import Verif.Spec.Cfa

/-!
# Symmetries of the colour filter array

Independent description for C107: what happens to the pattern when the image is mirrored, transposed or moved, or when red and blue are exchanged.
-/

namespace TI.Spec

/-- red and blue exchanged -/
def Color.swap : Color → Color
  | .red => .blue
  | .green => .green
  | .blue => .red

/-- the pattern with red and blue exchanged -/
def Pattern.swap : Pattern → Pattern
  | .rggb => .bggr
  | .bggr => .rggb
  | .grbg => .gbrg
  | .gbrg => .grbg

/-- the two columns exchanged -/
def Pattern.mirror : Pattern → Pattern
  | .rggb => .grbg
  | .grbg => .rggb
  | .gbrg => .bggr
  | .bggr => .gbrg

/-- the two rows exchanged -/
def Pattern.upturn : Pattern → Pattern
  | .rggb => .gbrg
  | .gbrg => .rggb
  | .grbg => .bggr
  | .bggr => .grbg

/-- rows and columns exchanged -/
def Pattern.transpose : Pattern → Pattern
  | .grbg => .gbrg
  | .gbrg => .grbg
  | p => p

/-- the pattern seen from row `r` and column `c` -/
def Pattern.from (p : Pattern) (r c : Nat) : Pattern :=
  let q := if r % 2 = 1 then p.upturn else p
  if c % 2 = 1 then q.mirror else q

end TI.Spec
