import Verif.Spec.Text
/-!
# Unicode text, for the Rust port

Texts are lists of `Char` (Unicode scalar values). Nothing here refers to the model's functions.
-/

namespace Qrl.Spec

/-- The code points with the Unicode property `White_Space`. -/
def unicodeWhite : List Nat :=
  [0x09, 0x0A, 0x0B, 0x0C, 0x0D, 0x20, 0x85, 0xA0, 0x1680, 0x2000, 0x2001, 0x2002, 0x2003, 0x2004, 0x2005, 0x2006, 0x2007,
   0x2008, 0x2009, 0x200A, 0x2028, 0x2029, 0x202F, 0x205F, 0x3000]

/-- The words of a Unicode text: the non-empty pieces between white space. -/
noncomputable def uniWords (s : List Char) : List (List Char) :=
  (s.splitOnP fun c => decide (c.toNat ∈ unicodeWhite)).filter (· ≠ [])

/-- The UTF-8 bytes of a text. -/
def utf8 (s : List Char) : List UInt8 := s.flatMap String.utf8EncodeChar

/-- The text of 7-bit codes. -/
def ascii (b : List UInt8) : List Char := b.map fun x => Char.ofNat x.toNat

/-- Words joined by single spaces. -/
def spaced : List (List Char) → List Char
  | [] => []
  | [w] => w
  | w :: ws => w ++ ' ' :: spaced ws

end Qrl.Spec
