import Verif.Model.Basic
/-!
# Specification vocabulary for the text encodings (hex, mnemonics)

Nothing here refers to the model's functions.
-/

namespace Qrl.Spec

/-- ASCII digits, lower- and upper-case hex letters. -/
def hexAlphabet : List UInt8 :=
  [48, 49, 50, 51, 52, 53, 54, 55, 56, 57, 97, 98, 99, 100, 101, 102, 65, 66, 67, 68, 69, 70]

/-- The 16 characters "0123456789abcdef". -/
def hexDigits : List UInt8 :=
  [48, 49, 50, 51, 52, 53, 54, 55, 56, 57, 97, 98, 99, 100, 101, 102]

/-- ASCII lower-casing. -/
def lower (c : UInt8) : UInt8 := if 65 ≤ c ∧ c ≤ 90 then c + 32 else c

/-- Two characters per byte: the digit of the quotient by 16, then the digit of the remainder. -/
def hexOf (v : List UInt8) : List UInt8 :=
  v.flatMap fun b => [hexDigits.getD (b.toNat / 16) 0, hexDigits.getD (b.toNat % 16) 0]

/-- `lines` is a way of cutting a text into lines of exactly `n` elements, the last one having
between 1 and `n`. -/
def CutInto (n : Nat) : List (List UInt8) → Prop
  | [] => True
  | [l] => 1 ≤ l.length ∧ l.length ≤ n
  | l :: ls => l.length = n ∧ CutInto n ls

/-- Lines joined by newline characters, none at the end. -/
def joinLines (sep : UInt8) : List (List UInt8) → List UInt8
  | [] => []
  | [l] => l
  | l :: ls => l ++ sep :: joinLines sep ls

end Qrl.Spec

namespace Qrl.Spec

/-- White space of the "C" locale: space, tab, newline, vertical tab, form feed, carriage return. -/
def isWhite (c : UInt8) : Bool := c = 32 ∨ c = 9 ∨ c = 10 ∨ c = 11 ∨ c = 12 ∨ c = 13

/-- The words of a text: the non-empty pieces between white space. -/
noncomputable def wordsOf (s : List UInt8) : List (List UInt8) := (s.splitOnP isWhite).filter (· ≠ [])

/-- Cutting bytes into 12-bit groups, big-endian: three bytes give two groups. -/
def groups12 : List UInt8 → List Nat
  | a :: b :: c :: rest => (a.toNat * 16 + b.toNat / 16) :: (b.toNat % 16 * 256 + c.toNat) :: groups12 rest
  | _ => []

/-- Nibbles to bytes, two at a time, high nibble first; a lone last nibble becomes a byte of its own. -/
def nibblesToBytes : List Nat → List UInt8
  | a :: b :: rest => UInt8.ofNat (16 * a + b) :: nibblesToBytes rest
  | [a] => [UInt8.ofNat a]
  | [] => []

/-- The three nibbles of a 12-bit number, highest first. -/
def nibbles3 (i : Nat) : List Nat := [i / 256, i / 16 % 16, i % 16]
end Qrl.Spec
