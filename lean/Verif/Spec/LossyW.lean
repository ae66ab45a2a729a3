import Verif.Spec.Sig
/-!
# Signatures for a Winternitz parameter that need not be a power of two

The library takes chain positions out of a byte with the mask `w - 1`, which covers exactly `log2 w` bits only when `w`
is a power of two. This file says what the positions are for every `w` whose `⌊log2 w⌋` is 1, 2, 4 or 8.
-/

namespace Qrl.Spec

/-- The values of `w` whose `⌊log2 w⌋` divides 8: 2, 3, 4..7, 16..31, 256..511. -/
def UsableW (w : Nat) : Prop := (2 ≤ w ∧ w < 8) ∨ (16 ≤ w ∧ w < 32) ∨ (256 ≤ w ∧ w < 512)

instance (w : Nat) : Decidable (UsableW w) := inferInstanceAs (Decidable (_ ∨ _ ∨ _))

/-- The values of `w` on which `wots_set_params` itself is undefined: 0, 1, everything that is negative as an `int`, and
three values for which `len_1 * (w - 1)` is a multiple of `2^32`. -/
def CrashW (w : Nat) : Prop := w ≤ 1 ∨ 2 ^ 31 ≤ w ∨ w = 2 ^ 29 + 1 ∨ w = 2 ^ 30 + 1 ∨ w = 2 ^ 30 + 2 ^ 29 + 1

instance (w : Nat) : Decidable (CrashW w) := inferInstanceAs (Decidable (_ ∨ _ ∨ _ ∨ _ ∨ _))

/-- The chain positions cut out of one byte, from its top bits to its low bits: the byte shifted right, under the mask
`w - 1`. -/
def cutByte (w : Nat) (b : UInt8) : List Nat :=
  (List.range (8 / lgW w)).map fun j => (b.toNat / 2 ^ (8 - lgW w * (j + 1))) &&& (w - 1)

/-- The chain positions of a 32-byte digest: cut out of the digest, then out of the checksum. -/
def positions (w : Nat) (m : Bytes) : List Nat :=
  let ms := m.flatMap (cutByte w)
  let csum := (ms.map fun d => w - 1 - d).sum
  let cs := be ((len2 w * lgW w + 7) / 8) (csum * 2 ^ (8 - len2 w * lgW w % 8))
  ms ++ (cs.flatMap (cutByte w)).take (len2 w)

/-- The bits of a digest byte that any chain position depends on. -/
def seenBits (w : Nat) : Nat :=
  ((List.range (8 / lgW w)).map fun j => (w - 1) * 2 ^ (lgW w * j)).foldr (· ||| ·) 0

/-- `rootFromSig` with these positions. -/
def rootFromSigAny (G : Bytes → Bytes) (w h : Nat) (root seed msg sig : Bytes) : Bytes :=
  let idx := byteVal (sig.take 4)
  let ds := positions w (digest G ((sig.drop 4).take 32) root idx msg)
  let wpk := wotsPkFromSig G w seed idx (chunks sig 36 (lenW w)) ds
  climb G seed 0 idx (ltree G seed idx 0 wpk) (chunks sig (36 + 32 * lenW w) h)

/-- `signature` with these positions. -/
def signatureAny (G : Bytes → Bytes) (w h : Nat) (skSeed skPrf seed : Bytes) (idx : Nat) (msg : Bytes) : Bytes :=
  let r := PRF G skPrf (be 32 idx)
  let root := node G w (lenW w) skSeed seed h 0
  be 4 idx ++ r ++ (wotsSig G skSeed seed idx (positions w (digest G r root idx msg))).flatten ++
    (authPath G w (lenW w) skSeed seed h idx).flatten

end Qrl.Spec
