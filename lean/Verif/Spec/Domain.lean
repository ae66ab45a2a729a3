import Verif.Spec.Calls
/-!
# Specification: the roles in which an XMSS key uses its public seed
-/

namespace Qrl.Spec

/-- What a pseudorandom value derived from the public seed is used for. -/
inductive Use where
  /-- Key of step `j` of chain `ch` of one-time key `i`. -/
  | chainKey (i ch j : Nat)
  /-- Mask of step `j` of chain `ch` of one-time key `i`. -/
  | chainMask (i ch j : Nat)
  /-- Key of node `j` at height `h` of the L-tree of one-time key `i`. -/
  | ltreeKey (i h j : Nat)
  | ltreeMaskLeft (i h j : Nat)
  | ltreeMaskRight (i h j : Nat)
  /-- Key for hashing two nodes of height `h` into node `j` of the next height of the tree. -/
  | treeKey (h j : Nat)
  | treeMaskLeft (h j : Nat)
  | treeMaskRight (h j : Nat)
  deriving DecidableEq, Repr

/-- The 32-byte address of a use (RFC 8391, 2.5 and figures there). -/
def Use.address : Use → Bytes
  | .chainKey i ch j => Spec.address 0 i ch j 0
  | .chainMask i ch j => Spec.address 0 i ch j 1
  | .ltreeKey i h j => Spec.address 1 i h j 0
  | .ltreeMaskLeft i h j => Spec.address 1 i h j 1
  | .ltreeMaskRight i h j => Spec.address 1 i h j 2
  | .treeKey h j => Spec.address 2 0 h j 0
  | .treeMaskLeft h j => Spec.address 2 0 h j 1
  | .treeMaskRight h j => Spec.address 2 0 h j 2

/-- All numbers are below 2^32. -/
def Use.InRange : Use → Prop
  | .chainKey i ch j | .chainMask i ch j => i < 2 ^ 32 ∧ ch < 2 ^ 32 ∧ j < 2 ^ 32
  | .ltreeKey i h j | .ltreeMaskLeft i h j | .ltreeMaskRight i h j => i < 2 ^ 32 ∧ h < 2 ^ 32 ∧ j < 2 ^ 32
  | .treeKey h j | .treeMaskLeft h j | .treeMaskRight h j => h < 2 ^ 32 ∧ j < 2 ^ 32

end Qrl.Spec
