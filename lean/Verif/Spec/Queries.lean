import Verif.Spec.Sig
/-!
# How much of SHA-256 a result depends on
-/

namespace Qrl.Spec

/-- The result of `f` is determined by at most `n` values of SHA-256, at most `big` of them at inputs of more than 128 bytes:
whatever SHA-256 is, there are so many inputs that every other function with the same values on them gives the same result. -/
def Asks {α : Type} (n big : Nat) (f : Sha256 → α) : Prop :=
  ∀ S, ∃ L : List Bytes, L.length ≤ n ∧ (L.filter fun x => 128 < x.length).length ≤ big ∧
    ∀ S' : Sha256, (∀ x ∈ L, S'.hash x = S.hash x) → f S' = f S

/-- Hashes of one WOTS+ key or signature: a secret per chain, and three hashes for each of at most `w - 1` steps. -/
def wotsHashes (w : Nat) : Nat := lenW w + 3 * (w - 1) * lenW w

/-- Hashes of one leaf: the seed of the one-time key, the key, and four for each node of its leaf tree. -/
def leafHashes (w : Nat) : Nat := 1 + wotsHashes w + 4 * (lenW w - 1)

/-- Hashes of one signature without its authentication path: the randomiser, the message, the seed of the one-time key, and
the chains. -/
def signHashes (w : Nat) : Nat := 3 + wotsHashes w

/-- Hashes of one step of the traversal at height `h`: a leaf and a node, and at most `h / 2 - 1` leaves with at most `h + 1`
nodes each. -/
def stepHashes (w h : Nat) : Nat := leafHashes w + 4 + (h / 2 - 1) * (leafHashes w + 4 * (h + 1))

/-- Hashes of one verification: the message, the chains, the leaf tree, and a path of at most 30 nodes. -/
def verifyHashes (w : Nat) : Nat := 1 + 3 * (w - 1) * lenW w + 4 * (lenW w - 1) + 4 * 30

end Qrl.Spec
