import Verif.Spec.Sig
/-!
# Turning a signature into another one by hashing forward

Nothing secret is used: only the hash function, the public seed and the signature.
-/

namespace Qrl.Spec

/-- The signature in which the value of every chain `ch` is hashed forward from position `ds[ch]` to `ds'[ch]`. -/
def hashForward (G : Bytes → Bytes) (w : Nat) (seed : Bytes) (ds ds' : List Nat) (sig : Bytes) : Bytes :=
  sig.take 36 ++
  ((List.range (lenW w)).map fun ch => chain G seed (byteVal (sig.take 4)) ch (ds.getD ch 0)
    (ds'.getD ch 0 - ds.getD ch 0) ((sig.drop (36 + 32 * ch)).take 32)).flatten ++
  sig.drop (36 + 32 * lenW w)

end Qrl.Spec
