import Verif.Spec.Rust
/-!
# Which messages the Rust port cannot tell apart
-/

namespace Qrl.Spec

/-- The same message, or two messages of the same length that the port cuts after the same first bytes. -/
def rustAlike (hf : HashFn) (m m' : Bytes) : Prop :=
  m = m' ∨ (rustCut hf m ∧ m.length = m'.length ∧ m.take (rustRoom hf) = m'.take (rustRoom hf))

/-- The message the port hashes in place of `msg` when it verifies the signature `sig` under a key with root `root`. -/
def rustRead (hf : HashFn) (root msg sig : Bytes) : Bytes := (rustSigned hf (keyInSig sig root) msg).getD msg

end Qrl.Spec
