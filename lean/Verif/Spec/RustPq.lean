import Verif.Model.RustPq
/-!
# What the crates `pqcrypto_kyber` and `pqcrypto_dilithium` promise
-/

namespace Qrl.Spec

/-- The contract of the KEM crate: fixed sizes; decapsulating what was encapsulated to a generated public key gives the same
shared secret. -/
structure KemCrateContract (P : Rs.KemCrate) : Prop where
  pk_size : ∀ r, (P.keypair r).1.length = P.pkBytes
  sk_size : ∀ r, (P.keypair r).2.length = P.skBytes
  ss_size : ∀ r pk, (P.encapsulate r pk).1.length = P.ssBytes
  ct_size : ∀ r pk, (P.encapsulate r pk).2.length = P.ctBytes
  agree : ∀ s r, P.decapsulate (P.encapsulate r (P.keypair s).1).2 (P.keypair s).2 = (P.encapsulate r (P.keypair s).1).1

/-- The contract of the signature crate: a signed message is `sigBytes` bytes of signature followed by the message; opening it
under the public key of the signer returns the message. -/
structure SignCrateContract (P : Rs.SignCrate) : Prop where
  pk_size : ∀ r, (P.keypair r).1.length = P.pkBytes
  sk_size : ∀ r, (P.keypair r).2.length = P.skBytes
  layout : ∀ r m sk, ∃ sig, sig.length = P.sigBytes ∧ P.sign r m sk = sig ++ m
  opens : ∀ r s m, P.openMsg (P.sign s m (P.keypair r).2) (P.keypair r).1 = some m

end Qrl.Spec
