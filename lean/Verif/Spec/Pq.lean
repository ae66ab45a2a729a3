import Verif.Model.Pq
/-!
# What the KEM and signature APIs promise

These are the published contracts of the Kyber and Dilithium reference code, stated for the abstract primitives.
Nothing here speaks about the wrapper classes.
-/

namespace Qrl.Spec

/-- The KEM contract: buffers of the declared sizes; encapsulating to a generated public key and decapsulating with its
secret key succeeds and gives both sides the same key. -/
structure KemContract (P : KemPrim) : Prop where
  pk_size : ∀ r, (P.keypair r).1.length = P.pkBytes
  sk_size : ∀ r, (P.keypair r).2.length = P.skBytes
  ct_size : ∀ r pk, (P.enc r pk).2.1.length = P.ctBytes
  key_size : ∀ r pk, (P.enc r pk).2.2.length = P.symBytes
  dec_size : ∀ ct sk, (P.dec ct sk).2.length = P.symBytes
  enc_ok : ∀ r s, (P.enc r (P.keypair s).1).1 = 0
  agree : ∀ r s, P.dec (P.enc r (P.keypair s).1).2.1 (P.keypair s).2 = (0, (P.enc r (P.keypair s).1).2.2)

/-- The signature contract: a signed message is `sigBytes` bytes of signature followed by the message; opening a
message signed with a generated key succeeds under its public key and puts the message at the start of the buffer,
whose size does not change. -/
structure SignContract (P : SignPrim) : Prop where
  pk_size : ∀ r, (P.keypair r).1.length = P.pkBytes
  sk_size : ∀ r, (P.keypair r).2.length = P.skBytes
  layout : ∀ m sk, ∃ sig, sig.length = P.sigBytes ∧ P.sign m sk = sig ++ m
  out_size : ∀ out sm pk, (P.openMsg out sm pk).2.length = out.length
  opens : ∀ r m out, out.length = m.length + P.sigBytes →
    (P.openMsg out (P.sign m (P.keypair r).2) (P.keypair r).1).1 = 0 ∧
    (P.openMsg out (P.sign m (P.keypair r).2) (P.keypair r).1).2.take m.length = m

end Qrl.Spec
