import Verif.Model.Misc
import Verif.Model.XmssApi
/-!
# src/kyber/kyber.{h,cpp}, src/dilithium/dilithium.{h,cpp} and their JS wrappers

The reference implementations behind `crypto_kem_*` and `crypto_sign*` live in submodules that are absent from
the repository (deps/kyber, deps/dilithium are empty). They are parameters of the model: any functions with the
signatures of the C API. What the API promises is stated separately (`Verif.Spec.Pq`), as a hypothesis of the
theorems that need it.
-/

namespace Qrl

open Outcome

/-- The functions and constants of deps/kyber/ref/api.h used by src/kyber/kyber.cpp:10-59. A pointer argument is the
list of the bytes behind it that the API says are read. `Rand` is what `randombytes` delivers to one call. -/
structure KemPrim where
  pkBytes : Nat
  skBytes : Nat
  ctBytes : Nat
  symBytes : Nat
  Rand : Type
  /-- `crypto_kem_keypair(pk, sk)`: the two buffers filled. -/
  keypair : Rand → Bytes × Bytes
  /-- `crypto_kem_enc(ct, key, pk)`: return code, `ct`, `key`. -/
  enc : Rand → Bytes → Int × Bytes × Bytes
  /-- `crypto_kem_dec(key, ct, sk)`: return code, `key`. -/
  dec : Bytes → Bytes → Int × Bytes

/-- The members of `Kyber`, src/kyber/kyber.h:37-40. -/
structure Kyber where
  pk : Bytes
  sk : Bytes
  key : Bytes
  ct : Bytes
  deriving DecidableEq, Repr

/-- `Kyber::Kyber(pk, sk)`, src/kyber/kyber.cpp:10-25. -/
def Kyber.fromKeys (P : KemPrim) (pk sk : Bytes) : Outcome Kyber :=
  if pk.length ≠ P.pkBytes then throw .invalidArgument
  else if sk.length ≠ P.skBytes then throw .invalidArgument
  else ok { pk := pk, sk := sk, key := [], ct := [] }

/-- `Kyber::Kyber()`, src/kyber/kyber.cpp:27-33 (`fillBuffer`: the primitive writes into vectors of the declared
sizes, more would overflow them). -/
def Kyber.generate (P : KemPrim) (r : P.Rand) : Outcome Kyber := do
  let pk ← fillBuffer P.pkBytes (P.keypair r).1
  let sk ← fillBuffer P.skBytes (P.keypair r).2
  ok { pk := pk, sk := sk, key := [], ct := [] }

/-- `Kyber::kem_encode`, src/kyber/kyber.cpp:35-47: `other_pk.data()` is read for `pkBytes` bytes, its size is not
checked. -/
def Kyber.kemEncode (P : KemPrim) (r : P.Rand) (o : Kyber) (otherPk : Bytes) : Outcome (Bool × Kyber) := do
  let pk ← slice otherPk 0 P.pkBytes
  let res := P.enc r pk
  let ct ← fillBuffer P.ctBytes res.2.1
  let key ← fillBuffer P.symBytes res.2.2
  ok (res.1 == 0, { o with ct := ct, key := key })

/-- `Kyber::kem_decode`, src/kyber/kyber.cpp:49-59: `cyphertext.data()` is read for `ctBytes` bytes, unchecked. -/
def Kyber.kemDecode (P : KemPrim) (o : Kyber) (cyphertext : Bytes) : Outcome (Bool × Kyber) := do
  let ct ← slice cyphertext 0 P.ctBytes
  let sk ← slice o.sk 0 P.skBytes
  let res := P.dec ct sk
  let key ← fillBuffer P.symBytes res.2
  ok (res.1 == 0, { o with key := key })

/-- The functions and constants of deps/dilithium/ref/api.h used by src/dilithium/dilithium.cpp.
Called at src/dilithium/dilithium.cpp:14, 30 and 51. -/
structure SignPrim where
  pkBytes : Nat
  skBytes : Nat
  /-- `CRYPTO_BYTES`. -/
  sigBytes : Nat
  Rand : Type
  /-- `crypto_sign_keypair(pk, sk)`. -/
  keypair : Rand → Bytes × Bytes
  /-- `crypto_sign(sm, &smlen, m, mlen, sk)`: what is written to `sm`. -/
  sign : Bytes → Bytes → Bytes
  /-- `crypto_sign_open(m, &mlen, sm, smlen, pk)`: return code and new contents of the buffer `m`, from its old
  contents, `sm` and `pk`. -/
  openMsg : Bytes → Bytes → Bytes → Int × Bytes

/-- The members of `Dilithium`, src/dilithium/dilithium.h:40-41. -/
structure Dilithium where
  pk : Bytes
  sk : Bytes
  deriving DecidableEq, Repr

/-- `Dilithium::Dilithium()`, src/dilithium/dilithium.cpp:9-15. -/
def Dilithium.generate (P : SignPrim) (r : P.Rand) : Outcome Dilithium := do
  let pk ← fillBuffer P.pkBytes (P.keypair r).1
  let sk ← fillBuffer P.skBytes (P.keypair r).2
  ok { pk := pk, sk := sk }

/-- `Dilithium::Dilithium(pk, sk)`, src/dilithium/dilithium.cpp:17-22: nothing is checked. -/
def Dilithium.fromKeys (pk sk : Bytes) : Dilithium := { pk := pk, sk := sk }

/-- `Dilithium::sign`, src/dilithium/dilithium.cpp:24-41: `_sk.data()` is read for `skBytes` bytes. -/
def Dilithium.sign (P : SignPrim) (o : Dilithium) (message : Bytes) : Outcome Bytes := do
  let sk ← slice o.sk 0 P.skBytes
  fillBuffer (message.length + P.sigBytes) (P.sign message sk)

/-- `std::vector::resize(n)`: cut or extended with zeros; src/dilithium/dilithium.cpp:48. -/
def resizeZero (v : Bytes) (n : Nat) : Bytes := v.take n ++ List.replicate (n - v.length) 0

/-- `Dilithium::sign_open`, src/dilithium/dilithium.cpp:43-59: the result and the new `message_output`. -/
def Dilithium.signOpen (P : SignPrim) (messageOutput messageSigned pk : Bytes) : Outcome (Bool × Bytes) := do
  let out := resizeZero messageOutput messageSigned.length
  let pk ← slice pk 0 P.pkBytes
  let res := P.openMsg out messageSigned pk
  let out ← fillBuffer messageSigned.length res.2
  ok (res.1 == 0, out)

/-- `Dilithium::extract_message`, src/dilithium/dilithium.cpp:61-64: the iterator `begin() + CRYPTO_BYTES` of a shorter
vector is undefined. -/
def Dilithium.extractMessage (P : SignPrim) (messageOutput : Bytes) : Outcome Bytes :=
  if messageOutput.length < P.sigBytes then ub else ok (messageOutput.drop P.sigBytes)

/-- `Dilithium::extract_signature`, src/dilithium/dilithium.cpp:66-69. -/
def Dilithium.extractSignature (P : SignPrim) (messageOutput : Bytes) : Outcome Bytes :=
  slice messageOutput 0 P.sigBytes

namespace Js

/-- `KyberWrapper::fromKeys`, src/jswrapper/jskybwrapper.cpp:69-74. The two arguments of the constructor are decoded in
an unspecified order; both failures are `invalid_argument`. -/
def kyberFromKeys (P : KemPrim) (pk sk : Bytes) : Outcome Kyber := do
  let p ← hstr2bin pk
  let s ← hstr2bin sk
  Kyber.fromKeys P p s

/-- `KyberWrapper::kem_encode`, src/jswrapper/jskybwrapper.cpp:41-44. -/
def kyberEncode (P : KemPrim) (r : P.Rand) (o : Kyber) (input : Bytes) : Outcome (Bool × Kyber) := do
  let b ← hstr2bin input
  o.kemEncode P r b

/-- `KyberWrapper::kem_decode`, src/jswrapper/jskybwrapper.cpp:46-49. -/
def kyberDecode (P : KemPrim) (o : Kyber) (input : Bytes) : Outcome (Bool × Kyber) := do
  let b ← hstr2bin input
  o.kemDecode P b

/-- `KyberWrapper::getSKRaw`, src/jswrapper/jskybwrapper.cpp:21-24. -/
def kyberGetSKRaw (o : Kyber) : Bytes := o.sk

/-- `KyberWrapper::getSK`, src/jswrapper/jskybwrapper.cpp:26-29. -/
def kyberGetSK (o : Kyber) : Bytes := bin2hstr o.sk 0

/-- `KyberWrapper::getPKRaw`, src/jswrapper/jskybwrapper.cpp:31-34. -/
def kyberGetPKRaw (o : Kyber) : Bytes := o.pk

/-- `KyberWrapper::getPK`, src/jswrapper/jskybwrapper.cpp:36-39. -/
def kyberGetPK (o : Kyber) : Bytes := bin2hstr o.pk 0

/-- `KyberWrapper::getCypherText`, src/jswrapper/jskybwrapper.cpp:51-54. -/
def kyberGetCypherText (o : Kyber) : Bytes := bin2hstr o.ct 0

/-- `KyberWrapper::getMyKey`, src/jswrapper/jskybwrapper.cpp:56-59. -/
def kyberGetMyKey (o : Kyber) : Bytes := bin2hstr o.key 0

/-- `DilithiumWrapper::fromKeys`, src/jswrapper/jsdilwrapper.cpp:24-29. -/
def dilFromKeys (pk sk : Bytes) : Outcome Dilithium := do
  let p ← hstr2bin pk
  let s ← hstr2bin sk
  ok (Dilithium.fromKeys p s)

/-- `DilithiumWrapper::getSKRaw`, src/jswrapper/jsdilwrapper.cpp:31-34. -/
def dilGetSKRaw (o : Dilithium) : Bytes := o.sk

/-- `DilithiumWrapper::getSK`, src/jswrapper/jsdilwrapper.cpp:36-39. -/
def dilGetSK (o : Dilithium) : Bytes := bin2hstr o.sk 0

/-- `DilithiumWrapper::getPKRaw`, src/jswrapper/jsdilwrapper.cpp:41-44. -/
def dilGetPKRaw (o : Dilithium) : Bytes := o.pk

/-- `DilithiumWrapper::getPK`, src/jswrapper/jsdilwrapper.cpp:46-49. -/
def dilGetPK (o : Dilithium) : Bytes := bin2hstr o.pk 0

/-- `DilithiumWrapper::sign`, src/jswrapper/jsdilwrapper.cpp:51-54. -/
def dilSign (P : SignPrim) (o : Dilithium) (message : Bytes) : Outcome Bytes := do
  let m ← hstr2bin message
  let sm ← o.sign P m
  ok (bin2hstr sm 0)

/-- `DilithiumWrapper::sign_open`, src/jswrapper/jsdilwrapper.cpp:56-64: the boolean result is thrown away, the first
argument is taken as raw characters. -/
def dilSignOpen (P : SignPrim) (messageOutput messageSigned pk : Bytes) : Outcome Bytes := do
  let sm ← hstr2bin messageSigned
  let p ← hstr2bin pk
  let res ← Dilithium.signOpen P messageOutput sm p
  ok (bin2hstr res.2 0)

/-- `DilithiumWrapper::extract_message`, src/jswrapper/jsdilwrapper.cpp:66-71: `vec.assign` gets the `begin()` of one
temporary vector and the `end()` of another, which is not a range. -/
def dilExtractMessage (messageOutput : Bytes) : Outcome Bytes := do
  let _ ← hstr2bin messageOutput
  ub

end Js

end Qrl
