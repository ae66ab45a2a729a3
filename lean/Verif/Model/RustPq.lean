import Verif.Model.RustBasic
/-!
# src/rust_wrapper/kyber/kyber.rs and src/rust_wrapper/dilithium/dilithium.rs

The crates `pqcrypto_kyber` and `pqcrypto_dilithium` are not part of the repository: parameters. Their key and cipher text
types hold byte strings of the fixed sizes; `from_bytes` of a key refuses other sizes, `SignedMessage::from_bytes` accepts
every byte string. What the crates promise is in `Verif.Spec.RustPq`.
-/

namespace Qrl.Rs

open Res

/-- What src/rust_wrapper/kyber/kyber.rs uses of `pqcrypto_kyber::kyber768`. `Rand` is the randomness of one call.
Used at src/rust_wrapper/kyber/kyber.rs:10-13, 25-27, 48, 54 and 60-61. -/
structure KemCrate where
  pkBytes : Nat
  skBytes : Nat
  ctBytes : Nat
  ssBytes : Nat
  Rand : Type
  /-- `keypair()`: public and secret key. -/
  keypair : Rand → Bytes × Bytes
  /-- `encapsulate(pk)`: shared secret and cipher text. -/
  encapsulate : Rand → Bytes → Bytes × Bytes
  /-- `decapsulate(ct, sk)`: shared secret. -/
  decapsulate : Bytes → Bytes → Bytes

/-- `Kyber`, src/rust_wrapper/kyber/kyber.rs:15-21. -/
structure Kyber where
  pk : Bytes
  sk : Bytes
  ss : Bytes
  ct : Bytes
  deriving DecidableEq, Repr

/-- `Kyber::new`, src/rust_wrapper/kyber/kyber.rs:24-29: both `unwrap`s panic on a key of another size. -/
def Kyber.new (P : KemCrate) (r : P.Rand) (pk sk : Bytes) : Res Kyber :=
  if pk.length ≠ P.pkBytes then panic
  else if sk.length ≠ P.skBytes then panic
  else ok { pk := pk, sk := sk, ss := (P.encapsulate r pk).1, ct := (P.encapsulate r pk).2 }

/-- `Kyber::default`, src/rust_wrapper/kyber/kyber.rs:58-64. -/
def Kyber.default (P : KemCrate) (s r : P.Rand) : Kyber :=
  { pk := (P.keypair s).1, sk := (P.keypair s).2,
    ss := (P.encapsulate r (P.keypair s).1).1, ct := (P.encapsulate r (P.keypair s).1).2 }

/-- `kem_encode`, src/rust_wrapper/kyber/kyber.rs:47-51. -/
def Kyber.kemEncode (P : KemCrate) (r : P.Rand) (o : Kyber) (otherPk : Bytes) : Kyber :=
  { o with ss := (P.encapsulate r otherPk).1, ct := (P.encapsulate r otherPk).2 }

/-- `kem_decode`, src/rust_wrapper/kyber/kyber.rs:53-55. -/
def Kyber.kemDecode (P : KemCrate) (o : Kyber) (cyphertext : Bytes) : Kyber :=
  { o with ss := P.decapsulate cyphertext o.sk }

/-- What src/rust_wrapper/dilithium/dilithium.rs uses of `pqcrypto_dilithium::dilithium5`.
Used at src/rust_wrapper/dilithium/dilithium.rs:10-12, 21-22, 38, 53, 57, 67 and 79. -/
structure SignCrate where
  pkBytes : Nat
  skBytes : Nat
  /-- `signature_bytes()`. -/
  sigBytes : Nat
  Rand : Type
  /-- `keypair()`. -/
  keypair : Rand → Bytes × Bytes
  /-- `sign(msg, sk)`: the bytes of the signed message. -/
  sign : Rand → Bytes → Bytes → Bytes
  /-- `open(sm, pk)`: the message, or a verification error. -/
  openMsg : Bytes → Bytes → Option Bytes

/-- `Dilithium`, src/rust_wrapper/dilithium/dilithium.rs:14-17. -/
structure Dilithium where
  pk : Bytes
  sk : Bytes
  deriving DecidableEq, Repr

/-- `Dilithium::new`, src/rust_wrapper/dilithium/dilithium.rs:20-24: both `unwrap`s panic on a key of another size. -/
def Dilithium.new (P : SignCrate) (pk sk : Bytes) : Res Dilithium :=
  if pk.length ≠ P.pkBytes then panic
  else if sk.length ≠ P.skBytes then panic
  else ok { pk := pk, sk := sk }

/-- `Dilithium::default`, src/rust_wrapper/dilithium/dilithium.rs:77-82. -/
def Dilithium.default (P : SignCrate) (r : P.Rand) : Dilithium := { pk := (P.keypair r).1, sk := (P.keypair r).2 }

/-- `Dilithium::sign`, src/rust_wrapper/dilithium/dilithium.rs:34-39. -/
def Dilithium.sign (P : SignCrate) (r : P.Rand) (o : Dilithium) (message : Bytes) : Bytes := P.sign r message o.sk

/-- `Dilithium::sign_open`, src/rust_wrapper/dilithium/dilithium.rs:49-54. -/
def Dilithium.signOpen (P : SignCrate) (messageSigned pk : Bytes) : Option Bytes := P.openMsg messageSigned pk

/-- `x - y` on `usize`.
src/rust_wrapper/dilithium/dilithium.rs:61 and 71. -/
def usizeSub (b : Build) (x y : Nat) : Res Nat :=
  if y ≤ x then ok (x - y)
  else match b with
    | .debug => panic
    | .release => ok ((x + 2 ^ 64 - y) % 2 ^ 64)

/-- `bytes.get(lo..hi).unwrap()`: panics unless `lo <= hi <= bytes.len()`.
src/rust_wrapper/dilithium/dilithium.rs:59-62 and 69-72. -/
def getRange (l : Bytes) (lo hi : Nat) : Res Bytes :=
  if lo ≤ hi ∧ hi ≤ l.length then ok ((l.drop lo).take (hi - lo)) else panic

/-- `Dilithium::extract_message`, src/rust_wrapper/dilithium/dilithium.rs:56-64: the bytes before the last `CRYPTO_BYTES`. -/
def Dilithium.extractMessage (b : Build) (P : SignCrate) (messageOutput : Bytes) : Res Bytes := do
  let hi ← usizeSub b messageOutput.length P.sigBytes
  getRange messageOutput 0 hi

/-- `Dilithium::extract_signature`, src/rust_wrapper/dilithium/dilithium.rs:66-74: the last `CRYPTO_BYTES` bytes. -/
def Dilithium.extractSignature (b : Build) (P : SignCrate) (messageOutput : Bytes) : Res Bytes := do
  let lo ← usizeSub b messageOutput.length P.sigBytes
  getRange messageOutput lo messageOutput.length

end Qrl.Rs
