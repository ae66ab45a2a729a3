import Verif.Model.RustApi
/-!
# What a panic leaves behind: src/rust_wrapper/qrl/xmss_fast.rs, xmss_basic.rs, xmss_alt/algsxmss_fast.rs, algsxmss.rs

A Rust panic unwinds (`Cargo.toml` sets no `panic = "abort"`), so a program that catches it (`catch_unwind`, a thread
boundary, a poisoned lock) still has the object, with every assignment made before the panic. The functions here are those
of `RustBds.lean`, `RustXmss.lean` and `RustApi.lean` with the object a panic leaves. A panic inside the rounds that
advance the tree state leaves a partly updated state, here an arbitrary one, the argument `torn`.
-/

namespace Qrl.Rs

open Res

/-- How a call on an object of type `σ` ends (src/rust_wrapper/qrl/xmss_fast.rs:132-163): a value, an `Err`, or a panic, each
with the object left behind. -/
inductive Fate (σ α : Type) where
  | ret (a : α) (s : σ)
  | fail (e : Err) (s : σ)
  | panic (s : σ)
  deriving DecidableEq, Repr

/-- `XMSSFast::set_index`, src/rust_wrapper/qrl/xmss_fast.rs:132-143: `xmss_fast_update` (algsxmss_fast.rs:741-800) writes
the index after the rounds, so a panic leaves the secret key as it was. -/
def XMSSFast.setIndexP (b : Build) (S : Sha256) (torn : BdsState) (o : XMSSFast) (newIndex : Nat) : Fate XMSSFast Nat :=
  match o.setIndex b S newIndex with
  | .ret i o' => .ret i o'
  | .fail e o' => .fail e o'
  | .panic => .panic { o with state := torn }

/-- `xmss_fast_sign_msg` up to the update of the secret key, src/rust_wrapper/xmss_alt/algsxmss_fast.rs:811-840: the index,
the three seeds and the new secret key. -/
def fastSignStart (b : Build) (sk : Bytes) : Res (Nat × Bytes × Bytes × Bytes × Bytes) := do
  let idx ← be32At sk
  let skSeed ← slice sk 4 32
  let skPrf ← slice sk 36 32
  let pubSeed ← slice sk 68 32
  let next ← u32 b (idx + 1)
  ok (idx, skSeed, skPrf, pubSeed, idxBytes next ++ sk.drop 4)

/-- `xmss_fast_sign_msg` from there to the end of the signature, src/rust_wrapper/xmss_alt/algsxmss_fast.rs:841-933: the
signature buffer, and the number of keys and the address used by the rounds. `size` is the length of the buffer. -/
def fastSignWrite (b : Build) (S : Sha256) (hf : HashFn) (p : XmssParams) (st : BdsState) (size : Nat) (msg : Bytes)
    (idx : Nat) (skSeed skPrf pubSeed sk' : Bytes) : Res (Bytes × Nat × Adrs) := do
  let r ← prf S hf (toByte idx 32) skPrf
  let root ← slice sk' 100 32
  let hashKey := r ++ root ++ toByte idx 32
  let msgH ← hMsg S hf msg hashKey
  let otsAddr := setOTS (setType {} 0) idx
  let (otsSeed, otsAddr) ← getSeed S hf skSeed otsAddr
  let (wsig, otsAddr) ← wotsSign b S hf p.wots msgH otsSeed pubSeed otsAddr
  let path ← authOut st.auth p.h 0
  let sig ← fillBuffer size (idxBytes idx ++ r ++ wsig.flatten ++ path.flatten)
  let num ← shl1 b p.h
  ok (sig, num, otsAddr)

/-- The rounds at the end of `xmss_fast_sign_msg`, src/rust_wrapper/xmss_alt/algsxmss_fast.rs:935-949. -/
def fastSignRounds (S : Sha256) (hf : HashFn) (p : XmssParams) (st : BdsState) (skSeed pubSeed : Bytes) (idx num : Nat)
    (otsAddr : Adrs) : Res BdsState :=
  if idx < num - 1 then do
    let st ← bdsRound S hf st idx skSeed p pubSeed otsAddr
    bdsTreehashUpdate S hf skSeed p pubSeed otsAddr ((p.h - 2) >>> 1) st
  else ok st

/-- `xmss_fast_sign_msg`, src/rust_wrapper/xmss_alt/algsxmss_fast.rs:802-959, called by `XMSSFast::sign` on the object. It
has no `Err`: whatever does not return panics. -/
def XMSSFast.signMsgP (b : Build) (S : Sha256) (torn : BdsState) (o : XMSSFast) (message : Bytes) : Fate XMSSFast Bytes :=
  match fastSignStart b o.sk with
  | .ok (idx, skSeed, skPrf, pubSeed, sk') =>
    match fastSignWrite b S o.hashFunction o.params o.state (o.getSignatureSize o.params.wots.w) message idx skSeed skPrf
        pubSeed sk' with
    | .ok (sig, num, otsAddr) =>
      match fastSignRounds S o.hashFunction o.params o.state skSeed pubSeed idx num otsAddr with
      | .ok st => .ret sig { o with sk := sk', state := st }
      | _ => .panic { o with sk := sk', state := torn }
    | _ => .panic { o with sk := sk' }
  | _ => .panic o

/-- `XMSSFast::sign`, src/rust_wrapper/qrl/xmss_fast.rs:145-163. -/
def XMSSFast.signP (b : Build) (S : Sha256) (torn : BdsState) (o : XMSSFast) (message : Bytes) : Fate XMSSFast Bytes :=
  match o.getIndex with
  | .ok index =>
    match o.setIndexP b S torn index with
    | .ret _ o => o.signMsgP b S torn message
    | .fail e o => .fail e o
    | .panic o => .panic o
  | _ => .panic o

/-- `xmss_sign_msg` after the update of the secret key, src/rust_wrapper/xmss_alt/algsxmss.rs:337-451, with the signature
buffer of `XMSSBasic::sign`. -/
def basicSignWrite (b : Build) (S : Sha256) (o : XMSSBasic) (message : Bytes) (idx : Nat) (skSeed skPrf pubSeed sk' : Bytes) :
    Res Bytes := do
  let r ← prf S o.hashFunction (toByte idx 32) skPrf
  let root ← slice sk' 100 32
  let hashKey := r ++ root ++ toByte idx 32
  let msgH ← hMsg S o.hashFunction message hashKey
  let data ← signDigest b S o.hashFunction o.params skSeed pubSeed r msgH idx
  fillBuffer (o.getSignatureSize o.params.wots.w) data

/-- `XMSSBasic::sign`, src/rust_wrapper/qrl/xmss_basic.rs:92-106, with `xmss_sign_msg`
(src/rust_wrapper/xmss_alt/algsxmss.rs:303-451), which starts like `xmss_fast_sign_msg` (311-336) and updates the secret key
before it hashes the message. -/
def XMSSBasic.signP (b : Build) (S : Sha256) (o : XMSSBasic) (message : Bytes) : Fate XMSSBasic Bytes :=
  match fastSignStart b o.sk with
  | .ok (idx, skSeed, skPrf, pubSeed, sk') =>
    match basicSignWrite b S o message idx skSeed skPrf pubSeed sk' with
    | .ok sig => .ret sig { o with sk := sk' }
    | _ => .panic { o with sk := sk' }
  | _ => .panic o

end Qrl.Rs
