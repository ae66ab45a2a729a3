import Verif.Model.RustXmss
/-!
# The Rust crate's low-level functions on any slices

All modules of the crate are public (src/rust_wrapper/mod.rs:3-8, xmss_alt/mod.rs:3-10), so callers may give `shake128`, `shake256`
and `xmss_verify_sig` any slices together with any announced lengths.

Simplification: what a panicking call has already written to the caller's buffer is not modelled.
-/

namespace Qrl.Rs

open Res

/-- `keccak_squeezeblocks` into a buffer of any length, src/rust_wrapper/xmss_alt/fips202.rs:355-365: a block needs `r` bytes
(`r` is a multiple of 8), otherwise `store64` or the slicing at line 362 panics. -/
def squeezeInto : Nat → Bytes → KState → Nat → Res (Bytes × KState)
  | 0, h, s, _ => ok (h, s)
  | nblocks + 1, h, s, r =>
    let s1 := keccakF s
    if h.length < r then panic
    else do
      let (rest, s2) ← squeezeInto nblocks (h.drop r) s1 r
      ok (stateBytes s1 r ++ rest, s2)

/-- `shake128` (`r = 168`) and `shake256` (`r = 136`) on any buffers, src/rust_wrapper/xmss_alt/fips202.rs:367-409: the output buffer
afterwards. The loop over the last part of a block panics if the buffer is too short for it. -/
def shakeInto (r : Nat) (output : Bytes) (outlen : Nat) (inp : Bytes) (inlen : Nat) : Res Bytes := do
  let s ← keccakAbsorb (Vector.replicate 25 0) r inp inlen 0x1F
  let (out, s) ← squeezeInto (outlen / r) output s r
  if outlen % r > 0 then
    let (d, _) := keccakSqueezeBlocks 1 s r
    if out.length < outlen / r * r + outlen % r then panic
    else ok (out.take (outlen / r * r) ++ d.take (outlen % r) ++ out.drop (outlen / r * r + outlen % r))
  else ok out

/-- `h_msg` with `keylen = 96`, `n = 32` and any announced length, src/rust_wrapper/xmss_alt/hash.rs:94-120: `try_into` panics if the
length does not fit a `u32`. -/
def hMsgLen (S : Sha256) (hf : HashFn) (inp : Bytes) (inlen : Nat) (key : Bytes) : Res Bytes :=
  if inlen ≥ 2 ^ 32 then panic else coreHash S hf 2 key 96 inp inlen

/-- `validate_authpath` with any `h`, src/rust_wrapper/xmss_alt/xmss_common.rs:85-148: for `h = 0` the `u32` subtraction `h - 1` (:117)
panics in a checked build and gives 2^32 - 1 in the others. -/
def validateAuthpathAny (b : Build) (S : Sha256) (hf : HashFn) (leaf : Bytes) (leafidx : Nat) (sig : Bytes) (off : Nat)
    (h : Nat) (pubSeed : Bytes) (addr : Adrs) : Res Bytes :=
  if h = 0 then
    match b with
    | .debug => panic
    | .release => validateAuthpath S hf leaf leafidx sig off (2 ^ 32) pubSeed addr
  else validateAuthpath S hf leaf leafidx sig off h pubSeed addr

/-- The part of `xmss_verify_sig` after message hashing with any `h`, src/rust_wrapper/xmss_alt/xmss_common.rs:217-259. -/
def verifyRootRaw (b : Build) (S : Sha256) (hf : HashFn) (p : WotsParams) (msgH sig pubSeed : Bytes) (idx h : Nat) : Res Bytes := do
  let otsAddr := setOTS (setType {} 0) idx
  let wsig ← sliceChunks sig 36 p.len
  let (wotsPk, _) ← wotsPkFromSig b S hf p wsig msgH pubSeed otsAddr
  let ltreeAddr := setLtree (setType {} 1) idx
  let (pkhash, _) ← lTree S hf p wotsPk pubSeed ltreeAddr
  validateAuthpathAny b S hf pkhash idx sig (36 + p.keysize) h pubSeed (setType {} 2)

/-- `xmss_verify_sig` on any slices, src/rust_wrapper/xmss_alt/xmss_common.rs:153-276: the result code and the message buffer. -/
def xmssVerifySigRaw (b : Build) (S : Sha256) (hf : HashFn) (p : WotsParams) (msg : Bytes) (msglen : Nat) (sig pk : Bytes) (h : Nat) :
    Res (Int × Bytes) := do
  let sigMsgLen := 4 + 32 + p.len * 32 + h * 32
  let pubSeed ← slice pk 32 32
  let idx ← be32At sig
  let r ← slice sig 4 32
  let root0 ← slice pk 0 32
  let hashKey := r ++ root0 ++ toByte idx 32
  let msgH ← hMsgLen S hf msg msglen hashKey
  let root ← verifyRootRaw b S hf p msgH sig pubSeed idx h
  let sigMsgLen := sigMsgLen - 36 - p.keysize - h * 32
  if root ≠ root0 then
    let msg ← zeroBack 0 sigMsgLen msg
    ok (-1, msg)
  else
    let msg ← copyBack sig (36 + p.keysize + h * 32) 0 sigMsgLen msg
    ok (0, msg)

end Qrl.Rs
