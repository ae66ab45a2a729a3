import Verif.Model.RustLow
import Verif.Model.RustBds
import Verif.Model.CLow
/-!
# The Rust crate's key generation and signing functions on the caller's own slices

`xmss_gen_keypair`, `xmss_sign_msg`, `xmss_fast_gen_keypair`, `xmss_fast_update` and `xmss_fast_sign_msg` are public
(src/rust_wrapper/xmss_alt/mod.rs:3-10) and take the key, the signature and the message as slices of any length.

Simplifications: `n = 32`, and `k = 2` in the parameters, as everywhere in the crate (`Model/RustBdsK` has any `k`); what a panicking call has already written to
the caller's slices is not modelled, so the place of a bounds check among other steps that may panic does not matter.
-/

namespace Qrl.Rs

open Res

/-- `buf.get_mut(off..off + data.len()).unwrap().copy_from_slice(data)`, for instance
src/rust_wrapper/xmss_alt/algsxmss.rs:250-252: it panics if the slice is too short. -/
def putInto (buf : Bytes) (off : Nat) (data : Bytes) : Res Bytes :=
  if off + data.length ≤ buf.length then ok (buf.take off ++ data ++ buf.drop (off + data.length)) else panic

/-- `xmss_gen_keypair(hash_func, params, pk, sk, seed)`, src/rust_wrapper/xmss_alt/algsxmss.rs:231-282: the return value and the slices
`pk` and `sk` afterwards. `treehash` is given the slices `sk[4..]` and `sk[68..]` and writes the root to the beginning of `pk`. -/
def xmssGenKeypairRaw (b : Build) (S : Sha256) (hf : HashFn) (p : XmssParams) (pk sk seed : Bytes) : Res (Nat × Bytes × Bytes) := do
  let sk ← putInto sk 0 [0, 0, 0, 0]
  let randombits ← fipsShake256 96 seed 48
  let sk ← putInto sk 4 randombits
  let x ← slice sk 68 32
  let pk ← putInto pk 32 x
  let root ← treehash b S hf p.h (sk.drop 4) p (sk.drop 68) {}
  let pk ← putInto pk 0 root
  let root ← slice pk 0 32
  let sk ← putInto sk 100 root
  ok (0, pk, sk)

/-- `xmss_sign_msg(hash_func, params, sk, sig_msg, msg, msglen)`, src/rust_wrapper/xmss_alt/algsxmss.rs:303-451: the return value and the
slices `sk` and `sig_msg` afterwards. -/
def xmssSignMsgRaw (b : Build) (S : Sha256) (hf : HashFn) (p : XmssParams) (sk sig msg : Bytes) (msglen : Nat) :
    Res (Nat × Bytes × Bytes) := do
  let idx ← be32At sk
  let skSeed ← slice sk 4 32
  let skPrf ← slice sk 36 32
  let pubSeed ← slice sk 68 32
  let next ← u32 b (idx + 1)
  let sk ← putInto sk 0 (idxBytes next)
  let r ← prf S hf (toByte idx 32) skPrf
  let root ← slice sk 100 32
  let hashKey := r ++ root ++ toByte idx 32
  let msgH ← hMsgLen S hf msg msglen hashKey
  let sig ← putInto sig 0 (idxBytes idx)
  let sig ← putInto sig 4 r
  let otsAddr := setOTS (setType {} 0) idx
  let (otsSeed, otsAddr) ← getSeed S hf skSeed otsAddr
  let (wsig, otsAddr) ← wotsSign b S hf p.wots msgH otsSeed pubSeed otsAddr
  let sig ← putInto sig 36 wsig.flatten
  let (_, path) ← computeAuthpathWots b S hf idx skSeed p pubSeed otsAddr
  let sig ← putInto sig (36 + p.wots.keysize) path.flatten
  ok (0, sk, sig)

/-- `xmss_fast_gen_keypair(hash_func, params, pk, sk, state, seed)`, src/rust_wrapper/xmss_alt/algsxmss_fast.rs:682-739: the slices `pk`
and `sk` and the traversal state afterwards. -/
def xmssFastGenKeypairRaw (b : Build) (S : Sha256) (hf : HashFn) (p : XmssParams) (pk sk : Bytes) (st : BdsState) (seed : Bytes) :
    Res (Bytes × Bytes × BdsState) :=
  if p.h &&& 1 ≠ 0 then err .invalidArgument
  else do
    let sk ← putInto sk 0 [0, 0, 0, 0]
    let randombits ← fipsShake256 96 seed 48
    let sk ← putInto sk 4 randombits
    let x ← slice sk 68 32
    let pk ← putInto pk 32 x
    let (root, st) ← treehashSetup b S hf p.h st (sk.drop 4) p (sk.drop 68) {}
    let pk ← putInto pk 0 root
    let root ← slice pk 0 32
    let sk ← putInto sk 100 root
    ok (pk, sk, st)

/-- `xmss_fast_update(hash_func, params, sk, state, new_idx)`, src/rust_wrapper/xmss_alt/algsxmss_fast.rs:741-800, on the caller's key
slice and state: the value in `Ok` and both afterwards. -/
def xmssFastUpdateRaw (b : Build) (S : Sha256) (hf : HashFn) (p : XmssParams) (sk : Bytes) (st : BdsState) (newIdx : UInt32) :
    Res (Int × Bytes × BdsState) := do
  let numElems ← shl1 b p.h
  let currentIdx ← be32At sk
  if newIdx.toNat ≥ numElems then err .invalidArgument
  else if newIdx.toNat < currentIdx then err .invalidArgument
  else
    let skSeed ← slice sk 4 32
    let pubSeed ← slice sk 68 32
    let st ← advanceLoop S hf skSeed p pubSeed (newIdx.toNat - currentIdx) currentIdx st
    let sk ← putInto sk 0 (idxBytes newIdx.toNat)
    ok (0, sk, st)

/-- `xmss_fast_sign_msg(hash_func, params, sk, state, sig_msg, msg, msglen)`,
src/rust_wrapper/xmss_alt/algsxmss_fast.rs:802-959: the return value, the slices `sk` and `sig_msg` and the traversal state afterwards. -/
def xmssFastSignMsgRaw (b : Build) (S : Sha256) (hf : HashFn) (p : XmssParams) (sk : Bytes) (st : BdsState) (sig msg : Bytes)
    (msglen : Nat) : Res (Nat × Bytes × Bytes × BdsState) := do
  let idx ← be32At sk
  let skSeed ← slice sk 4 32
  let skPrf ← slice sk 36 32
  let pubSeed ← slice sk 68 32
  let next ← u32 b (idx + 1)
  let sk ← putInto sk 0 (idxBytes next)
  let r ← prf S hf (toByte idx 32) skPrf
  let root ← slice sk 100 32
  let hashKey := r ++ root ++ toByte idx 32
  let msgH ← hMsgLen S hf msg msglen hashKey
  let sig ← putInto sig 0 (idxBytes idx)
  let sig ← putInto sig 4 r
  let otsAddr := setOTS (setType {} 0) idx
  let (otsSeed, otsAddr) ← getSeed S hf skSeed otsAddr
  let (wsig, otsAddr) ← wotsSign b S hf p.wots msgH otsSeed pubSeed otsAddr
  let sig ← putInto sig 36 wsig.flatten
  let path ← authOut st.auth p.h 0
  let sig ← putInto sig (36 + p.wots.keysize) path.flatten
  let num ← shl1 b p.h
  let st ← if idx < num - 1 then do
      let st ← bdsRound S hf st idx skSeed p pubSeed otsAddr
      bdsTreehashUpdate S hf skSeed p pubSeed otsAddr ((p.h - 2) >>> 1) st
    else ok st
  ok (0, sk, sig, st)

/-- One call of `xmss_fast_update` or `xmss_fast_sign_msg` on the caller's key slice and state,
src/rust_wrapper/xmss_alt/algsxmss_fast.rs:741-959: what it returns (`threw` is `Err`) and both afterwards; `none` is a panic. Both errors
of `xmss_fast_update` are returned before anything is changed. -/
def sliceCall (b : Build) (S : Sha256) (hf : HashFn) (p : XmssParams) (s : Bytes × BdsState) : CCall → Option (CReply × (Bytes × BdsState))
  | .update n => match xmssFastUpdateRaw b S hf p s.1 s.2 n with
    | .ok (c, s') => some (.code c, s')
    | .err .invalidArgument => some (.threw .invalidArgument, s)
    | _ => none
  | .sign sig msg msglen => match xmssFastSignMsgRaw b S hf p s.1 s.2 sig msg msglen with
    | .ok (c, sk, sig, st) => some (.signed c sig, (sk, st))
    | _ => none

/-- A history of such calls, src/rust_wrapper/xmss_alt/algsxmss_fast.rs:741-959. -/
def sliceRun (b : Build) (S : Sha256) (hf : HashFn) (p : XmssParams) (s : Bytes × BdsState) :
    List CCall → Option (List CReply × (Bytes × BdsState))
  | [] => some ([], s)
  | c :: cs => do
    let (r, s) ← sliceCall b S hf p s c
    let (rs, s) ← sliceRun b S hf p s cs
    some (r :: rs, s)

end Qrl.Rs
