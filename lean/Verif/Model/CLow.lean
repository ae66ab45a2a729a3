import Verif.Model.Bds
/-!
# The functions of src/xmss-alt on the caller's buffers

The classes of src/qrl call these functions with buffers they allocate themselves; a program that includes
`xmss-alt/algsxmss.h` or `algsxmss_fast.h` passes buffers of its own and their announced lengths. The other modules
model the functions on what the classes pass. Here every buffer is the caller's: it may be too short (undefined) or longer
than needed. Buffers that overlap are not modelled.
-/

namespace Qrl

open Outcome

/-- `memcpy(buf + off, data, …)` and the byte loops that do the same, e.g. src/xmss-alt/algsxmss.c:188 and 270-279: writing past the end
of the buffer is undefined. -/
def putAt (buf : Bytes) (off : Nat) (data : Bytes) : Outcome Bytes :=
  if off + data.length ≤ buf.length then ok (buf.take off ++ data ++ buf.drop (off + data.length)) else ub

/-- `validate_authpath`, src/xmss-alt/xmss_common.c:80-127, for every `h`: the loop bound `h - 1` is computed in `uint32_t`. -/
def validateAuthpathAny (S : Sha256) (hf : HashFn) (leaf : Bytes) (leafidx : Nat) (sig : Bytes) (off : Nat)
    (h : Nat) (pubSeed : Bytes) (addr : Adrs) : Outcome Bytes := do
  let a ← slice sig off 32
  let (bl, br) := if leafidx &&& 1 = 1 then (a, leaf) else (leaf, a)
  let (leafidx, bl, br, addr) ← authPathLoop S hf pubSeed sig (sub32 h 1) 0 leafidx (off + 32) bl br addr
  let addr := addr.setTreeHeight (sub32 h 1)
  let leafidx := leafidx >>> 1
  let addr := addr.setTreeIndex leafidx
  let (root, _) := hashH S hf (bl ++ br) pubSeed addr
  ok root

/-- `xmss_Verifysig(hash_func, wotsParams, msg, msglen, sig_msg, pk, h)`, src/xmss-alt/xmss_common.c:133-221: the return value and
the message buffer afterwards. -/
def xmssVerifysigBuf (S : Sha256) (hf : HashFn) (p : WotsParams) (msg : Bytes) (msglen : Nat) (sig pk : Bytes) (h : UInt8) :
    Outcome (Int × Bytes) := do
  let h := h.toNat
  let sigMsgLen := (4 + 32 + p.len * 32 + h * 32) % 2 ^ 32
  let pubSeed ← slice pk 32 32
  let otsAddr := ({} : Adrs).setType 0
  let ltreeAddr := ({} : Adrs).setType 1
  let nodeAddr := ({} : Adrs).setType 2
  let idx ← be32At sig
  let r ← slice sig 4 32
  let root0 ← slice pk 0 32
  let hashKey := r ++ root0 ++ toByte idx 32
  let off := 36
  let sigMsgLen := sub64 sigMsgLen 36
  let m ← slice msg 0 msglen
  let msgH := hMsg S hf m hashKey
  let otsAddr := otsAddr.setOTS idx
  let wsig ← sliceChunks sig off p.len
  let (wotsPk, _) ← wotsPkFromSig S hf p wsig msgH pubSeed otsAddr
  let off := off + p.keysize
  let sigMsgLen := sub64 sigMsgLen p.keysize
  let ltreeAddr := ltreeAddr.setLtree idx
  let (pkhash, _) ← lTree S hf p wotsPk pubSeed ltreeAddr
  let root ← validateAuthpathAny S hf pkhash idx sig off h pubSeed nodeAddr
  let off := off + h * 32
  let sigMsgLen := sub64 sigMsgLen (h * 32)
  if root ≠ root0 then
    let msg ← zeroBack 0 sigMsgLen msg
    ok (-1, msg)
  else
    let msg ← copyBack sig off 0 sigMsgLen msg
    ok (0, msg)

/-- `xmss_Genkeypair(hash_func, params, pk, sk, seed)`, src/xmss-alt/algsxmss.c:170-197: the return value and the buffers `pk` and `sk`
afterwards. -/
def xmssGenkeypairBuf (S : Sha256) (hf : HashFn) (p : XmssParams) (pk sk seed : Bytes) : Outcome (Int × Bytes × Bytes) := do
  let sk ← putAt sk 0 [0, 0, 0, 0]
  let seed48 ← slice seed 0 48
  let randombits := shake256 96 seed48
  let sk ← putAt sk 4 randombits
  let x ← slice sk 68 32
  let pk ← putAt pk 32 x
  let skSeed ← slice sk 4 32
  let pubSeed ← slice sk 68 32
  let root ← treehash S hf p.h 0 skSeed p pubSeed {}
  let pk ← putAt pk 0 root
  let root ← slice pk 0 32
  let sk ← putAt sk 100 root
  ok (0, pk, sk)

/-- `xmss_Signmsg(hash_func, params, sk, sig_msg, msg, msglen)`, src/xmss-alt/algsxmss.c:218-318: the return value and the buffers `sk`
and `sig_msg` afterwards. -/
def xmssSignmsgBuf (S : Sha256) (hf : HashFn) (p : XmssParams) (sk sig msg : Bytes) (msglen : Nat) :
    Outcome (Int × Bytes × Bytes) := do
  let idx ← be32At sk
  let skSeed ← slice sk 4 32
  let skPrf ← slice sk 36 32
  let pubSeed ← slice sk 68 32
  let sk ← putAt sk 0 (idxBytes (idx + 1))
  let r := prf S hf (toByte idx 32) skPrf
  let root ← slice sk 100 32
  let hashKey := r ++ root ++ toByte idx 32
  let m ← slice msg 0 msglen
  let msgH := hMsg S hf m hashKey
  let sig ← putAt sig 0 (idxBytes idx)
  let sig ← putAt sig 4 r
  let otsAddr := (({} : Adrs).setType 0).setOTS idx
  let (otsSeed, otsAddr) := getSeed S hf skSeed otsAddr
  let (wsig, otsAddr) ← wotsSign S hf p.wots msgH otsSeed pubSeed otsAddr
  let sig ← putAt sig 36 wsig.flatten
  let (_, path) ← computeAuthpathWots S hf idx skSeed p pubSeed otsAddr
  let sig ← putAt sig (36 + p.wots.keysize) path.flatten
  ok (0, sk, sig)

/-- `xmssfast_Genkeypair(hash_func, params, pk, sk, state, seed)`, src/xmss-alt/algsxmss_fast.c:496-531: the return value, the buffers
`pk` and `sk` and the traversal state afterwards. -/
def xmssfastGenkeypairBuf (S : Sha256) (hf : HashFn) (p : XmssParams) (pk sk : Bytes) (st : BdsState) (seed : Bytes) :
    Outcome (Int × Bytes × Bytes × BdsState) :=
  if p.h &&& 1 = 1 then ok (-1, pk, sk, st)
  else do
    let sk ← putAt sk 0 [0, 0, 0, 0]
    let seed48 ← slice seed 0 48
    let randombits := shake256 96 seed48
    let sk ← putAt sk 4 randombits
    let x ← slice sk 68 32
    let pk ← putAt pk 32 x
    let skSeed ← slice sk 4 32
    let pubSeed ← slice sk 68 32
    let (root, st) ← treehashSetup S hf p.h 0 st skSeed p pubSeed {}
    let pk ← putAt pk 0 root
    let root ← slice pk 0 32
    let sk ← putAt sk 100 root
    ok (0, pk, sk, st)

/-- `xmssfast_Signmsg(hash_func, params, sk, state, sig_msg, msg, msglen)`, src/xmss-alt/algsxmss_fast.c:592-700: the return value, the
buffers `sk` and `sig_msg` and the traversal state afterwards. -/
def xmssfastSignmsgBuf (S : Sha256) (hf : HashFn) (p : XmssParams) (sk : Bytes) (st : BdsState) (sig msg : Bytes) (msglen : Nat) :
    Outcome (Int × Bytes × Bytes × BdsState) := do
  let idx ← be32At sk
  let skSeed ← slice sk 4 32
  let skPrf ← slice sk 36 32
  let pubSeed ← slice sk 68 32
  let sk ← putAt sk 0 (idxBytes (idx + 1))
  let r := prf S hf (toByte idx 32) skPrf
  let root ← slice sk 100 32
  let hashKey := r ++ root ++ toByte idx 32
  let m ← slice msg 0 msglen
  let msgH := hMsg S hf m hashKey
  let sig ← putAt sig 0 (idxBytes idx)
  let sig ← putAt sig 4 r
  let otsAddr := (({} : Adrs).setType 0).setOTS idx
  let (otsSeed, otsAddr) := getSeed S hf skSeed otsAddr
  let (wsig, otsAddr) ← wotsSign S hf p.wots msgH otsSeed pubSeed otsAddr
  let sig ← putAt sig 36 wsig.flatten
  let path ← authOut st.auth p.h 0
  let sig ← putAt sig (36 + p.wots.keysize) path.flatten
  let st ← if idx < 2 ^ p.h - 1 then do
      let st ← bdsRound S hf st idx skSeed p pubSeed otsAddr
      bdsTreehashUpdate S hf skSeed p pubSeed otsAddr ((p.h - 2) >>> 1) st
    else ok st
  ok (0, sk, sig, st)

/-- `xmssfast_update(hash_func, params, sk, state, new_idx)`, src/xmss-alt/algsxmss_fast.c:533-590, on the caller's key buffer and state.
`1U << h` is undefined for `h ≥ 32`. -/
def xmssfastUpdateBuf (S : Sha256) (hf : HashFn) (p : XmssParams) (sk : Bytes) (st : BdsState) (newIdx : UInt32) :
    Step (Bytes × BdsState) Int :=
  if p.h ≥ 32 then .ub
  else
    match be32At sk with
    | .ub => .ub
    | .throw e => .raise e (sk, st)
    | .ok currentIdx =>
      if newIdx.toNat ≥ 2 ^ p.h then .raise .invalidArgument (sk, st)
      else if newIdx.toNat < currentIdx then .raise .invalidArgument (sk, st)
      else
        Step.ofOutcome (sk, st) do
          let skSeed ← slice sk 4 32
          let pubSeed ← slice sk 68 32
          let st ← advanceLoop S hf skSeed p pubSeed (newIdx.toNat - currentIdx) currentIdx st
          let sk ← putAt sk 0 (idxBytes newIdx.toNat)
          ok (0, (sk, st))

/-- A call of the fast functions on one key and state: src/xmss-alt/algsxmss_fast.h:77-90. -/
inductive CCall where
  | update (newIdx : UInt32)
  | sign (sig msg : Bytes) (msglen : Nat)
  deriving DecidableEq, Repr

/-- What the caller sees: the return value (and the signature buffer after `xmssfast_Signmsg`), or the exception of
`xmssfast_update`, src/xmss-alt/algsxmss_fast.c:548 and 553. -/
inductive CReply where
  | code (c : Int)
  | signed (c : Int) (sig : Bytes)
  | threw (e : Exc)
  deriving DecidableEq, Repr

/-- One call, src/xmss-alt/algsxmss_fast.c:533-700; `none` is undefined behaviour. -/
def cCall (S : Sha256) (hf : HashFn) (p : XmssParams) (s : Bytes × BdsState) : CCall → Option (CReply × (Bytes × BdsState))
  | .update n => match xmssfastUpdateBuf S hf p s.1 s.2 n with
    | .ret c s' => some (.code c, s')
    | .raise e s' => some (.threw e, s')
    | .ub => none
  | .sign sig msg msglen => match xmssfastSignmsgBuf S hf p s.1 s.2 sig msg msglen with
    | .ok (c, sk, sig, st) => some (.signed c sig, (sk, st))
    | _ => none

/-- A history of calls on one key and state, src/xmss-alt/algsxmss_fast.h:77-90. -/
def cRun (S : Sha256) (hf : HashFn) (p : XmssParams) (s : Bytes × BdsState) : List CCall → Option (List CReply × (Bytes × BdsState))
  | [] => some ([], s)
  | c :: cs => do
    let (r, s) ← cCall S hf p s c
    let (rs, s) ← cRun S hf p s cs
    some (r :: rs, s)

end Qrl
