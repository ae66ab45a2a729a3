import Verif.Model.RustSlices
/-!
# The fast functions of the Rust crate with any traversal parameter `k`

`XMSSFast` fixes `k = 2` (src/rust_wrapper/qrl/xmss_fast.rs:21), and so do `Verif/Model/RustBds` and `Verif/Model/RustSlices`. A program
that calls the public functions of src/rust_wrapper/xmss_alt/algsxmss_fast.rs itself chooses `k` in `XMSSParams::new`
(src/rust_wrapper/xmss_alt/xmss_common.rs:23-32): the functions that read `params.k`, once more, with `k` as the argument `κ`. The
functions that do not read it are those of `Verif/Model/RustBds`; the same simplifications apply.
-/

namespace Qrl.Rs.RK

open Res

/-- `XMSSParams::new(32, h, w, k)`, src/rust_wrapper/xmss_alt/xmss_common.rs:23-32. -/
def xmssParams (κ h w : Nat) : Res XmssParams :=
  if κ ≥ h ∨ κ < 2 ∨ (h - κ) % 2 ≠ 0 then err .invalidArgument
  else ok { wots := wotsParams w, h := h }

/-- The buffers of `BDSState` with the sizes of src/rust_wrapper/qrl/xmss_fast.rs:34-55, written there in terms of `k`, all zeros. -/
def bdsInit (κ : Nat) (height : Nat) : BdsState :=
  { stack := List.replicate (height + 1) none
    stackoffset := 0
    stacklevels := List.replicate (height + 1) 0
    auth := List.replicate height none
    keep := List.replicate (height >>> 1) none
    treehash := List.replicate (height - κ)
      { h := 0, nextIdx := 0, stackusage := 0, completed := false, node := none }
    retain := List.replicate ((1 <<< κ) - κ - 1) none
    nextLeaf := 0 }

/-- The node-saving part of the merge loop, src/rust_wrapper/xmss_alt/algsxmss_fast.rs:179-219. The byte offset of a retained node (207-209)
is a `u32` product: if it does not fit, a checked build panics, otherwise it wraps around. Where the offset is beyond the end of the
buffer the Rust code would replace the whole buffer by one node (lines 190, 216), and where the differences in 207-208 underflow a checked
build would panic; neither happens with buffers of the right sizes, and both are a panic here. -/
def setupSave (κ : Nat) (b : Build) (p : XmssParams) (i nodeh : Nat) (c : Cell) (st : BdsState) : Res BdsState :=
  if i >>> nodeh = 1 then do
    let auth ← wr st.auth nodeh c
    ok { st with auth := auth }
  else if nodeh < p.h - κ ∧ i >>> nodeh = 3 then
    setThNode st nodeh c
  else if nodeh ≥ p.h - κ then
    if nodeh < p.h ∧ p.h ≤ 2 ^ (p.h - 1 - nodeh) + nodeh ∧ 3 ≤ i >>> nodeh then do
      let start ← u32 b ((2 ^ (p.h - 1 - nodeh) + nodeh - p.h + ((i >>> nodeh) - 3) >>> 1) * 32)
      let r ← wr st.retain (start / 32) c
      ok { st with retain := r }
    else panic
  else ok st

/-- The merge loop of `treehash_setup`, src/rust_wrapper/xmss_alt/algsxmss_fast.rs:176-233. -/
def setupMerge (κ : Nat) (b : Build) (S : Sha256) (hf : HashFn) (p : XmssParams) (pubSeed : Bytes) (idx i : Nat) :
    Nat → List Cell → List (Option Nat) → BdsState → Adrs → Res (THStack × BdsState × Adrs)
  | so + 2, nodes, levels, st, nodeAddr => do
    let a ← rdLevel levels (so + 1)
    let c ← rdLevel levels so
    if a = c then
      let top ← rd nodes (so + 1)
      let st ← setupSave κ b p i a top st
      let nodeAddr := setTreeHeight nodeAddr a
      let nodeAddr := setTreeIndex nodeAddr (idx >>> (a + 1))
      let l ← rdNode nodes so
      let r ← rdNode nodes (so + 1)
      let (x, nodeAddr) ← hashH S hf (l ++ r) pubSeed nodeAddr
      let nodes ← wr nodes so (some x)
      let levels ← wr levels so (some (c + 1))
      setupMerge κ b S hf p pubSeed idx i (so + 1) nodes levels st nodeAddr
    else ok ({ nodes := nodes, levels := levels, offset := so + 2 }, st, nodeAddr)
  | so, nodes, levels, st, nodeAddr =>
    ok ({ nodes := nodes, levels := levels, offset := so }, st, nodeAddr)

/-- The main loop of `treehash_setup`, src/rust_wrapper/xmss_alt/algsxmss_fast.rs:152-235, `m` leaves left. -/
def setupLoop (κ : Nat) (b : Build) (S : Sha256) (hf : HashFn) (skSeed : Bytes) (p : XmssParams) (pubSeed : Bytes) :
    Nat → Nat → Nat → THStack → BdsState → Adrs → Adrs → Adrs → Res (THStack × BdsState)
  | 0, _, _, th, st, _, _, _ => ok (th, st)
  | m + 1, idx, i, th, st, otsAddr, ltreeAddr, nodeAddr => do
    let ltreeAddr := setLtree ltreeAddr idx
    let otsAddr := setOTS otsAddr idx
    let (leaf, ltreeAddr, otsAddr) ← genLeafWots S hf skSeed p pubSeed ltreeAddr otsAddr
    let nodes ← wr th.nodes th.offset (some leaf)
    let levels ← wr th.levels th.offset (some 0)
    let so := th.offset + 1
    let st ← if p.h - κ > 0 ∧ i = 3 then do
        let c ← rd nodes so
        setThNode st 0 c
      else ok st
    let (th, st, nodeAddr) ← setupMerge κ b S hf p pubSeed idx i so nodes levels st nodeAddr
    setupLoop κ b S hf skSeed p pubSeed m (idx + 1) (i + 1) th st otsAddr ltreeAddr nodeAddr

/-- `treehash_setup` with `index = 0`, src/rust_wrapper/xmss_alt/algsxmss_fast.rs:112-240: the root and the state. -/
def treehashSetup (κ : Nat) (b : Build) (S : Sha256) (hf : HashFn) (height : Nat) (st : BdsState) (skSeed : Bytes)
    (p : XmssParams) (pubSeed : Bytes) (addr : Adrs) : Res (Bytes × BdsState) := do
  let otsAddr := derive addr 0
  let ltreeAddr := derive addr 1
  let nodeAddr := setType addr 2
  let lastnode ← shl1 b height
  let th : THStack := { nodes := List.replicate (height + 1) none
                        levels := List.replicate (height + 1) none, offset := 0 }
  let ths ← setupInit (p.h - κ) 0 st.treehash
  let st := { st with treehash := ths }
  let (th, st) ← setupLoop κ b S hf skSeed p pubSeed lastnode 0 0 th st otsAddr ltreeAddr nodeAddr
  let root ← rdNode th.nodes 0
  ok (root, st)

/-- `bds_treehash_update`, src/rust_wrapper/xmss_alt/algsxmss_fast.rs:386-434 (its result is ignored by the callers). -/
def bdsTreehashUpdate (κ : Nat) (S : Sha256) (hf : HashFn) (skSeed : Bytes) (p : XmssParams) (pubSeed : Bytes)
    (addr : Adrs) : Nat → BdsState → Res BdsState
  | 0, st => ok st
  | updates + 1, st => do
    let level ← pickLevel st p (p.h - κ) 0 (p.h - κ) p.h
    if level = p.h - κ then ok st
    else
      let st ← treehashUpdate S hf level st skSeed p pubSeed addr
      bdsTreehashUpdate κ S hf skSeed p pubSeed addr updates st

/-- The loop refreshing `auth[i]`, src/rust_wrapper/xmss_alt/algsxmss_fast.rs:644-663: `m` more from `i`. The
product in 659 is a `u32`, see `setupSave`. Underflows of the computations in 653-654 are a panic here; they do not happen. -/
def roundAuth (κ : Nat) (b : Build) (p : XmssParams) (leafIdx : Nat) : Nat → Nat → BdsState → Res BdsState
  | 0, _, st => ok st
  | m + 1, i, st => do
    let c ←
      if i < p.h - κ then do
        let t ← rd st.treehash i
        ok t.node
      else if i < p.h ∧ p.h ≤ 2 ^ (p.h - 1 - i) + i ∧ 1 ≤ leafIdx >>> i then
        let offset := 2 ^ (p.h - 1 - i) + i - p.h
        let rowidx := ((leafIdx >>> i) - 1) >>> 1
        let start ← u32 b ((offset + rowidx) * 32)
        rd st.retain (start / 32)
      else panic
    let auth ← wr st.auth i c
    roundAuth κ b p leafIdx m (i + 1) { st with auth := auth }

/-- `bds_round`, src/rust_wrapper/xmss_alt/algsxmss_fast.rs:567-675. -/
def bdsRound (κ : Nat) (b : Build) (S : Sha256) (hf : HashFn) (st : BdsState) (leafIdx : Nat) (skSeed : Bytes)
    (p : XmssParams) (pubSeed : Bytes) (addr : Adrs) : Res BdsState := do
  let otsAddr := derive addr 0
  let ltreeAddr := derive addr 1
  let nodeAddr := derive addr 2
  let tau := findTau leafIdx p.h p.h 0
  let buf ← if tau > 0 then do
      let a ← rd st.auth (tau - 1)
      let b ← rd st.keep ((tau - 1) >>> 1)
      ok (a, b)
    else ok (none, none)
  let st ← if (leafIdx >>> (tau + 1)) &&& 1 = 0 ∧ tau < p.h - 1 then do
      let a ← rd st.auth tau
      let keep ← wr st.keep (tau >>> 1) a
      ok { st with keep := keep }
    else ok st
  if tau = 0 then
    let ltreeAddr := setLtree ltreeAddr leafIdx
    let otsAddr := setOTS otsAddr leafIdx
    let (leaf, _, _) ← genLeafWots S hf skSeed p pubSeed ltreeAddr otsAddr
    let auth ← wr st.auth 0 (some leaf)
    ok { st with auth := auth }
  else
    let nodeAddr := setTreeHeight nodeAddr (tau - 1)
    let nodeAddr := setTreeIndex nodeAddr (leafIdx >>> tau)
    let (x, _) ← hashH S hf (nodeBytes buf.1 ++ nodeBytes buf.2) pubSeed nodeAddr
    let auth ← wr st.auth tau (some x)
    let st := { st with auth := auth }
    let st ← roundAuth κ b p leafIdx tau 0 st
    roundRestart p leafIdx (if tau < p.h - κ then tau else p.h - κ) 0 st

/-- The loop of `xmss_fast_update`, src/rust_wrapper/xmss_alt/algsxmss_fast.rs:774-791, `m` rounds from `j` (the test
`j >= num_elems` never fires). -/
def advanceLoop (κ : Nat) (b : Build) (S : Sha256) (hf : HashFn) (skSeed : Bytes) (p : XmssParams) (pubSeed : Bytes) :
    Nat → Nat → BdsState → Res BdsState
  | 0, _, st => ok st
  | m + 1, j, st => do
    let st ← bdsRound κ b S hf st j skSeed p pubSeed {}
    let st ← bdsTreehashUpdate κ S hf skSeed p pubSeed {} ((p.h - κ) >>> 1) st
    advanceLoop κ b S hf skSeed p pubSeed m (j + 1) st

/-- `xmss_fast_gen_keypair(hash_func, params, pk, sk, state, seed)`, src/rust_wrapper/xmss_alt/algsxmss_fast.rs:682-739: the slices `pk`
and `sk` and the traversal state afterwards. -/
def xmssFastGenKeypairRaw (κ : Nat) (b : Build) (S : Sha256) (hf : HashFn) (p : XmssParams) (pk sk : Bytes) (st : BdsState) (seed : Bytes) :
    Res (Bytes × Bytes × BdsState) :=
  if p.h &&& 1 ≠ 0 then err .invalidArgument
  else do
    let sk ← putInto sk 0 [0, 0, 0, 0]
    let randombits ← fipsShake256 96 seed 48
    let sk ← putInto sk 4 randombits
    let x ← slice sk 68 32
    let pk ← putInto pk 32 x
    let (root, st) ← treehashSetup κ b S hf p.h st (sk.drop 4) p (sk.drop 68) {}
    let pk ← putInto pk 0 root
    let root ← slice pk 0 32
    let sk ← putInto sk 100 root
    ok (pk, sk, st)

/-- `xmss_fast_update(hash_func, params, sk, state, new_idx)`, src/rust_wrapper/xmss_alt/algsxmss_fast.rs:741-800, on the caller's key
slice and state: the value in `Ok` and both afterwards. -/
def xmssFastUpdateRaw (κ : Nat) (b : Build) (S : Sha256) (hf : HashFn) (p : XmssParams) (sk : Bytes) (st : BdsState) (newIdx : UInt32) :
    Res (Int × Bytes × BdsState) := do
  let numElems ← shl1 b p.h
  let currentIdx ← be32At sk
  if newIdx.toNat ≥ numElems then err .invalidArgument
  else if newIdx.toNat < currentIdx then err .invalidArgument
  else
    let skSeed ← slice sk 4 32
    let pubSeed ← slice sk 68 32
    let st ← advanceLoop κ b S hf skSeed p pubSeed (newIdx.toNat - currentIdx) currentIdx st
    let sk ← putInto sk 0 (idxBytes newIdx.toNat)
    ok (0, sk, st)

/-- `xmss_fast_sign_msg(hash_func, params, sk, state, sig_msg, msg, msglen)`,
src/rust_wrapper/xmss_alt/algsxmss_fast.rs:802-959: the return value, the slices `sk` and `sig_msg` and the traversal state afterwards. -/
def xmssFastSignMsgRaw (κ : Nat) (b : Build) (S : Sha256) (hf : HashFn) (p : XmssParams) (sk : Bytes) (st : BdsState) (sig msg : Bytes)
    (msglen : Nat) : Res (Nat × Bytes × Bytes × BdsState) := do
  let idx ← be32At sk
  let skSeed ← slice sk 4 32
  let skPrf ← slice sk 36 32
  let pubSeed ← slice sk 68 32
  let next ← u32 b (idx + 1)
  let sk ← putInto sk 0 (idxBytes next)
  let r ← prf S hf (toByte idx 32) skPrf
  let root ← slice sk 100 32
  let hashKey := r ++ root ++ toByte idx 32
  let msgH ← hMsgLen S hf msg msglen hashKey
  let sig ← putInto sig 0 (idxBytes idx)
  let sig ← putInto sig 4 r
  let otsAddr := setOTS (setType {} 0) idx
  let (otsSeed, otsAddr) ← getSeed S hf skSeed otsAddr
  let (wsig, otsAddr) ← wotsSign b S hf p.wots msgH otsSeed pubSeed otsAddr
  let sig ← putInto sig 36 wsig.flatten
  let path ← authOut st.auth p.h 0
  let sig ← putInto sig (36 + p.wots.keysize) path.flatten
  let num ← shl1 b p.h
  let st ← if idx < num - 1 then do
      let st ← bdsRound κ b S hf st idx skSeed p pubSeed otsAddr
      bdsTreehashUpdate κ S hf skSeed p pubSeed otsAddr ((p.h - κ) >>> 1) st
    else ok st
  ok (0, sk, sig, st)

/-- One call of `xmss_fast_update` or `xmss_fast_sign_msg` on the caller's key slice and state,
src/rust_wrapper/xmss_alt/algsxmss_fast.rs:741-959: what it returns (`threw` is `Err`) and both afterwards; `none` is a panic. Both errors
of `xmss_fast_update` are returned before anything is changed. -/
def sliceCall (κ : Nat) (b : Build) (S : Sha256) (hf : HashFn) (p : XmssParams) (s : Bytes × BdsState) : CCall → Option (CReply × (Bytes × BdsState))
  | .update n => match xmssFastUpdateRaw κ b S hf p s.1 s.2 n with
    | .ok (c, s') => some (.code c, s')
    | .err .invalidArgument => some (.threw .invalidArgument, s)
    | _ => none
  | .sign sig msg msglen => match xmssFastSignMsgRaw κ b S hf p s.1 s.2 sig msg msglen with
    | .ok (c, sk, sig, st) => some (.signed c sig, (sk, st))
    | _ => none

/-- A history of such calls, src/rust_wrapper/xmss_alt/algsxmss_fast.rs:741-959. -/
def sliceRun (κ : Nat) (b : Build) (S : Sha256) (hf : HashFn) (p : XmssParams) (s : Bytes × BdsState) :
    List CCall → Option (List CReply × (Bytes × BdsState))
  | [] => some ([], s)
  | c :: cs => do
    let (r, s) ← sliceCall κ b S hf p s c
    let (rs, s) ← sliceRun κ b S hf p s cs
    some (r :: rs, s)

end Qrl.Rs.RK
