import Verif.Model.CLow
/-!
# The fast functions of src/xmss-alt/algsxmss_fast.c with any traversal parameter `k`

`XmssFast` fixes `k = 2` (src/qrl/xmssFast.cpp:29), and so does `Verif/Model/Bds`. A program that calls the C functions itself chooses
`k` in `xmss_set_params` (src/xmss-alt/xmss_common.c:30-43): the functions that read `params->k`, once more, with `k` as the argument
`κ`. The functions that do not read it are those of `Verif/Model/Bds`; the same simplifications apply.
-/

namespace Qrl.BK

open Outcome

/-- `xmss_set_params(params, 32, h, w, k)`, src/xmss-alt/xmss_common.c:30-43. The early return leaves the caller's struct unset: `ub`. -/
def xmssSetParams (κ h w : Nat) : Outcome XmssParams :=
  if κ ≥ h ∨ κ < 2 ∨ (h - κ) % 2 ≠ 0 then ub
  else do
    let wp ← wotsSetParams w
    ok { wots := wp, h := h }

/-- The slot of `retain` that the byte offset `x * n` with `n = 32` points to, src/xmss-alt/algsxmss_fast.c:166 and 475: the product is an
`unsigned int` and wraps around at 4 GiB. -/
def retainSlot (x : Nat) : Nat := x * 32 % 2 ^ 32 / 32

/-- The node-saving part of the merge loop, src/xmss-alt/algsxmss_fast.c:157-169: `i` counts leaves, `nodeh`
is the level of the node `c` on top of the stack. From level `h` on, the amount `h - 1 - nodeh` of the shift wraps around
and the shift is undefined. -/
def setupSave (κ : Nat) (p : XmssParams) (i nodeh : Nat) (c : Cell) (st : BdsState) : Outcome BdsState :=
  if i >>> nodeh = 1 then do
    let auth ← wr st.auth nodeh c
    ok { st with auth := auth }
  else if nodeh < p.h - κ ∧ i >>> nodeh = 3 then
    setThNode st nodeh c
  else if nodeh ≥ p.h - κ then
    if nodeh ≥ p.h then ub
    else do
      let r ← wr st.retain
        (retainSlot (((1 <<< (p.h - 1 - nodeh)) + nodeh + sub32 0 p.h + ((sub32 (i >>> nodeh) 3) >>> 1)) % 2 ^ 32)) c
      ok { st with retain := r }
  else ok st

/-- The merge loop of `treehash_setup`, src/xmss-alt/algsxmss_fast.c:156-176. -/
def setupMerge (κ : Nat) (S : Sha256) (hf : HashFn) (p : XmssParams) (pubSeed : Bytes) (idx i : Nat) :
    Nat → List Cell → List (Option Nat) → BdsState → Adrs → Outcome (THStack × BdsState × Adrs)
  | so + 2, nodes, levels, st, nodeAddr => do
    let a ← rdUse levels (so + 1)
    let b ← rdUse levels so
    if a = b then
      let top ← rd nodes (so + 1)
      let st ← setupSave κ p i a top st
      let nodeAddr := nodeAddr.setTreeHeight a
      let nodeAddr := nodeAddr.setTreeIndex (idx >>> (a + 1))
      let l ← rdUse nodes so
      let r ← rdUse nodes (so + 1)
      let (x, nodeAddr) := hashH S hf (l ++ r) pubSeed nodeAddr
      let nodes ← wr nodes so (some x)
      let levels ← wr levels so (some (b + 1))
      setupMerge κ S hf p pubSeed idx i (so + 1) nodes levels st nodeAddr
    else ok ({ nodes := nodes, levels := levels, offset := so + 2 }, st, nodeAddr)
  | so, nodes, levels, st, nodeAddr =>
    ok ({ nodes := nodes, levels := levels, offset := so }, st, nodeAddr)

/-- The main loop of `treehash_setup`, src/xmss-alt/algsxmss_fast.c:146-178, `m` leaves left. When `i == 3`
the code copies the slot *above* the stack top into `treehash[0].node` (line 154). -/
def setupLoop (κ : Nat) (S : Sha256) (hf : HashFn) (skSeed : Bytes) (p : XmssParams) (pubSeed : Bytes) :
    Nat → Nat → Nat → THStack → BdsState → Adrs → Adrs → Adrs → Outcome (THStack × BdsState)
  | 0, _, _, th, st, _, _, _ => ok (th, st)
  | m + 1, idx, i, th, st, otsAddr, ltreeAddr, nodeAddr => do
    let ltreeAddr := ltreeAddr.setLtree idx
    let otsAddr := otsAddr.setOTS idx
    let (leaf, ltreeAddr, otsAddr) ← genLeafWots S hf skSeed p pubSeed ltreeAddr otsAddr
    let nodes ← wr th.nodes th.offset (some leaf)
    let levels ← wr th.levels th.offset (some 0)
    let so := th.offset + 1
    let st ← if p.h - κ > 0 ∧ i = 3 then do
        let c ← rd nodes so
        setThNode st 0 c
      else ok st
    let (th, st, nodeAddr) ← setupMerge κ S hf p pubSeed idx i so nodes levels st nodeAddr
    setupLoop κ S hf skSeed p pubSeed m (idx + 1) (i + 1) th st otsAddr ltreeAddr nodeAddr

/-- `treehash_setup`, src/xmss-alt/algsxmss_fast.c:104-182: returns the root and the initial traversal state.
`1 << height` is undefined for `height ≥ 32`. -/
def treehashSetup (κ : Nat) (S : Sha256) (hf : HashFn) (height index : Nat) (st : BdsState) (skSeed : Bytes)
    (p : XmssParams) (pubSeed : Bytes) (addr : Adrs) : Outcome (Bytes × BdsState) := do
  let otsAddr := addr.derive 0
  let ltreeAddr := addr.derive 1
  let nodeAddr := addr.derive 2
  if height ≥ 32 then ub
  else
    let th : THStack := { nodes := List.replicate (height + 1) none
                          levels := List.replicate (height + 1) none, offset := 0 }
    let ths ← setupInit (p.h - κ) 0 st.treehash
    let st := { st with treehash := ths }
    let (th, st) ← setupLoop κ S hf skSeed p pubSeed (2 ^ height) index 0 th st otsAddr ltreeAddr nodeAddr
    let root ← rdUse th.nodes 0
    ok (root, st)

/-- `bds_treehash_update`, src/xmss-alt/algsxmss_fast.c:287-323 (its result is ignored by the callers). -/
def bdsTreehashUpdate (κ : Nat) (S : Sha256) (hf : HashFn) (skSeed : Bytes) (p : XmssParams) (pubSeed : Bytes)
    (addr : Adrs) : Nat → BdsState → Outcome BdsState
  | 0, st => ok st
  | updates + 1, st => do
    let level ← pickLevel st p (p.h - κ) 0 (p.h - κ) p.h
    if level = p.h - κ then ok st
    else
      let st ← treehashUpdate S hf level st skSeed p pubSeed addr
      bdsTreehashUpdate κ S hf skSeed p pubSeed addr updates st

/-- The loop refreshing `auth[i]`, `i < tau`, src/xmss-alt/algsxmss_fast.c:468-477: `m` more from `i`. -/
def roundAuth (κ : Nat) (p : XmssParams) (leafIdx : Nat) : Nat → Nat → BdsState → Outcome BdsState
  | 0, _, st => ok st
  | m + 1, i, st => do
    let c ←
      if i < p.h - κ then do
        let t ← rd st.treehash i
        ok t.node
      else
        let offset := ((1 <<< (p.h - 1 - i)) + i + sub32 0 p.h) % 2 ^ 32
        let rowidx := (sub64 (leafIdx >>> i) 1 >>> 1) % 2 ^ 32
        rd st.retain (retainSlot ((offset + rowidx) % 2 ^ 32))
    let auth ← wr st.auth i c
    roundAuth κ p leafIdx m (i + 1) { st with auth := auth }

/-- `bds_round`, src/xmss-alt/algsxmss_fast.c:413-489. -/
def bdsRound (κ : Nat) (S : Sha256) (hf : HashFn) (st : BdsState) (leafIdx : Nat) (skSeed : Bytes)
    (p : XmssParams) (pubSeed : Bytes) (addr : Adrs) : Outcome BdsState := do
  let otsAddr := addr.derive 0
  let ltreeAddr := addr.derive 1
  let nodeAddr := addr.derive 2
  let tau := findTau leafIdx p.h p.h 0
  let buf ← if tau > 0 then do
      let a ← rd st.auth (tau - 1)
      let b ← rd st.keep ((tau - 1) >>> 1)
      ok (a, b)
    else ok (none, none)
  let st ← if (leafIdx >>> (tau + 1)) &&& 1 = 0 ∧ tau < p.h - 1 then do
      let a ← rd st.auth tau
      let keep ← wr st.keep (tau >>> 1) a
      ok { st with keep := keep }
    else ok st
  if tau = 0 then
    let ltreeAddr := ltreeAddr.setLtree leafIdx
    let otsAddr := otsAddr.setOTS leafIdx
    let (leaf, _, _) ← genLeafWots S hf skSeed p pubSeed ltreeAddr otsAddr
    let auth ← wr st.auth 0 (some leaf)
    ok { st with auth := auth }
  else
    let nodeAddr := nodeAddr.setTreeHeight (tau - 1)
    let nodeAddr := nodeAddr.setTreeIndex (leafIdx >>> tau)
    let l ← ofOption buf.1
    let r ← ofOption buf.2
    let (x, _) := hashH S hf (l ++ r) pubSeed nodeAddr
    let auth ← wr st.auth tau (some x)
    let st := { st with auth := auth }
    let st ← roundAuth κ p leafIdx tau 0 st
    roundRestart p leafIdx (if tau < p.h - κ then tau else p.h - κ) 0 st

/-- The loop of `xmssfast_update`, src/xmss-alt/algsxmss_fast.c:567-581, `m` rounds from `j`. (The test
`j >= num_elems` at 568 never fires, because `j < new_idx < num_elems`.) -/
def advanceLoop (κ : Nat) (S : Sha256) (hf : HashFn) (skSeed : Bytes) (p : XmssParams) (pubSeed : Bytes) :
    Nat → Nat → BdsState → Outcome BdsState
  | 0, _, st => ok st
  | m + 1, j, st => do
    let st ← bdsRound κ S hf st j skSeed p pubSeed {}
    let st ← bdsTreehashUpdate κ S hf skSeed p pubSeed {} ((p.h - κ) >>> 1) st
    advanceLoop κ S hf skSeed p pubSeed m (j + 1) st

/-- Arrays of the sizes that go with `k`, with nothing in them, given to `xmss_set_bds_state`, src/xmss-alt/algsxmss_fast.c:48-66: the
sizes are those of src/qrl/xmssFast.cpp:37-58, written there in terms of `k`, and `next_leaf` and `stackoffset` are 0. -/
def bdsInit (κ : Nat) (height : Nat) : BdsState :=
  { stack := List.replicate (height + 1) none
    stackoffset := 0
    stacklevels := List.replicate (height + 1) 0
    auth := List.replicate height none
    keep := List.replicate (height >>> 1) none
    treehash := List.replicate (height - κ)
      { h := 0, nextIdx := 0, stackusage := 0, completed := false, node := none }
    retain := List.replicate ((1 <<< κ) - κ - 1) none
    nextLeaf := 0 }

/-- `xmssfast_Genkeypair(hash_func, params, pk, sk, state, seed)`, src/xmss-alt/algsxmss_fast.c:496-531: the return value, the buffers
`pk` and `sk` and the traversal state afterwards. -/
def xmssfastGenkeypairBuf (κ : Nat) (S : Sha256) (hf : HashFn) (p : XmssParams) (pk sk : Bytes) (st : BdsState) (seed : Bytes) :
    Outcome (Int × Bytes × Bytes × BdsState) :=
  if p.h &&& 1 = 1 then ok (-1, pk, sk, st)
  else do
    let sk ← putAt sk 0 [0, 0, 0, 0]
    let seed48 ← slice seed 0 48
    let randombits := shake256 96 seed48
    let sk ← putAt sk 4 randombits
    let x ← slice sk 68 32
    let pk ← putAt pk 32 x
    let skSeed ← slice sk 4 32
    let pubSeed ← slice sk 68 32
    let (root, st) ← treehashSetup κ S hf p.h 0 st skSeed p pubSeed {}
    let pk ← putAt pk 0 root
    let root ← slice pk 0 32
    let sk ← putAt sk 100 root
    ok (0, pk, sk, st)

/-- `xmssfast_Signmsg(hash_func, params, sk, state, sig_msg, msg, msglen)`, src/xmss-alt/algsxmss_fast.c:592-700: the return value, the
buffers `sk` and `sig_msg` and the traversal state afterwards. -/
def xmssfastSignmsgBuf (κ : Nat) (S : Sha256) (hf : HashFn) (p : XmssParams) (sk : Bytes) (st : BdsState) (sig msg : Bytes) (msglen : Nat) :
    Outcome (Int × Bytes × Bytes × BdsState) := do
  let idx ← be32At sk
  let skSeed ← slice sk 4 32
  let skPrf ← slice sk 36 32
  let pubSeed ← slice sk 68 32
  let sk ← putAt sk 0 (idxBytes (idx + 1))
  let r := prf S hf (toByte idx 32) skPrf
  let root ← slice sk 100 32
  let hashKey := r ++ root ++ toByte idx 32
  let m ← slice msg 0 msglen
  let msgH := hMsg S hf m hashKey
  let sig ← putAt sig 0 (idxBytes idx)
  let sig ← putAt sig 4 r
  let otsAddr := (({} : Adrs).setType 0).setOTS idx
  let (otsSeed, otsAddr) := getSeed S hf skSeed otsAddr
  let (wsig, otsAddr) ← wotsSign S hf p.wots msgH otsSeed pubSeed otsAddr
  let sig ← putAt sig 36 wsig.flatten
  let path ← authOut st.auth p.h 0
  let sig ← putAt sig (36 + p.wots.keysize) path.flatten
  let st ← if idx < 2 ^ p.h - 1 then do
      let st ← bdsRound κ S hf st idx skSeed p pubSeed otsAddr
      bdsTreehashUpdate κ S hf skSeed p pubSeed otsAddr ((p.h - κ) >>> 1) st
    else ok st
  ok (0, sk, sig, st)

/-- `xmssfast_update(hash_func, params, sk, state, new_idx)`, src/xmss-alt/algsxmss_fast.c:533-590, on the caller's key buffer and state.
`1U << h` is undefined for `h ≥ 32`. -/
def xmssfastUpdateBuf (κ : Nat) (S : Sha256) (hf : HashFn) (p : XmssParams) (sk : Bytes) (st : BdsState) (newIdx : UInt32) :
    Step (Bytes × BdsState) Int :=
  if p.h ≥ 32 then .ub
  else
    match be32At sk with
    | .ub => .ub
    | .throw e => .raise e (sk, st)
    | .ok currentIdx =>
      if newIdx.toNat ≥ 2 ^ p.h then .raise .invalidArgument (sk, st)
      else if newIdx.toNat < currentIdx then .raise .invalidArgument (sk, st)
      else
        Step.ofOutcome (sk, st) do
          let skSeed ← slice sk 4 32
          let pubSeed ← slice sk 68 32
          let st ← advanceLoop κ S hf skSeed p pubSeed (newIdx.toNat - currentIdx) currentIdx st
          let sk ← putAt sk 0 (idxBytes newIdx.toNat)
          ok (0, (sk, st))

/-- One call, src/xmss-alt/algsxmss_fast.c:533-700; `none` is undefined behaviour. -/
def cCall (κ : Nat) (S : Sha256) (hf : HashFn) (p : XmssParams) (s : Bytes × BdsState) : CCall → Option (CReply × (Bytes × BdsState))
  | .update n => match xmssfastUpdateBuf κ S hf p s.1 s.2 n with
    | .ret c s' => some (.code c, s')
    | .raise e s' => some (.threw e, s')
    | .ub => none
  | .sign sig msg msglen => match xmssfastSignmsgBuf κ S hf p s.1 s.2 sig msg msglen with
    | .ok (c, sk, sig, st) => some (.signed c sig, (sk, st))
    | _ => none

/-- A history of calls on one key and state, src/xmss-alt/algsxmss_fast.h:77-90. -/
def cRun (κ : Nat) (S : Sha256) (hf : HashFn) (p : XmssParams) (s : Bytes × BdsState) : List CCall → Option (List CReply × (Bytes × BdsState))
  | [] => some ([], s)
  | c :: cs => do
    let (r, s) ← cCall κ S hf p s c
    let (rs, s) ← cRun κ S hf p s cs
    some (r :: rs, s)

end Qrl.BK
