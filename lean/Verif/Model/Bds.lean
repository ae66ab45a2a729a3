import Verif.Model.XmssCore
/-!
# src/xmss-alt/algsxmss_fast.c (BDS traversal, the signer behind `XmssFast`)

`k = 2`, `n = 32` (src/qrl/xmssFast.cpp:27-29). The node buffers are lists of 32-byte slots. A slot is `none`
as long as nothing was stored in it (the vectors of `XmssFast` are zero-filled, so reading such a slot would
really yield zeros; the model treats any *use* of it as `ub`, which is stricter). The functions
`bds_state_update` (329-407) and `validate_authpath` (235-281) are never called and not modelled.
-/

namespace Qrl

open Outcome

/-- `treehash_inst`, src/xmss-alt/algsxmss_fast.h:19-25. -/
structure TreeInst where
  h : Nat
  nextIdx : Nat
  stackusage : Nat
  completed : Bool
  node : Cell
  deriving DecidableEq, Repr

/-- `bds_state`, src/xmss-alt/algsxmss_fast.h:27-36. -/
structure BdsState where
  stack : List Cell
  stackoffset : Nat
  stacklevels : List Nat
  auth : List Cell
  keep : List Cell
  treehash : List TreeInst
  retain : List Cell
  nextLeaf : Nat
  deriving DecidableEq, Repr

/-- Subtraction of `unsigned int`.
As in `nodeh - h` at src/xmss-alt/algsxmss_fast.c:166. -/
def sub32 (a b : Nat) : Nat := (a + 2 ^ 32 - b % 2 ^ 32) % 2 ^ 32

/-- The buffers allocated by `XmssFast::initialize_tree`, src/qrl/xmssFast.cpp:37-58 with `k = 2`, and
`xmss_set_bds_state`, src/xmss-alt/algsxmss_fast.c:48-66. -/
def bdsInit (height : Nat) : BdsState :=
  { stack := List.replicate (height + 1) none
    stackoffset := 0
    stacklevels := List.replicate (height + 1) 0
    auth := List.replicate height none
    keep := List.replicate (height >>> 1) none
    treehash := List.replicate (height - 2)
      { h := 0, nextIdx := 0, stackusage := 0, completed := false, node := none }
    retain := List.replicate ((1 <<< 2) - 2 - 1) none
    nextLeaf := 0 }

/-- The loop of `treehash_minheight_on_stack`, src/xmss-alt/algsxmss_fast.c:91-95: `m` more levels from `i`. -/
def minHeightLoop (st : BdsState) : Nat → Nat → Nat → Outcome Nat
  | 0, _, r => ok r
  | m + 1, i, r =>
    if i < st.stackoffset then do
      let l ← rd st.stacklevels (st.stackoffset - i - 1)
      minHeightLoop st m (i + 1) (if l < r then l else r)
    else ub

/-- `treehash_minheight_on_stack`, src/xmss-alt/algsxmss_fast.c:88-97. -/
def treehashMinheightOnStack (st : BdsState) (p : XmssParams) (t : TreeInst) : Outcome Nat :=
  minHeightLoop st t.stackusage 0 p.h

/-- `state->treehash[i].node := c`.
src/xmss-alt/algsxmss_fast.c:153-169. -/
def setThNode (st : BdsState) (i : Nat) (c : Cell) : Outcome BdsState := do
  let t ← rd st.treehash i
  let ths ← wr st.treehash i { t with node := c }
  ok { st with treehash := ths }

/-- The first loop of `treehash_setup`, src/xmss-alt/algsxmss_fast.c:139-144: `m` more instances from `i`. -/
def setupInit : Nat → Nat → List TreeInst → Outcome (List TreeInst)
  | 0, _, ths => ok ths
  | m + 1, i, ths => do
    let t ← rd ths i
    let ths ← wr ths i { t with h := i, completed := true, stackusage := 0 }
    setupInit m (i + 1) ths

/-- The node-saving part of the merge loop, src/xmss-alt/algsxmss_fast.c:157-169: `i` counts leaves, `nodeh`
is the level of the node `c` on top of the stack. From level `h` on, the amount `h - 1 - nodeh` of the shift wraps around
and the shift is undefined. Simplified: the byte offset `index * 32`, an `unsigned int`, is not reduced; the index is 0 with `k = 2`
(`Model/BdsK` reduces it). -/
def setupSave (p : XmssParams) (i nodeh : Nat) (c : Cell) (st : BdsState) : Outcome BdsState :=
  if i >>> nodeh = 1 then do
    let auth ← wr st.auth nodeh c
    ok { st with auth := auth }
  else if nodeh < p.h - 2 ∧ i >>> nodeh = 3 then
    setThNode st nodeh c
  else if nodeh ≥ p.h - 2 then
    if nodeh ≥ p.h then ub
    else do
      let r ← wr st.retain
        (((1 <<< (p.h - 1 - nodeh)) + nodeh + sub32 0 p.h + ((sub32 (i >>> nodeh) 3) >>> 1)) % 2 ^ 32) c
      ok { st with retain := r }
  else ok st

/-- The merge loop of `treehash_setup`, src/xmss-alt/algsxmss_fast.c:156-176. -/
def setupMerge (S : Sha256) (hf : HashFn) (p : XmssParams) (pubSeed : Bytes) (idx i : Nat) :
    Nat → List Cell → List (Option Nat) → BdsState → Adrs → Outcome (THStack × BdsState × Adrs)
  | so + 2, nodes, levels, st, nodeAddr => do
    let a ← rdUse levels (so + 1)
    let b ← rdUse levels so
    if a = b then
      let top ← rd nodes (so + 1)
      let st ← setupSave p i a top st
      let nodeAddr := nodeAddr.setTreeHeight a
      let nodeAddr := nodeAddr.setTreeIndex (idx >>> (a + 1))
      let l ← rdUse nodes so
      let r ← rdUse nodes (so + 1)
      let (x, nodeAddr) := hashH S hf (l ++ r) pubSeed nodeAddr
      let nodes ← wr nodes so (some x)
      let levels ← wr levels so (some (b + 1))
      setupMerge S hf p pubSeed idx i (so + 1) nodes levels st nodeAddr
    else ok ({ nodes := nodes, levels := levels, offset := so + 2 }, st, nodeAddr)
  | so, nodes, levels, st, nodeAddr =>
    ok ({ nodes := nodes, levels := levels, offset := so }, st, nodeAddr)

/-- The main loop of `treehash_setup`, src/xmss-alt/algsxmss_fast.c:146-178, `m` leaves left. When `i == 3`
the code copies the slot *above* the stack top into `treehash[0].node` (line 154). -/
def setupLoop (S : Sha256) (hf : HashFn) (skSeed : Bytes) (p : XmssParams) (pubSeed : Bytes) :
    Nat → Nat → Nat → THStack → BdsState → Adrs → Adrs → Adrs → Outcome (THStack × BdsState)
  | 0, _, _, th, st, _, _, _ => ok (th, st)
  | m + 1, idx, i, th, st, otsAddr, ltreeAddr, nodeAddr => do
    let ltreeAddr := ltreeAddr.setLtree idx
    let otsAddr := otsAddr.setOTS idx
    let (leaf, ltreeAddr, otsAddr) ← genLeafWots S hf skSeed p pubSeed ltreeAddr otsAddr
    let nodes ← wr th.nodes th.offset (some leaf)
    let levels ← wr th.levels th.offset (some 0)
    let so := th.offset + 1
    let st ← if p.h - 2 > 0 ∧ i = 3 then do
        let c ← rd nodes so
        setThNode st 0 c
      else ok st
    let (th, st, nodeAddr) ← setupMerge S hf p pubSeed idx i so nodes levels st nodeAddr
    setupLoop S hf skSeed p pubSeed m (idx + 1) (i + 1) th st otsAddr ltreeAddr nodeAddr

/-- `treehash_setup`, src/xmss-alt/algsxmss_fast.c:104-182: returns the root and the initial traversal state.
`1 << height` is undefined for `height ≥ 32`. -/
def treehashSetup (S : Sha256) (hf : HashFn) (height index : Nat) (st : BdsState) (skSeed : Bytes)
    (p : XmssParams) (pubSeed : Bytes) (addr : Adrs) : Outcome (Bytes × BdsState) := do
  let otsAddr := addr.derive 0
  let ltreeAddr := addr.derive 1
  let nodeAddr := addr.derive 2
  if height ≥ 32 then ub
  else
    let th : THStack := { nodes := List.replicate (height + 1) none
                          levels := List.replicate (height + 1) none, offset := 0 }
    let ths ← setupInit (p.h - 2) 0 st.treehash
    let st := { st with treehash := ths }
    let (th, st) ← setupLoop S hf skSeed p pubSeed (2 ^ height) index 0 th st otsAddr ltreeAddr nodeAddr
    let root ← rdUse th.nodes 0
    ok (root, st)

/-- Result of the merge loop of `treehash_update`.
src/xmss-alt/algsxmss_fast.c:209-218. -/
structure MergeRes where
  node : Bytes
  nodeheight : Nat
  stackusage : Nat
  stackoffset : Nat
  deriving DecidableEq, Repr

/-- The loop `while (treehash->stackusage > 0 && …)` of `treehash_update`,
src/xmss-alt/algsxmss_fast.c:209-218. -/
def updateMerge (S : Sha256) (hf : HashFn) (pubSeed : Bytes) (stack : List Cell)
    (stacklevels : List Nat) (nextIdx : Nat) :
    Nat → Nat → Bytes → Nat → Adrs → Outcome MergeRes
  | 0, so, node, nodeheight, _ =>
    ok { node := node, nodeheight := nodeheight, stackusage := 0, stackoffset := so }
  | su + 1, so, node, nodeheight, nodeAddr =>
    if so = 0 then ub
    else do
      let l ← rd stacklevels (so - 1)
      if l = nodeheight then
        let left ← rdUse stack (so - 1)
        let nodeAddr := nodeAddr.setTreeHeight nodeheight
        let nodeAddr := nodeAddr.setTreeIndex (nextIdx >>> (nodeheight + 1))
        let (x, nodeAddr) := hashH S hf (left ++ node) pubSeed nodeAddr
        updateMerge S hf pubSeed stack stacklevels nextIdx su (so - 1) x (nodeheight + 1) nodeAddr
      else ok { node := node, nodeheight := nodeheight, stackusage := su + 1, stackoffset := so }

/-- `treehash_update` on `state->treehash[level]`, src/xmss-alt/algsxmss_fast.c:184-230. -/
def treehashUpdate (S : Sha256) (hf : HashFn) (level : Nat) (st : BdsState) (skSeed : Bytes)
    (p : XmssParams) (pubSeed : Bytes) (addr : Adrs) : Outcome BdsState := do
  let otsAddr := addr.derive 0
  let ltreeAddr := addr.derive 1
  let nodeAddr := addr.derive 2
  let t ← rd st.treehash level
  let ltreeAddr := ltreeAddr.setLtree t.nextIdx
  let otsAddr := otsAddr.setOTS t.nextIdx
  let (leaf, _, _) ← genLeafWots S hf skSeed p pubSeed ltreeAddr otsAddr
  let m ← updateMerge S hf pubSeed st.stack st.stacklevels t.nextIdx t.stackusage st.stackoffset leaf 0
    nodeAddr
  if m.nodeheight = t.h then
    let ths ← wr st.treehash level
      { t with node := some m.node, completed := true, stackusage := m.stackusage }
    ok { st with treehash := ths, stackoffset := m.stackoffset }
  else
    let stack ← wr st.stack m.stackoffset (some m.node)
    let levels ← wr st.stacklevels m.stackoffset m.nodeheight
    let ths ← wr st.treehash level { t with stackusage := m.stackusage + 1, nextIdx := t.nextIdx + 1 }
    ok { st with stack := stack, stacklevels := levels, stackoffset := m.stackoffset + 1, treehash := ths }

/-- The loop over instances choosing the one that needs an update most,
src/xmss-alt/algsxmss_fast.c:301-315: `m` more from `i`; returns `level`. -/
def pickLevel (st : BdsState) (p : XmssParams) : Nat → Nat → Nat → Nat → Outcome Nat
  | 0, _, level, _ => ok level
  | m + 1, i, level, lMin => do
    let t ← rd st.treehash i
    let low ←
      if t.completed then ok p.h
      else if t.stackusage = 0 then ok i
      else treehashMinheightOnStack st p t
    if low < lMin then pickLevel st p m (i + 1) i low
    else pickLevel st p m (i + 1) level lMin

/-- `bds_treehash_update`, src/xmss-alt/algsxmss_fast.c:287-323 (its result is ignored by the callers). -/
def bdsTreehashUpdate (S : Sha256) (hf : HashFn) (skSeed : Bytes) (p : XmssParams) (pubSeed : Bytes)
    (addr : Adrs) : Nat → BdsState → Outcome BdsState
  | 0, st => ok st
  | updates + 1, st => do
    let level ← pickLevel st p (p.h - 2) 0 (p.h - 2) p.h
    if level = p.h - 2 then ok st
    else
      let st ← treehashUpdate S hf level st skSeed p pubSeed addr
      bdsTreehashUpdate S hf skSeed p pubSeed addr updates st

/-- The search for `tau`, src/xmss-alt/algsxmss_fast.c:444-449: `m` more bits from `i`; `h` if all are set. -/
def findTau (leafIdx h : Nat) : Nat → Nat → Nat
  | 0, _ => h
  | m + 1, i => if (leafIdx >>> i) &&& 1 = 0 then i else findTau leafIdx h m (i + 1)

/-- The loop refreshing `auth[i]`, `i < tau`, src/xmss-alt/algsxmss_fast.c:468-477: `m` more from `i`. Simplified: the byte offset
`(offset + rowidx) * 32`, an `unsigned int`, is not reduced; the index is 0 with `k = 2` and a leaf of the tree, the only ones
the callers pass (`Model/BdsK` reduces it). -/
def roundAuth (p : XmssParams) (leafIdx : Nat) : Nat → Nat → BdsState → Outcome BdsState
  | 0, _, st => ok st
  | m + 1, i, st => do
    let c ←
      if i < p.h - 2 then do
        let t ← rd st.treehash i
        ok t.node
      else
        let offset := ((1 <<< (p.h - 1 - i)) + i + sub32 0 p.h) % 2 ^ 32
        let rowidx := (sub64 (leafIdx >>> i) 1 >>> 1) % 2 ^ 32
        rd st.retain ((offset + rowidx) % 2 ^ 32)
    let auth ← wr st.auth i c
    roundAuth p leafIdx m (i + 1) { st with auth := auth }

/-- The loop restarting tree-hash instances, src/xmss-alt/algsxmss_fast.c:479-487: `m` more from `i`. -/
def roundRestart (p : XmssParams) (leafIdx : Nat) : Nat → Nat → BdsState → Outcome BdsState
  | 0, _, st => ok st
  | m + 1, i, st => do
    let startidx := (leafIdx + 1 + 3 * (1 <<< i)) % 2 ^ 32
    if startidx < 2 ^ p.h then
      let t ← rd st.treehash i
      let ths ← wr st.treehash i
        { t with h := i, nextIdx := startidx, completed := false, stackusage := 0 }
      roundRestart p leafIdx m (i + 1) { st with treehash := ths }
    else roundRestart p leafIdx m (i + 1) st

/-- `bds_round`, src/xmss-alt/algsxmss_fast.c:413-489. -/
def bdsRound (S : Sha256) (hf : HashFn) (st : BdsState) (leafIdx : Nat) (skSeed : Bytes)
    (p : XmssParams) (pubSeed : Bytes) (addr : Adrs) : Outcome BdsState := do
  let otsAddr := addr.derive 0
  let ltreeAddr := addr.derive 1
  let nodeAddr := addr.derive 2
  let tau := findTau leafIdx p.h p.h 0
  let buf ← if tau > 0 then do
      let a ← rd st.auth (tau - 1)
      let b ← rd st.keep ((tau - 1) >>> 1)
      ok (a, b)
    else ok (none, none)
  let st ← if (leafIdx >>> (tau + 1)) &&& 1 = 0 ∧ tau < p.h - 1 then do
      let a ← rd st.auth tau
      let keep ← wr st.keep (tau >>> 1) a
      ok { st with keep := keep }
    else ok st
  if tau = 0 then
    let ltreeAddr := ltreeAddr.setLtree leafIdx
    let otsAddr := otsAddr.setOTS leafIdx
    let (leaf, _, _) ← genLeafWots S hf skSeed p pubSeed ltreeAddr otsAddr
    let auth ← wr st.auth 0 (some leaf)
    ok { st with auth := auth }
  else
    let nodeAddr := nodeAddr.setTreeHeight (tau - 1)
    let nodeAddr := nodeAddr.setTreeIndex (leafIdx >>> tau)
    let l ← ofOption buf.1
    let r ← ofOption buf.2
    let (x, _) := hashH S hf (l ++ r) pubSeed nodeAddr
    let auth ← wr st.auth tau (some x)
    let st := { st with auth := auth }
    let st ← roundAuth p leafIdx tau 0 st
    roundRestart p leafIdx (if tau < p.h - 2 then tau else p.h - 2) 0 st

/-- `xmssfast_Genkeypair`, src/xmss-alt/algsxmss_fast.c:496-531: returns the secret key and the state. For
odd `h` the function returns -1 at once (callers only pass even `h`). -/
def xmssfastGenkeypair (S : Sha256) (hf : HashFn) (p : XmssParams) (sk : Bytes) (st : BdsState)
    (seed : Bytes) : Outcome (Bytes × BdsState) :=
  if p.h &&& 1 = 1 then ok (sk, st)
  else do
    let seed48 ← slice seed 0 48
    let randombits := shake256 96 seed48
    let skSeed := randombits.take 32
    let pubSeed := randombits.drop 64
    let (root, st) ← treehashSetup S hf p.h 0 st skSeed p pubSeed {}
    ok (idxBytes 0 ++ randombits ++ root, st)

/-- The loop of `xmssfast_update`, src/xmss-alt/algsxmss_fast.c:567-581, `m` rounds from `j`. (The test
`j >= num_elems` at 568 never fires, because `j < new_idx < num_elems`.) -/
def advanceLoop (S : Sha256) (hf : HashFn) (skSeed : Bytes) (p : XmssParams) (pubSeed : Bytes) :
    Nat → Nat → BdsState → Outcome BdsState
  | 0, _, st => ok st
  | m + 1, j, st => do
    let st ← bdsRound S hf st j skSeed p pubSeed {}
    let st ← bdsTreehashUpdate S hf skSeed p pubSeed {} ((p.h - 2) >>> 1) st
    advanceLoop S hf skSeed p pubSeed m (j + 1) st

/-- Result of a call on a mutable object: the returned value or exception together with the state the object
is left in, or undefined behaviour.
For instance `XmssFast::setIndex` and `sign`, src/qrl/xmssFast.cpp:68-95. -/
inductive Step (σ α : Type) where
  | ret (a : α) (s : σ)
  | raise (e : Exc) (s : σ)
  | ub
  deriving DecidableEq, Repr

/-- Value and new state, or undefined behaviour; an exception leaves the state `s`.
Used for src/qrl/xmssFast.cpp:68-95. -/
def Step.ofOutcome {σ α : Type} (s : σ) : Outcome (α × σ) → Step σ α
  | .ok (a, s') => .ret a s'
  | .throw e => .raise e s
  | .ub => .ub

/-- `xmssfast_update`, src/xmss-alt/algsxmss_fast.c:533-590, on the pair (secret key, traversal state).
`1U << h` is undefined for `h ≥ 32`. -/
def xmssfastUpdate (S : Sha256) (hf : HashFn) (p : XmssParams) (s : Bytes × BdsState) (newIdx : Nat) :
    Step (Bytes × BdsState) Int :=
  if p.h ≥ 32 then .ub
  else
    match be32At s.1 with
    | .ub => .ub
    | .throw e => .raise e s
    | .ok currentIdx =>
      if newIdx ≥ 2 ^ p.h then .raise .invalidArgument s
      else if newIdx < currentIdx then .raise .invalidArgument s
      else
        Step.ofOutcome s do
          let skSeed ← slice s.1 4 32
          let pubSeed ← slice s.1 68 32
          let st ← advanceLoop S hf skSeed p pubSeed (newIdx - currentIdx) currentIdx s.2
          ok (0, (idxBytes newIdx ++ s.1.drop 4, st))

/-- The auth path copied into the signature, `memcpy(sig_msg, state->auth, h * n)`,
src/xmss-alt/algsxmss_fast.c:683: `m` nodes from level `i`. -/
def authOut (auth : List Cell) : Nat → Nat → Outcome (List Bytes)
  | 0, _ => ok []
  | m + 1, i => do
    let x ← rdUse auth i
    let xs ← authOut auth m (i + 1)
    ok (x :: xs)

/-- `xmssfast_Signmsg`, src/xmss-alt/algsxmss_fast.c:592-700: returns the bytes written at `sig_msg`, the new
secret key and the new state. -/
def xmssfastSignmsg (S : Sha256) (hf : HashFn) (p : XmssParams) (sk : Bytes) (st : BdsState)
    (msg : Bytes) : Outcome (Bytes × (Bytes × BdsState)) := do
  let idx ← be32At sk
  let skSeed ← slice sk 4 32
  let skPrf ← slice sk 36 32
  let pubSeed ← slice sk 68 32
  let sk' := idxBytes (idx + 1) ++ sk.drop 4
  let r := prf S hf (toByte idx 32) skPrf
  let root ← slice sk' 100 32
  let hashKey := r ++ root ++ toByte idx 32
  let msgH := hMsg S hf msg hashKey
  let otsAddr := (({} : Adrs).setType 0).setOTS idx
  let (otsSeed, otsAddr) := getSeed S hf skSeed otsAddr
  let (wsig, otsAddr) ← wotsSign S hf p.wots msgH otsSeed pubSeed otsAddr
  let path ← authOut st.auth p.h 0
  let st ← if idx < 2 ^ p.h - 1 then do
      let st ← bdsRound S hf st idx skSeed p pubSeed otsAddr
      bdsTreehashUpdate S hf skSeed p pubSeed otsAddr ((p.h - 2) >>> 1) st
    else ok st
  ok (idxBytes idx ++ r ++ wsig.flatten ++ path.flatten, (sk', st))

end Qrl
