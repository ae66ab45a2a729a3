import Verif.Model.RustXmss
import Verif.Model.Bds
/-!
# src/rust_wrapper/xmss_alt/algsxmss_fast.rs

`k = 2`, `n = 32`. The structures `TreeInst` and `BdsState` of the C++ model are reused (`TreeHashInst` and `BDSState`,
lines 12-31; `completed` is 0 or 1). A node slot `none` still holds zeros. `bds_state_update` (440-559) and
`validate_authpath` (320-380) are private and never called; they are not modelled.
-/

namespace Qrl.Rs

open Res

/-- The buffers allocated by `initialize_tree`, src/rust_wrapper/qrl/xmss_fast.rs:34-55. -/
def bdsInit (height : Nat) : BdsState :=
  { stack := List.replicate (height + 1) none
    stackoffset := 0
    stacklevels := List.replicate (height + 1) 0
    auth := List.replicate height none
    keep := List.replicate (height >>> 1) none
    treehash := List.replicate (height - 2)
      { h := 0, nextIdx := 0, stackusage := 0, completed := false, node := none }
    retain := List.replicate ((1 <<< 2) - 2 - 1) none
    nextLeaf := 0 }

/-- The loop of `treehash_minheight_on_stack`, src/rust_wrapper/xmss_alt/algsxmss_fast.rs:99-103: `m` more levels from
`i`. An underflow of `stackoffset - i - 1` panics (or, unchecked, indexes out of range). -/
def minHeightLoop (st : BdsState) : Nat → Nat → Nat → Res Nat
  | 0, _, r => ok r
  | m + 1, i, r =>
    if i < st.stackoffset then do
      let l ← rd st.stacklevels (st.stackoffset - i - 1)
      minHeightLoop st m (i + 1) (if l < r then l else r)
    else panic

/-- `treehash_minheight_on_stack`, src/rust_wrapper/xmss_alt/algsxmss_fast.rs:93-105. -/
def treehashMinheightOnStack (st : BdsState) (p : XmssParams) (t : TreeInst) : Res Nat :=
  minHeightLoop st t.stackusage 0 p.h

/-- `state.treehash[i].node = c`, src/rust_wrapper/xmss_alt/algsxmss_fast.rs:165-174 and 194-205. -/
def setThNode (st : BdsState) (i : Nat) (c : Cell) : Res BdsState := do
  let t ← rd st.treehash i
  let ths ← wr st.treehash i { t with node := c }
  ok { st with treehash := ths }

/-- The loop over instances, src/rust_wrapper/xmss_alt/algsxmss_fast.rs:146-150: `m` more from `i`. -/
def setupInit : Nat → Nat → List TreeInst → Res (List TreeInst)
  | 0, _, ths => ok ths
  | m + 1, i, ths => do
    let t ← rd ths i
    let ths ← wr ths i { t with h := i, completed := true, stackusage := 0 }
    setupInit m (i + 1) ths

/-- The node-saving part of the merge loop, src/rust_wrapper/xmss_alt/algsxmss_fast.rs:179-219. Where the C code writes
out of range, the Rust code would replace the whole buffer by one node (lines 190, 216); where the `u32` index
computation of 207-209 underflows it would panic. Neither happens: for even heights up to 30 all accesses are in range, and
from height 32 on (builds without overflow checks) only `1 << (h % 32)` leaves are added, so `nodeh` stays below `h - 2`.
Both are a panic here. -/
def setupSave (p : XmssParams) (i nodeh : Nat) (c : Cell) (st : BdsState) : Res BdsState :=
  if i >>> nodeh = 1 then do
    let auth ← wr st.auth nodeh c
    ok { st with auth := auth }
  else if nodeh < p.h - 2 ∧ i >>> nodeh = 3 then
    setThNode st nodeh c
  else if nodeh ≥ p.h - 2 then
    if nodeh < p.h ∧ p.h ≤ 2 ^ (p.h - 1 - nodeh) + nodeh ∧ 3 ≤ i >>> nodeh then do
      let r ← wr st.retain (2 ^ (p.h - 1 - nodeh) + nodeh - p.h + ((i >>> nodeh) - 3) >>> 1) c
      ok { st with retain := r }
    else panic
  else ok st

/-- The merge loop of `treehash_setup`, src/rust_wrapper/xmss_alt/algsxmss_fast.rs:176-233. -/
def setupMerge (S : Sha256) (hf : HashFn) (p : XmssParams) (pubSeed : Bytes) (idx i : Nat) :
    Nat → List Cell → List (Option Nat) → BdsState → Adrs → Res (THStack × BdsState × Adrs)
  | so + 2, nodes, levels, st, nodeAddr => do
    let a ← rdLevel levels (so + 1)
    let b ← rdLevel levels so
    if a = b then
      let top ← rd nodes (so + 1)
      let st ← setupSave p i a top st
      let nodeAddr := setTreeHeight nodeAddr a
      let nodeAddr := setTreeIndex nodeAddr (idx >>> (a + 1))
      let l ← rdNode nodes so
      let r ← rdNode nodes (so + 1)
      let (x, nodeAddr) ← hashH S hf (l ++ r) pubSeed nodeAddr
      let nodes ← wr nodes so (some x)
      let levels ← wr levels so (some (b + 1))
      setupMerge S hf p pubSeed idx i (so + 1) nodes levels st nodeAddr
    else ok ({ nodes := nodes, levels := levels, offset := so + 2 }, st, nodeAddr)
  | so, nodes, levels, st, nodeAddr =>
    ok ({ nodes := nodes, levels := levels, offset := so }, st, nodeAddr)

/-- The main loop of `treehash_setup`, src/rust_wrapper/xmss_alt/algsxmss_fast.rs:152-235, `m` leaves left. -/
def setupLoop (S : Sha256) (hf : HashFn) (skSeed : Bytes) (p : XmssParams) (pubSeed : Bytes) :
    Nat → Nat → Nat → THStack → BdsState → Adrs → Adrs → Adrs → Res (THStack × BdsState)
  | 0, _, _, th, st, _, _, _ => ok (th, st)
  | m + 1, idx, i, th, st, otsAddr, ltreeAddr, nodeAddr => do
    let ltreeAddr := setLtree ltreeAddr idx
    let otsAddr := setOTS otsAddr idx
    let (leaf, ltreeAddr, otsAddr) ← genLeafWots S hf skSeed p pubSeed ltreeAddr otsAddr
    let nodes ← wr th.nodes th.offset (some leaf)
    let levels ← wr th.levels th.offset (some 0)
    let so := th.offset + 1
    let st ← if p.h - 2 > 0 ∧ i = 3 then do
        let c ← rd nodes so
        setThNode st 0 c
      else ok st
    let (th, st, nodeAddr) ← setupMerge S hf p pubSeed idx i so nodes levels st nodeAddr
    setupLoop S hf skSeed p pubSeed m (idx + 1) (i + 1) th st otsAddr ltreeAddr nodeAddr

/-- `treehash_setup` with `index = 0`, src/rust_wrapper/xmss_alt/algsxmss_fast.rs:112-240: the root and the state. -/
def treehashSetup (b : Build) (S : Sha256) (hf : HashFn) (height : Nat) (st : BdsState) (skSeed : Bytes)
    (p : XmssParams) (pubSeed : Bytes) (addr : Adrs) : Res (Bytes × BdsState) := do
  let otsAddr := derive addr 0
  let ltreeAddr := derive addr 1
  let nodeAddr := setType addr 2
  let lastnode ← shl1 b height
  let th : THStack := { nodes := List.replicate (height + 1) none
                        levels := List.replicate (height + 1) none, offset := 0 }
  let ths ← setupInit (p.h - 2) 0 st.treehash
  let st := { st with treehash := ths }
  let (th, st) ← setupLoop S hf skSeed p pubSeed lastnode 0 0 th st otsAddr ltreeAddr nodeAddr
  let root ← rdNode th.nodes 0
  ok (root, st)

/-- The loop `while treehash.stackusage > 0 && …` of `treehash_update`,
src/rust_wrapper/xmss_alt/algsxmss_fast.rs:280-295. -/
def updateMerge (S : Sha256) (hf : HashFn) (pubSeed : Bytes) (stack : List Cell)
    (stacklevels : List Nat) (nextIdx : Nat) :
    Nat → Nat → Bytes → Nat → Adrs → Res MergeRes
  | 0, so, node, nodeheight, _ =>
    ok { node := node, nodeheight := nodeheight, stackusage := 0, stackoffset := so }
  | su + 1, so, node, nodeheight, nodeAddr =>
    if so = 0 then panic
    else do
      let l ← rd stacklevels (so - 1)
      if l = nodeheight then
        let left ← rdNode stack (so - 1)
        let nodeAddr := setTreeHeight nodeAddr nodeheight
        let nodeAddr := setTreeIndex nodeAddr (nextIdx >>> (nodeheight + 1))
        let (x, nodeAddr) ← hashH S hf (left ++ node) pubSeed nodeAddr
        updateMerge S hf pubSeed stack stacklevels nextIdx su (so - 1) x (nodeheight + 1) nodeAddr
      else ok { node := node, nodeheight := nodeheight, stackusage := su + 1, stackoffset := so }

/-- `treehash_update`, src/rust_wrapper/xmss_alt/algsxmss_fast.rs:242-315. -/
def treehashUpdate (S : Sha256) (hf : HashFn) (level : Nat) (st : BdsState) (skSeed : Bytes)
    (p : XmssParams) (pubSeed : Bytes) (addr : Adrs) : Res BdsState := do
  let t ← rd st.treehash level
  let otsAddr := derive addr 0
  let ltreeAddr := derive addr 1
  let nodeAddr := derive addr 2
  let ltreeAddr := setLtree ltreeAddr t.nextIdx
  let otsAddr := setOTS otsAddr t.nextIdx
  let (leaf, _, _) ← genLeafWots S hf skSeed p pubSeed ltreeAddr otsAddr
  let m ← updateMerge S hf pubSeed st.stack st.stacklevels t.nextIdx t.stackusage st.stackoffset leaf 0
    nodeAddr
  if m.nodeheight = t.h then
    let ths ← wr st.treehash level
      { t with node := some m.node, completed := true, stackusage := m.stackusage }
    ok { st with treehash := ths, stackoffset := m.stackoffset }
  else
    let stack ← wr st.stack m.stackoffset (some m.node)
    let levels ← wr st.stacklevels m.stackoffset m.nodeheight
    let ths ← wr st.treehash level { t with stackusage := m.stackusage + 1, nextIdx := t.nextIdx + 1 }
    ok { st with stack := stack, stacklevels := levels, stackoffset := m.stackoffset + 1, treehash := ths }

/-- The loop choosing an instance, src/rust_wrapper/xmss_alt/algsxmss_fast.rs:403-417: `m` more from `i`. -/
def pickLevel (st : BdsState) (p : XmssParams) : Nat → Nat → Nat → Nat → Res Nat
  | 0, _, level, _ => ok level
  | m + 1, i, level, lMin => do
    let t ← rd st.treehash i
    let low ←
      if t.completed then ok p.h
      else if t.stackusage = 0 then ok i
      else treehashMinheightOnStack st p t
    if low < lMin then pickLevel st p m (i + 1) i low
    else pickLevel st p m (i + 1) level lMin

/-- `bds_treehash_update`, src/rust_wrapper/xmss_alt/algsxmss_fast.rs:386-434 (its result is ignored by the callers). -/
def bdsTreehashUpdate (S : Sha256) (hf : HashFn) (skSeed : Bytes) (p : XmssParams) (pubSeed : Bytes)
    (addr : Adrs) : Nat → BdsState → Res BdsState
  | 0, st => ok st
  | updates + 1, st => do
    let level ← pickLevel st p (p.h - 2) 0 (p.h - 2) p.h
    if level = p.h - 2 then ok st
    else
      let st ← treehashUpdate S hf level st skSeed p pubSeed addr
      bdsTreehashUpdate S hf skSeed p pubSeed addr updates st

/-- The search for `tau`, src/rust_wrapper/xmss_alt/algsxmss_fast.rs:580 and 595-600: `m` more bits from `i`. -/
def findTau (leafIdx h : Nat) : Nat → Nat → Nat
  | 0, _ => h
  | m + 1, i => if (leafIdx >>> i) &&& 1 = 0 then i else findTau leafIdx h m (i + 1)

/-- The loop refreshing `auth[i]`, src/rust_wrapper/xmss_alt/algsxmss_fast.rs:644-663: `m` more from `i`. Underflows of
the `u32`/`u64` computations in 653-654 are a panic here; they do not happen. -/
def roundAuth (p : XmssParams) (leafIdx : Nat) : Nat → Nat → BdsState → Res BdsState
  | 0, _, st => ok st
  | m + 1, i, st => do
    let c ←
      if i < p.h - 2 then do
        let t ← rd st.treehash i
        ok t.node
      else if i < p.h ∧ p.h ≤ 2 ^ (p.h - 1 - i) + i ∧ 1 ≤ leafIdx >>> i then
        let offset := 2 ^ (p.h - 1 - i) + i - p.h
        let rowidx := ((leafIdx >>> i) - 1) >>> 1
        rd st.retain (offset + rowidx)
      else panic
    let auth ← wr st.auth i c
    roundAuth p leafIdx m (i + 1) { st with auth := auth }

/-- The loop restarting instances, src/rust_wrapper/xmss_alt/algsxmss_fast.rs:665-673: `m` more from `i`. `startidx` is a
`u64`, and so is `1 << h` here: the shift amount is taken modulo 64 (a checked build never gets here with `h` above
31). -/
def roundRestart (p : XmssParams) (leafIdx : Nat) : Nat → Nat → BdsState → Res BdsState
  | 0, _, st => ok st
  | m + 1, i, st => do
    let startidx := leafIdx + 1 + 3 * 2 ^ i
    if startidx < 2 ^ (p.h % 64) then
      let t ← rd st.treehash i
      let ths ← wr st.treehash i
        { t with h := i, nextIdx := startidx, completed := false, stackusage := 0 }
      roundRestart p leafIdx m (i + 1) { st with treehash := ths }
    else roundRestart p leafIdx m (i + 1) st

/-- The 64 bytes of `buf`, src/rust_wrapper/xmss_alt/algsxmss_fast.rs:601-612, as two slots. -/
def nodeBytes (c : Cell) : Bytes := c.getD (List.replicate 32 0)

/-- `bds_round`, src/rust_wrapper/xmss_alt/algsxmss_fast.rs:567-675. -/
def bdsRound (S : Sha256) (hf : HashFn) (st : BdsState) (leafIdx : Nat) (skSeed : Bytes)
    (p : XmssParams) (pubSeed : Bytes) (addr : Adrs) : Res BdsState := do
  let otsAddr := derive addr 0
  let ltreeAddr := derive addr 1
  let nodeAddr := derive addr 2
  let tau := findTau leafIdx p.h p.h 0
  let buf ← if tau > 0 then do
      let a ← rd st.auth (tau - 1)
      let b ← rd st.keep ((tau - 1) >>> 1)
      ok (a, b)
    else ok (none, none)
  let st ← if (leafIdx >>> (tau + 1)) &&& 1 = 0 ∧ tau < p.h - 1 then do
      let a ← rd st.auth tau
      let keep ← wr st.keep (tau >>> 1) a
      ok { st with keep := keep }
    else ok st
  if tau = 0 then
    let ltreeAddr := setLtree ltreeAddr leafIdx
    let otsAddr := setOTS otsAddr leafIdx
    let (leaf, _, _) ← genLeafWots S hf skSeed p pubSeed ltreeAddr otsAddr
    let auth ← wr st.auth 0 (some leaf)
    ok { st with auth := auth }
  else
    let nodeAddr := setTreeHeight nodeAddr (tau - 1)
    let nodeAddr := setTreeIndex nodeAddr (leafIdx >>> tau)
    let (x, _) ← hashH S hf (nodeBytes buf.1 ++ nodeBytes buf.2) pubSeed nodeAddr
    let auth ← wr st.auth tau (some x)
    let st := { st with auth := auth }
    let st ← roundAuth p leafIdx tau 0 st
    roundRestart p leafIdx (if tau < p.h - 2 then tau else p.h - 2) 0 st

/-- `xmss_fast_gen_keypair`, src/rust_wrapper/xmss_alt/algsxmss_fast.rs:682-739: the 132 bytes of `sk` and the state.
`treehash_setup` is given the slices `sk[4..]` and `sk[68..]`; the root part of `sk` holds what it held before
(`skRoot`, zeros on a new object). -/
def xmssFastGenKeypair (b : Build) (S : Sha256) (hf : HashFn) (p : XmssParams) (skRoot : Bytes) (st : BdsState)
    (seed : Bytes) : Res (Bytes × BdsState) :=
  if p.h &&& 1 ≠ 0 then err .invalidArgument
  else do
    let randombits ← fipsShake256 96 seed 48
    let skSeed := randombits ++ skRoot
    let pubSeed := (randombits ++ skRoot).drop 64
    let (root, st) ← treehashSetup b S hf p.h st skSeed p pubSeed {}
    ok (idxBytes 0 ++ randombits ++ root, st)

/-- The loop of `xmss_fast_update`, src/rust_wrapper/xmss_alt/algsxmss_fast.rs:774-791, `m` rounds from `j` (the test
`j >= num_elems` never fires). -/
def advanceLoop (S : Sha256) (hf : HashFn) (skSeed : Bytes) (p : XmssParams) (pubSeed : Bytes) :
    Nat → Nat → BdsState → Res BdsState
  | 0, _, st => ok st
  | m + 1, j, st => do
    let st ← bdsRound S hf st j skSeed p pubSeed {}
    let st ← bdsTreehashUpdate S hf skSeed p pubSeed {} ((p.h - 2) >>> 1) st
    advanceLoop S hf skSeed p pubSeed m (j + 1) st

/-- `xmss_fast_update`, src/rust_wrapper/xmss_alt/algsxmss_fast.rs:741-800: the new secret key and state; both errors are
returned before anything is changed. -/
def xmssFastUpdate (b : Build) (S : Sha256) (hf : HashFn) (p : XmssParams) (sk : Bytes) (st : BdsState) (newIdx : Nat) :
    Res (Bytes × BdsState) := do
  let numElems ← shl1 b p.h
  let currentIdx ← be32At sk
  if newIdx ≥ numElems then err .invalidArgument
  else if newIdx < currentIdx then err .invalidArgument
  else
    let skSeed ← slice sk 4 32
    let pubSeed ← slice sk 68 32
    let st ← advanceLoop S hf skSeed p pubSeed (newIdx - currentIdx) currentIdx st
    ok (idxBytes newIdx ++ sk.drop 4, st)

/-- `state.auth.get(0..h * n)`, src/rust_wrapper/xmss_alt/algsxmss_fast.rs:928-932: `m` nodes from level `i`. -/
def authOut (auth : List Cell) : Nat → Nat → Res (List Bytes)
  | 0, _ => ok []
  | m + 1, i => do
    let x ← rdNode auth i
    let xs ← authOut auth m (i + 1)
    ok (x :: xs)

/-- The part of `xmss_fast_sign_msg` after message hashing, src/rust_wrapper/xmss_alt/algsxmss_fast.rs:878-958: the bytes
written to the signature and the new state. -/
def fastSignDigest (b : Build) (S : Sha256) (hf : HashFn) (p : XmssParams) (st : BdsState)
    (skSeed pubSeed r msgH : Bytes) (idx : Nat) : Res (Bytes × BdsState) := do
  let otsAddr := setOTS (setType {} 0) idx
  let (otsSeed, otsAddr) ← getSeed S hf skSeed otsAddr
  let (wsig, otsAddr) ← wotsSign b S hf p.wots msgH otsSeed pubSeed otsAddr
  let path ← authOut st.auth p.h 0
  let num ← shl1 b p.h
  let st ← if idx < num - 1 then do
      let st ← bdsRound S hf st idx skSeed p pubSeed otsAddr
      bdsTreehashUpdate S hf skSeed p pubSeed otsAddr ((p.h - 2) >>> 1) st
    else ok st
  ok (idxBytes idx ++ r ++ wsig.flatten ++ path.flatten, st)

/-- `xmss_fast_sign_msg`, src/rust_wrapper/xmss_alt/algsxmss_fast.rs:802-959. -/
def xmssFastSignMsg (b : Build) (S : Sha256) (hf : HashFn) (p : XmssParams) (sk : Bytes) (st : BdsState)
    (msg : Bytes) : Res (Bytes × (Bytes × BdsState)) := do
  let idx ← be32At sk
  let skSeed ← slice sk 4 32
  let skPrf ← slice sk 36 32
  let pubSeed ← slice sk 68 32
  let next ← u32 b (idx + 1)
  let sk' := idxBytes next ++ sk.drop 4
  let r ← prf S hf (toByte idx 32) skPrf
  let root ← slice sk' 100 32
  let hashKey := r ++ root ++ toByte idx 32
  let msgH ← hMsg S hf msg hashKey
  let (sig, st) ← fastSignDigest b S hf p st skSeed pubSeed r msgH idx
  ok (sig, (sk', st))

end Qrl.Rs
