import Verif.Model.XmssCommon
/-!
# src/xmss-alt/algsxmss.c (the simple signer)
-/

namespace Qrl

open Outcome

/-- `get_seed`, src/xmss-alt/algsxmss.c:19-31 (identical copy: algsxmss_fast.c:26-42). -/
def getSeed (S : Sha256) (hf : HashFn) (skSeed : Bytes) (addr : Adrs) : Bytes × Adrs :=
  let addr := addr.setChain 0
  let addr := addr.setHash 0
  let addr := addr.setKeyAndMask 0
  (prf S hf addr.toBytes skSeed, addr)

/-- `gen_leaf_wots`, src/xmss-alt/algsxmss.c:37-51 (identical copy: algsxmss_fast.c:71-86). Returns the
leaf and the mutated `ltree_addr` and `ots_addr`. -/
def genLeafWots (S : Sha256) (hf : HashFn) (skSeed : Bytes) (p : XmssParams) (pubSeed : Bytes)
    (ltreeAddr otsAddr : Adrs) : Outcome (Bytes × Adrs × Adrs) := do
  let (seed, otsAddr) := getSeed S hf skSeed otsAddr
  let (pk, otsAddr) := wotsPkgen S hf p.wots seed pubSeed otsAddr
  let (leaf, ltreeAddr) ← lTree S hf p.wots pk pubSeed ltreeAddr
  ok (leaf, ltreeAddr, otsAddr)

/-- The local variables of `treehash`, src/xmss-alt/algsxmss.c:85-87. The arrays start uninitialised. -/
structure THStack where
  nodes : List Cell
  levels : List (Option Nat)
  offset : Nat
  deriving DecidableEq, Repr

/-- The loop `while (stackoffset > 1 && stacklevels[stackoffset-1] == stacklevels[stackoffset-2])`,
src/xmss-alt/algsxmss.c:97-104. Levels stay below the height, so the shift is by less than 32. -/
def treehashMerge (S : Sha256) (hf : HashFn) (pubSeed : Bytes) (idx : Nat) :
    Nat → List Cell → List (Option Nat) → Adrs → Outcome (THStack × Adrs)
  | so + 2, nodes, levels, nodeAddr => do
    let a ← rdUse levels (so + 1)
    let b ← rdUse levels so
    if a = b then
      let nodeAddr := nodeAddr.setTreeHeight a
      let nodeAddr := nodeAddr.setTreeIndex (idx >>> (a + 1))
      let l ← rdUse nodes so
      let r ← rdUse nodes (so + 1)
      let (x, nodeAddr) := hashH S hf (l ++ r) pubSeed nodeAddr
      let nodes ← wr nodes so (some x)
      let levels ← wr levels so (some (b + 1))
      treehashMerge S hf pubSeed idx (so + 1) nodes levels nodeAddr
    else ok ({ nodes := nodes, levels := levels, offset := so + 2 }, nodeAddr)
  | so, nodes, levels, nodeAddr => ok ({ nodes := nodes, levels := levels, offset := so }, nodeAddr)

/-- The loop `for (; idx < lastnode; idx++)` of `treehash`, src/xmss-alt/algsxmss.c:91-105, with `m`
iterations left. -/
def treehashLoop (S : Sha256) (hf : HashFn) (skSeed : Bytes) (p : XmssParams) (pubSeed : Bytes) :
    Nat → Nat → THStack → Adrs → Adrs → Adrs → Outcome THStack
  | 0, _, st, _, _, _ => ok st
  | m + 1, idx, st, otsAddr, ltreeAddr, nodeAddr => do
    let ltreeAddr := ltreeAddr.setLtree idx
    let otsAddr := otsAddr.setOTS idx
    let (leaf, ltreeAddr, otsAddr) ← genLeafWots S hf skSeed p pubSeed ltreeAddr otsAddr
    let nodes ← wr st.nodes st.offset (some leaf)
    let levels ← wr st.levels st.offset (some 0)
    let (st, nodeAddr) ← treehashMerge S hf pubSeed idx (st.offset + 1) nodes levels nodeAddr
    treehashLoop S hf skSeed p pubSeed m (idx + 1) st otsAddr ltreeAddr nodeAddr

/-- `treehash`, src/xmss-alt/algsxmss.c:59-108. `1 << height` is undefined for `height ≥ 32`. -/
def treehash (S : Sha256) (hf : HashFn) (height index : Nat) (skSeed : Bytes) (p : XmssParams)
    (pubSeed : Bytes) (addr : Adrs) : Outcome Bytes := do
  let otsAddr := addr.derive 0
  let ltreeAddr := addr.derive 1
  let nodeAddr := addr.derive 2
  if height ≥ 32 then ub
  else
    let st : THStack := { nodes := List.replicate (height + 1) none
                          levels := List.replicate (height + 1) none, offset := 0 }
    let st ← treehashLoop S hf skSeed p pubSeed (2 ^ height) index st otsAddr ltreeAddr nodeAddr
    rdUse st.nodes 0

/-- "Compute all leaves", src/xmss-alt/algsxmss.c:141-145, `m` leaves from leaf `i`. -/
def authLeaves (S : Sha256) (hf : HashFn) (skSeed : Bytes) (p : XmssParams) (pubSeed : Bytes) :
    Nat → Nat → List Cell → Adrs → Adrs → Outcome (List Cell)
  | 0, _, tree, _, _ => ok tree
  | m + 1, i, tree, ltreeAddr, otsAddr => do
    let ltreeAddr := ltreeAddr.setLtree i
    let otsAddr := otsAddr.setOTS i
    let (leaf, ltreeAddr, otsAddr) ← genLeafWots S hf skSeed p pubSeed ltreeAddr otsAddr
    let tree ← wr tree (2 ^ p.h + i) (some leaf)
    authLeaves S hf skSeed p pubSeed m (i + 1) tree ltreeAddr otsAddr

/-- Inner loop over sibling pairs, src/xmss-alt/algsxmss.c:154-157: `m` pairs from `j`. -/
def authRow (S : Sha256) (hf : HashFn) (pubSeed : Bytes) (i : Nat) :
    Nat → Nat → List Cell → Adrs → Outcome (List Cell × Adrs)
  | 0, _, tree, nodeAddr => ok (tree, nodeAddr)
  | m + 1, j, tree, nodeAddr => do
    let nodeAddr := nodeAddr.setTreeIndex (j >>> 1)
    let l ← rdUse tree (i + j)
    let r ← rdUse tree (i + j + 1)
    let (x, nodeAddr) := hashH S hf (l ++ r) pubSeed nodeAddr
    let tree ← wr tree ((i >>> 1) + (j >>> 1)) (some x)
    authRow S hf pubSeed i m (j + 2) tree nodeAddr

/-- Outer loop `for (i = 1 << h; i > 1; i >>= 1)`, src/xmss-alt/algsxmss.c:151-159. -/
def authLevels (S : Sha256) (hf : HashFn) (pubSeed : Bytes) (i level : Nat) (tree : List Cell)
    (nodeAddr : Adrs) : Outcome (List Cell) :=
  if _h : i > 1 then do
    let nodeAddr := nodeAddr.setTreeHeight level
    let (tree, nodeAddr) ← authRow S hf pubSeed i ((i + 1) / 2) 0 tree nodeAddr
    authLevels S hf pubSeed (i >>> 1) (level + 1) tree nodeAddr
  else ok tree
termination_by i
decreasing_by
  have : i >>> 1 = i / 2 := Nat.shiftRight_eq_div_pow i 1
  omega

/-- "copy authpath", src/xmss-alt/algsxmss.c:162-163: `m` more nodes from level `i`. The slots are read
for use, because the result is emitted in the signature. -/
def authCopy (tree : List Cell) (h leafIdx : Nat) : Nat → Nat → Outcome (List Bytes)
  | 0, _ => ok []
  | m + 1, i => do
    let x ← rdUse tree ((2 ^ h >>> i) + ((leafIdx >>> i) ^^^ 1))
    let xs ← authCopy tree h leafIdx m (i + 1)
    ok (x :: xs)

/-- `compute_authpath_wots`, src/xmss-alt/algsxmss.c:115-167: returns the root and the path. The array
`tree` has `2 * (1 << h) * n` bytes: `int` overflow for `h ≥ 30`, otherwise reduced modulo 2^32. -/
def computeAuthpathWots (S : Sha256) (hf : HashFn) (leafIdx : Nat) (skSeed : Bytes) (p : XmssParams)
    (pubSeed : Bytes) (addr : Adrs) : Outcome (Bytes × List Bytes) := do
  if p.h ≥ 30 then ub
  else
    let tree : List Cell := List.replicate ((2 * 2 ^ p.h * 32) % 2 ^ 32 / 32) none
    let otsAddr := addr.derive 0
    let ltreeAddr := addr.derive 1
    let nodeAddr := addr.derive 2
    let tree ← authLeaves S hf skSeed p pubSeed (2 ^ p.h) 0 tree ltreeAddr otsAddr
    let tree ← authLevels S hf pubSeed (2 ^ p.h) 0 tree nodeAddr
    let path ← authCopy tree p.h leafIdx p.h 0
    let root ← rdUse tree 1
    ok (root, path)

/-- The four index bytes `(idx >> 24) & 255, …, idx & 255`, e.g. src/xmss-alt/algsxmss.c:245-248. -/
def idxBytes (idx : Nat) : Bytes :=
  [UInt8.ofNat (idx >>> 24), UInt8.ofNat (idx >>> 16), UInt8.ofNat (idx >>> 8), UInt8.ofNat idx]

/-- `xmss_Genkeypair`, src/xmss-alt/algsxmss.c:170-197: returns the new secret key
(`sk` is a 132-byte buffer, `seed` has 48 bytes). -/
def xmssGenkeypair (S : Sha256) (hf : HashFn) (p : XmssParams) (seed : Bytes) : Outcome Bytes := do
  let seed48 ← slice seed 0 48
  let randombits := shake256 96 seed48
  let skSeed := randombits.take 32
  let pubSeed := randombits.drop 64
  let root ← treehash S hf p.h 0 skSeed p pubSeed {}
  ok (idxBytes 0 ++ randombits ++ root)

/-- `xmss_Signmsg`, src/xmss-alt/algsxmss.c:218-318: returns the updated secret key and the bytes written
at `sig_msg`. -/
def xmssSignmsg (S : Sha256) (hf : HashFn) (p : XmssParams) (sk msg : Bytes) :
    Outcome (Bytes × Bytes) := do
  let idx ← be32At sk
  let skSeed ← slice sk 4 32
  let skPrf ← slice sk 36 32
  let pubSeed ← slice sk 68 32
  let sk' := idxBytes (idx + 1) ++ sk.drop 4
  let r := prf S hf (toByte idx 32) skPrf
  let root ← slice sk' 100 32
  let hashKey := r ++ root ++ toByte idx 32
  let msgH := hMsg S hf msg hashKey
  let otsAddr := (({} : Adrs).setType 0).setOTS idx
  let (otsSeed, otsAddr) := getSeed S hf skSeed otsAddr
  let (wsig, otsAddr) ← wotsSign S hf p.wots msgH otsSeed pubSeed otsAddr
  let (_, path) ← computeAuthpathWots S hf idx skSeed p pubSeed otsAddr
  ok (sk', idxBytes idx ++ r ++ wsig.flatten ++ path.flatten)

end Qrl
