import Verif.Model.RustN
import Verif.Model.RustSlices
/-!
# The Rust crate's `xmss_gen_keypair` for every `n`

src/rust_wrapper/xmss_alt/wots.rs and algsxmss.rs. As in `Model/RustN` an output that is not written keeps its bytes.
-/

namespace Qrl.Rs

open Res

/-- The loop of `expand_seed`, src/rust_wrapper/xmss_alt/wots.rs:64-73, from counter `i` over the slots of `outseeds`. The counter has 32 bytes. -/
def expandSeedN (S : Sha256) (hf : HashFn) (n : Nat) (inseed : Bytes) : Nat → List Bytes → Res (List Bytes)
  | _, [] => ok []
  | i, o :: os => do
    let (_, x) ← prfN S hf n (toByte i 32) inseed o
    let xs ← expandSeedN S hf n inseed (i + 1) os
    ok (x :: xs)

/-- The loop of `wots_pkgen`, src/rust_wrapper/xmss_alt/wots.rs:146-161, from chain `i`. -/
def pkgenLoopN (S : Sha256) (hf : HashFn) (n : Nat) (p : WotsParams) (pubSeed : Bytes) :
    Nat → List Bytes → Adrs → Res (List Bytes × Adrs)
  | _, [], addr => ok ([], addr)
  | i, x :: xs, addr => do
    let addr := setChain addr i
    let (y, addr) ← genChainN S hf n p.w pubSeed x 0 (p.w - 1) addr
    let (ys, addr) ← pkgenLoopN S hf n p pubSeed (i + 1) xs addr
    ok (y :: ys, addr)

/-- `wots_pkgen` into a buffer of `len` slots, src/rust_wrapper/xmss_alt/wots.rs:134-162. -/
def wotsPkgenN (S : Sha256) (hf : HashFn) (n : Nat) (p : WotsParams) (buf : List Bytes) (sk pubSeed : Bytes) (addr : Adrs) :
    Res (List Bytes × Adrs) := do
  let xs ← expandSeedN S hf n sk 0 buf
  pkgenLoopN S hf n p pubSeed 0 xs addr

/-- `get_seed` into a zero buffer, src/rust_wrapper/xmss_alt/algsxmss.rs:17-32. -/
def getSeedN (S : Sha256) (hf : HashFn) (n : Nat) (skSeed : Bytes) (addr : Adrs) : Res (Bytes × Adrs) := do
  let addr := setChain addr 0
  let addr := setHash addr 0
  let addr := setKeyAndMask addr 0
  let (_, x) ← prfN S hf n (adrsBytes addr) skSeed (List.replicate n 0)
  ok (x, addr)

/-- `gen_leaf_wots`, src/rust_wrapper/xmss_alt/algsxmss.rs:38-68. -/
def genLeafWotsN (S : Sha256) (hf : HashFn) (n : Nat) (skSeed : Bytes) (p : XmssParams) (pubSeed : Bytes)
    (ltreeAddr otsAddr : Adrs) : Res (Bytes × Adrs × Adrs) := do
  let (seed, otsAddr) ← getSeedN S hf n skSeed otsAddr
  let (pk, otsAddr) ← wotsPkgenN S hf n p.wots (List.replicate p.wots.len (List.replicate n 0)) seed pubSeed otsAddr
  let (leaf, ltreeAddr) ← lTreeN S hf n p.wots pk pubSeed ltreeAddr
  ok (leaf, ltreeAddr, otsAddr)

/-- A slot of `stack`, src/rust_wrapper/xmss_alt/algsxmss.rs:101: `none` still holds zeros. -/
def rdNodeN (n : Nat) (l : List Cell) (i : Nat) : Res Bytes :=
  match l[i]? with
  | some (some x) => ok x
  | some none => ok (List.replicate n 0)
  | none => panic

/-- The loop `while stackoffset > 1 && …` of `treehash`, src/rust_wrapper/xmss_alt/algsxmss.rs:125-145. -/
def treehashMergeN (S : Sha256) (hf : HashFn) (n : Nat) (pubSeed : Bytes) (idx : Nat) :
    Nat → List Cell → List (Option Nat) → Adrs → Res (THStack × Adrs)
  | so + 2, nodes, levels, nodeAddr => do
    let a ← rdLevel levels (so + 1)
    let b ← rdLevel levels so
    if a = b then
      let nodeAddr := setTreeHeight nodeAddr a
      let nodeAddr := setTreeIndex nodeAddr (idx >>> (a + 1))
      let l ← rdNodeN n nodes so
      let r ← rdNodeN n nodes (so + 1)
      let (_, x, nodeAddr) ← hashHN S hf n (l ++ r) pubSeed nodeAddr l
      let nodes ← wr nodes so (some x)
      let levels ← wr levels so (some (b + 1))
      treehashMergeN S hf n pubSeed idx (so + 1) nodes levels nodeAddr
    else ok ({ nodes := nodes, levels := levels, offset := so + 2 }, nodeAddr)
  | so, nodes, levels, nodeAddr => ok ({ nodes := nodes, levels := levels, offset := so }, nodeAddr)

/-- The loop `for idx in index..lastnode` of `treehash`, src/rust_wrapper/xmss_alt/algsxmss.rs:107-146, `m` leaves left. -/
def treehashLoopN (S : Sha256) (hf : HashFn) (n : Nat) (skSeed : Bytes) (p : XmssParams) (pubSeed : Bytes) :
    Nat → Nat → THStack → Adrs → Adrs → Adrs → Res THStack
  | 0, _, st, _, _, _ => ok st
  | m + 1, idx, st, otsAddr, ltreeAddr, nodeAddr => do
    let ltreeAddr := setLtree ltreeAddr idx
    let otsAddr := setOTS otsAddr idx
    let (leaf, ltreeAddr, otsAddr) ← genLeafWotsN S hf n skSeed p pubSeed ltreeAddr otsAddr
    let nodes ← wr st.nodes st.offset (some leaf)
    let levels ← wr st.levels st.offset (some 0)
    let (st, nodeAddr) ← treehashMergeN S hf n pubSeed idx (st.offset + 1) nodes levels nodeAddr
    treehashLoopN S hf n skSeed p pubSeed m (idx + 1) st otsAddr ltreeAddr nodeAddr

/-- `treehash` with `index = 0`, src/rust_wrapper/xmss_alt/algsxmss.rs:76-150. -/
def treehashN (b : Build) (S : Sha256) (hf : HashFn) (n height : Nat) (skSeed : Bytes) (p : XmssParams)
    (pubSeed : Bytes) (addr : Adrs) : Res Bytes := do
  let otsAddr := derive addr 0
  let ltreeAddr := derive addr 1
  let nodeAddr := derive addr 2
  let lastnode ← shl1 b height
  let st : THStack := { nodes := List.replicate (height + 1) none
                        levels := List.replicate (height + 1) none, offset := 0 }
  let st ← treehashLoopN S hf n skSeed p pubSeed lastnode 0 st otsAddr ltreeAddr nodeAddr
  rdNodeN n st.nodes 0

/-- `xmss_gen_keypair` for the field `n` of the parameters (also of its WOTS+ parameters), src/rust_wrapper/xmss_alt/algsxmss.rs:231-282. -/
def xmssGenKeypairN (b : Build) (S : Sha256) (hf : HashFn) (n : Nat) (p : XmssParams) (pk sk seed : Bytes) : Res (Nat × Bytes × Bytes) := do
  let sk ← putInto sk 0 [0, 0, 0, 0]
  let randombits ← fipsShake256 (3 * n) seed 48
  let sk ← putInto sk 4 randombits
  let x ← slice sk (4 + 2 * n) n
  let pk ← putInto pk n x
  let root ← treehashN b S hf n p.h (sk.drop 4) p (sk.drop (4 + 2 * n)) {}
  let pk ← putInto pk 0 root
  let root ← slice pk 0 n
  let sk ← putInto sk (4 + 3 * n) root
  ok (0, pk, sk)

end Qrl.Rs
