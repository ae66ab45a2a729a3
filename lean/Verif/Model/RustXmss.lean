import Verif.Model.RustWots
import Verif.Model.XmssCore
/-!
# src/rust_wrapper/xmss_alt/xmss_common.rs and algsxmss.rs

`n = 32` and `k = 2` everywhere. `Vec<u8>` buffers of nodes are lists of 32-byte slots; a slot `none` still holds the
zeros of `vec![0; …]`. The structures `XmssParams` and `THStack` are shared with the C++ model.
-/

namespace Qrl.Rs

open Res

/-- `XMSSParams::new(32, h, w, 2)`, src/rust_wrapper/xmss_alt/xmss_common.rs:23-32. -/
def xmssParams (h w : Nat) : Res XmssParams :=
  if 2 ≥ h ∨ (h - 2) % 2 ≠ 0 then err .invalidArgument
  else ok { wots := wotsParams w, h := h }

/-- The inner loop of `l_tree`, src/rust_wrapper/xmss_alt/xmss_common.rs:58-65: `k` more pairs from pair `i`. -/
def lTreeRow (S : Sha256) (hf : HashFn) (pubSeed : Bytes) :
    Nat → Nat → List Bytes → Adrs → Res (List Bytes × Adrs)
  | 0, _, buf, addr => ok (buf, addr)
  | k + 1, i, buf, addr => do
    let addr := setTreeIndex addr i
    let l ← rd buf (2 * i)
    let r ← rd buf (2 * i + 1)
    let (x, addr) ← hashH S hf (l ++ r) pubSeed addr
    let buf ← wr buf i x
    lTreeRow S hf pubSeed k (i + 1) buf addr

/-- The `while l > 1` loop of `l_tree`, src/rust_wrapper/xmss_alt/xmss_common.rs:56-76, and the final copy, 77-79. -/
def lTreeLoop (S : Sha256) (hf : HashFn) (pubSeed : Bytes) (l height : Nat) (buf : List Bytes)
    (addr : Adrs) : Res (Bytes × Adrs) :=
  if _h : l > 1 then do
    let (buf, addr) ← lTreeRow S hf pubSeed (l >>> 1) 0 buf addr
    if l &&& 1 ≠ 0 then
      let x ← rd buf (l - 1)
      let buf ← wr buf (l >>> 1) x
      lTreeLoop S hf pubSeed ((l >>> 1) + 1) (height + 1) buf (setTreeHeight addr (height + 1))
    else
      lTreeLoop S hf pubSeed (l >>> 1) (height + 1) buf (setTreeHeight addr (height + 1))
  else do
    let x ← rd buf 0
    ok (x, addr)
termination_by l
decreasing_by
  · have : l >>> 1 = l / 2 := Nat.shiftRight_eq_div_pow l 1
    have h1 : l &&& 1 = l % 2 := Nat.and_one_is_mod l
    omega
  · have : l >>> 1 = l / 2 := Nat.shiftRight_eq_div_pow l 1
    omega

/-- `l_tree`, src/rust_wrapper/xmss_alt/xmss_common.rs:42-80. -/
def lTree (S : Sha256) (hf : HashFn) (p : WotsParams) (wotsPk : List Bytes) (pubSeed : Bytes)
    (addr : Adrs) : Res (Bytes × Adrs) :=
  lTreeLoop S hf pubSeed p.len 0 wotsPk (setTreeHeight addr 0)

/-- The loop `for i in 0..(h - 1)` of `validate_authpath`, src/rust_wrapper/xmss_alt/xmss_common.rs:117-143, with `m`
iterations left. `(bl, br)` are the halves of `buffer`; `sig`/`off` stand for the slice `authpath`. -/
def authPathLoop (S : Sha256) (hf : HashFn) (pubSeed sig : Bytes) :
    Nat → Nat → Nat → Nat → Bytes → Bytes → Adrs → Res (Nat × Bytes × Bytes × Adrs)
  | 0, _, leafidx, _, bl, br, addr => ok (leafidx, bl, br, addr)
  | m + 1, i, leafidx, off, bl, br, addr => do
    let addr := setTreeHeight addr i
    let leafidx := leafidx >>> 1
    let addr := setTreeIndex addr leafidx
    let (x, addr) ← hashH S hf (bl ++ br) pubSeed addr
    let a ← slice sig off 32
    if leafidx &&& 1 ≠ 0 then
      authPathLoop S hf pubSeed sig m (i + 1) leafidx (off + 32) a x addr
    else
      authPathLoop S hf pubSeed sig m (i + 1) leafidx (off + 32) x a addr

/-- `validate_authpath`, src/rust_wrapper/xmss_alt/xmss_common.rs:85-148 (`h ≥ 1`). -/
def validateAuthpath (S : Sha256) (hf : HashFn) (leaf : Bytes) (leafidx : Nat) (sig : Bytes) (off : Nat)
    (h : Nat) (pubSeed : Bytes) (addr : Adrs) : Res Bytes := do
  let a ← slice sig off 32
  let (bl, br) := if leafidx &&& 1 ≠ 0 then (a, leaf) else (leaf, a)
  let (leafidx, bl, br, addr) ← authPathLoop S hf pubSeed sig (h - 1) 0 leafidx (off + 32) bl br addr
  let addr := setTreeHeight addr (h - 1)
  let leafidx := leafidx >>> 1
  let addr := setTreeIndex addr leafidx
  let (root, _) ← hashH S hf (bl ++ br) pubSeed addr
  ok root

/-- The `k` values of 32 bytes from offset `off` read by `wots_pk_from_sig`,
src/rust_wrapper/xmss_alt/wots.rs:259-260. -/
def sliceChunks (sig : Bytes) : Nat → Nat → Res (List Bytes)
  | _, 0 => ok []
  | off, k + 1 => do
    let c ← slice sig off 32
    let cs ← sliceChunks sig (off + 32) k
    ok (c :: cs)

/-- `for i in 0..sig_msg_len { msg[i] = sig_msg[i] }`, src/rust_wrapper/xmss_alt/xmss_common.rs:271-273. -/
def copyBack (sig : Bytes) (off : Nat) : Nat → Nat → Bytes → Res Bytes
  | _, 0, msg => ok msg
  | i, k + 1, msg => do
    let b ← rd sig (off + i)
    let msg ← wr msg i b
    copyBack sig off (i + 1) k msg

/-- `for i in 0..sig_msg_len { msg[i] = 0 }`, src/rust_wrapper/xmss_alt/xmss_common.rs:264-266. -/
def zeroBack : Nat → Nat → Bytes → Res Bytes
  | _, 0, msg => ok msg
  | i, k + 1, msg => do
    let msg ← wr msg i 0
    zeroBack (i + 1) k msg

/-- The index in the first four bytes: src/rust_wrapper/xmss_alt/xmss_common.rs:185-188, algsxmss.rs:314-316,
algsxmss_fast.rs:750-752 and 814-816. -/
def be32At (l : Bytes) : Res Nat := do
  let b0 ← rd l 0
  let b1 ← rd l 1
  let b2 ← rd l 2
  let b3 ← rd l 3
  ok ((b0.toNat <<< 24) ||| (b1.toNat <<< 16) ||| (b2.toNat <<< 8) ||| b3.toNat)

/-- The part of `xmss_verify_sig` after message hashing, src/rust_wrapper/xmss_alt/xmss_common.rs:217-259: the root
recomputed from the signature and the message digest. -/
def verifyRoot (b : Build) (S : Sha256) (hf : HashFn) (p : WotsParams) (msgH sig pubSeed : Bytes) (idx h : Nat) : Res Bytes := do
  let otsAddr := setOTS (setType {} 0) idx
  let wsig ← sliceChunks sig 36 p.len
  let (wotsPk, _) ← wotsPkFromSig b S hf p wsig msgH pubSeed otsAddr
  let ltreeAddr := setLtree (setType {} 1) idx
  let (pkhash, _) ← lTree S hf p wotsPk pubSeed ltreeAddr
  validateAuthpath S hf pkhash idx sig (36 + p.keysize) h pubSeed (setType {} 2)

/-- `xmss_verify_sig`, src/rust_wrapper/xmss_alt/xmss_common.rs:153-276: the result code and the message buffer. `pk` is
root || pub_seed. `sig_msg_len` only shrinks by the amounts it was made of, so the subtractions cannot underflow. -/
def xmssVerifySig (b : Build) (S : Sha256) (hf : HashFn) (p : WotsParams) (msg sig pk : Bytes) (h : Nat) :
    Res (Int × Bytes) := do
  let sigMsgLen := 4 + 32 + p.len * 32 + h * 32
  let pubSeed ← slice pk 32 32
  let idx ← be32At sig
  let r ← slice sig 4 32
  let root0 ← slice pk 0 32
  let hashKey := r ++ root0 ++ toByte idx 32
  let msgH ← hMsg S hf msg hashKey
  let root ← verifyRoot b S hf p msgH sig pubSeed idx h
  let sigMsgLen := sigMsgLen - 36 - p.keysize - h * 32
  if root ≠ root0 then
    let msg ← zeroBack 0 sigMsgLen msg
    ok (-1, msg)
  else
    let msg ← copyBack sig (36 + p.keysize + h * 32) 0 sigMsgLen msg
    ok (0, msg)

/-- `get_seed`, src/rust_wrapper/xmss_alt/algsxmss.rs:17-32 (identical copy: algsxmss_fast.rs:39-56). -/
def getSeed (S : Sha256) (hf : HashFn) (skSeed : Bytes) (addr : Adrs) : Res (Bytes × Adrs) := do
  let addr := setChain addr 0
  let addr := setHash addr 0
  let addr := setKeyAndMask addr 0
  let x ← prf S hf (adrsBytes addr) skSeed
  ok (x, addr)

/-- `gen_leaf_wots`, src/rust_wrapper/xmss_alt/algsxmss.rs:38-68 (identical copy: algsxmss_fast.rs:61-91). -/
def genLeafWots (S : Sha256) (hf : HashFn) (skSeed : Bytes) (p : XmssParams) (pubSeed : Bytes)
    (ltreeAddr otsAddr : Adrs) : Res (Bytes × Adrs × Adrs) := do
  let (seed, otsAddr) ← getSeed S hf skSeed otsAddr
  let (pk, otsAddr) ← wotsPkgen S hf p.wots seed pubSeed otsAddr
  let (leaf, ltreeAddr) ← lTree S hf p.wots pk pubSeed ltreeAddr
  ok (leaf, ltreeAddr, otsAddr)

/-- A level in `stacklevels`; `none` is an entry that still has its initial value 0.
src/rust_wrapper/xmss_alt/algsxmss.rs:102. -/
def rdLevel (l : List (Option Nat)) (i : Nat) : Res Nat :=
  match l[i]? with
  | some (some x) => ok x
  | some none => ok 0
  | none => panic

/-- The loop `while stackoffset > 1 && …` of `treehash`, src/rust_wrapper/xmss_alt/algsxmss.rs:125-145. -/
def treehashMerge (S : Sha256) (hf : HashFn) (pubSeed : Bytes) (idx : Nat) :
    Nat → List Cell → List (Option Nat) → Adrs → Res (THStack × Adrs)
  | so + 2, nodes, levels, nodeAddr => do
    let a ← rdLevel levels (so + 1)
    let b ← rdLevel levels so
    if a = b then
      let nodeAddr := setTreeHeight nodeAddr a
      let nodeAddr := setTreeIndex nodeAddr (idx >>> (a + 1))
      let l ← rdNode nodes so
      let r ← rdNode nodes (so + 1)
      let (x, nodeAddr) ← hashH S hf (l ++ r) pubSeed nodeAddr
      let nodes ← wr nodes so (some x)
      let levels ← wr levels so (some (b + 1))
      treehashMerge S hf pubSeed idx (so + 1) nodes levels nodeAddr
    else ok ({ nodes := nodes, levels := levels, offset := so + 2 }, nodeAddr)
  | so, nodes, levels, nodeAddr => ok ({ nodes := nodes, levels := levels, offset := so }, nodeAddr)

/-- The loop `for idx in index..lastnode` of `treehash`, src/rust_wrapper/xmss_alt/algsxmss.rs:107-146, `m` leaves left. -/
def treehashLoop (S : Sha256) (hf : HashFn) (skSeed : Bytes) (p : XmssParams) (pubSeed : Bytes) :
    Nat → Nat → THStack → Adrs → Adrs → Adrs → Res THStack
  | 0, _, st, _, _, _ => ok st
  | m + 1, idx, st, otsAddr, ltreeAddr, nodeAddr => do
    let ltreeAddr := setLtree ltreeAddr idx
    let otsAddr := setOTS otsAddr idx
    let (leaf, ltreeAddr, otsAddr) ← genLeafWots S hf skSeed p pubSeed ltreeAddr otsAddr
    let nodes ← wr st.nodes st.offset (some leaf)
    let levels ← wr st.levels st.offset (some 0)
    let (st, nodeAddr) ← treehashMerge S hf pubSeed idx (st.offset + 1) nodes levels nodeAddr
    treehashLoop S hf skSeed p pubSeed m (idx + 1) st otsAddr ltreeAddr nodeAddr

/-- `treehash` with `index = 0` (the only call), src/rust_wrapper/xmss_alt/algsxmss.rs:76-150. -/
def treehash (b : Build) (S : Sha256) (hf : HashFn) (height : Nat) (skSeed : Bytes) (p : XmssParams)
    (pubSeed : Bytes) (addr : Adrs) : Res Bytes := do
  let otsAddr := derive addr 0
  let ltreeAddr := derive addr 1
  let nodeAddr := derive addr 2
  let lastnode ← shl1 b height
  let st : THStack := { nodes := List.replicate (height + 1) none
                        levels := List.replicate (height + 1) none, offset := 0 }
  let st ← treehashLoop S hf skSeed p pubSeed lastnode 0 st otsAddr ltreeAddr nodeAddr
  rdNode st.nodes 0

/-- "Compute all leaves", src/rust_wrapper/xmss_alt/algsxmss.rs:185-194, `m` leaves from leaf `i`; `num` is `1 << h`. The
slot is `leaf_start / 32` with `leaf_start = (1 << h) * n + i * n` in `u32`. -/
def authLeaves (b : Build) (S : Sha256) (hf : HashFn) (skSeed : Bytes) (p : XmssParams) (pubSeed : Bytes) (num : Nat) :
    Nat → Nat → List Cell → Adrs → Adrs → Res (List Cell)
  | 0, _, tree, _, _ => ok tree
  | m + 1, i, tree, ltreeAddr, otsAddr => do
    let ltreeAddr := setLtree ltreeAddr i
    let otsAddr := setOTS otsAddr i
    let x ← u32 b (num * 32)
    let y ← u32 b (i * 32)
    let start ← u32 b (x + y)
    let (leaf, ltreeAddr, otsAddr) ← genLeafWots S hf skSeed p pubSeed ltreeAddr otsAddr
    let tree ← wr tree (start / 32) (some leaf)
    authLeaves b S hf skSeed p pubSeed num m (i + 1) tree ltreeAddr otsAddr

/-- The loop over sibling pairs, src/rust_wrapper/xmss_alt/algsxmss.rs:203-211: `m` pairs from `j`. It is only reached
with `i * n` below `2^32`. -/
def authRow (S : Sha256) (hf : HashFn) (pubSeed : Bytes) (i : Nat) :
    Nat → Nat → List Cell → Adrs → Res (List Cell × Adrs)
  | 0, _, tree, nodeAddr => ok (tree, nodeAddr)
  | m + 1, j, tree, nodeAddr => do
    let nodeAddr := setTreeIndex nodeAddr (j >>> 1)
    let l ← rdNode tree (i + j)
    let r ← rdNode tree (i + j + 1)
    let (x, nodeAddr) ← hashH S hf (l ++ r) pubSeed nodeAddr
    let tree ← wr tree ((i >>> 1) + (j >>> 1)) (some x)
    authRow S hf pubSeed i m (j + 2) tree nodeAddr

/-- The loop `while i > 1`, src/rust_wrapper/xmss_alt/algsxmss.rs:199-214. -/
def authLevels (S : Sha256) (hf : HashFn) (pubSeed : Bytes) (i level : Nat) (tree : List Cell)
    (nodeAddr : Adrs) : Res (List Cell) :=
  if _h : i > 1 then do
    let nodeAddr := setTreeHeight nodeAddr level
    let (tree, nodeAddr) ← authRow S hf pubSeed i ((i + 1) / 2) 0 tree nodeAddr
    authLevels S hf pubSeed (i >>> 1) (level + 1) tree nodeAddr
  else ok tree
termination_by i
decreasing_by
  have : i >>> 1 = i / 2 := Nat.shiftRight_eq_div_pow i 1
  omega

/-- "copy authpath", src/rust_wrapper/xmss_alt/algsxmss.rs:217-225, `m` more nodes from level `i`. The offset
`((1 << h) >> i) * n + (((leaf_idx >> i) ^ 1) as u32) * n` is computed in `u32`; `leaf_idx` is a `u64`,
whose shift amount is taken modulo 64 (a checked build never gets here with `h` above 31). -/
def authCopy (b : Build) (tree : List Cell) (num leafIdx : Nat) : Nat → Nat → Res (List Bytes)
  | 0, _ => ok []
  | m + 1, i => do
    let s ← shr b num i
    let x ← u32 b (s * 32)
    let y ← u32 b ((((leafIdx >>> (i % 64)) ^^^ 1) % 2 ^ 32) * 32)
    let start ← u32 b (x + y)
    let c ← rdNode tree (start / 32)
    let cs ← authCopy b tree num leafIdx m (i + 1)
    ok (c :: cs)

/-- `compute_authpath_wots`, src/rust_wrapper/xmss_alt/algsxmss.rs:157-229: the root and the path. -/
def computeAuthpathWots (b : Build) (S : Sha256) (hf : HashFn) (leafIdx : Nat) (skSeed : Bytes) (p : XmssParams)
    (pubSeed : Bytes) (addr : Adrs) : Res (Bytes × List Bytes) := do
  let num ← shl1 b p.h
  let twice ← u32 b (2 * num)
  let treeLength ← u32 b (twice * 32)
  let tree : List Cell := List.replicate (treeLength / 32) none
  let otsAddr := derive addr 0
  let ltreeAddr := derive addr 1
  let nodeAddr := derive addr 2
  let tree ← authLeaves b S hf skSeed p pubSeed num num 0 tree ltreeAddr otsAddr
  let tree ← authLevels S hf pubSeed num 0 tree nodeAddr
  let path ← authCopy b tree num leafIdx p.h 0
  let root ← rdNode tree 1
  ok (root, path)

/-- The four index bytes `(idx >> 24) as u8 & 255, …`, e.g. src/rust_wrapper/xmss_alt/algsxmss.rs:384-387. -/
def idxBytes (idx : Nat) : Bytes :=
  [UInt8.ofNat (idx >>> 24), UInt8.ofNat (idx >>> 16), UInt8.ofNat (idx >>> 8), UInt8.ofNat idx]

/-- `xmss_gen_keypair`, src/rust_wrapper/xmss_alt/algsxmss.rs:231-282: the 132 bytes of `sk`. `treehash` is given the
slices `sk[4..]` and `sk[68..]`, of which it reads the first 32 bytes; the root part of `sk` is still zero then. -/
def xmssGenKeypair (b : Build) (S : Sha256) (hf : HashFn) (p : XmssParams) (seed : Bytes) : Res Bytes := do
  let randombits ← fipsShake256 96 seed 48
  let skSeed := randombits ++ List.replicate 32 0
  let pubSeed := (randombits ++ List.replicate 32 0).drop 64
  let root ← treehash b S hf p.h skSeed p pubSeed {}
  ok (idxBytes 0 ++ randombits ++ root)

/-- `xmss_update_sk`, src/rust_wrapper/xmss_alt/algsxmss.rs:284-301. -/
def xmssUpdateSk (sk : Bytes) (k : UInt64) : Res (Int × Bytes) := do
  let idxkey ← be32At sk
  if idxkey ≥ k.toNat then ok (-1, sk)
  else
    let idx := k.toNat
    let sk ← wr sk 0 (UInt8.ofNat (idx >>> 24))
    let sk ← wr sk 1 (UInt8.ofNat (idx >>> 16))
    let sk ← wr sk 2 (UInt8.ofNat (idx >>> 8))
    let sk ← wr sk 3 (UInt8.ofNat idx)
    ok (0, sk)

/-- The part of `xmss_sign_msg` after message hashing, src/rust_wrapper/xmss_alt/algsxmss.rs:380-450: the bytes written
to the signature. -/
def signDigest (b : Build) (S : Sha256) (hf : HashFn) (p : XmssParams) (skSeed pubSeed r msgH : Bytes) (idx : Nat) :
    Res Bytes := do
  let otsAddr := setOTS (setType {} 0) idx
  let (otsSeed, otsAddr) ← getSeed S hf skSeed otsAddr
  let (wsig, otsAddr) ← wotsSign b S hf p.wots msgH otsSeed pubSeed otsAddr
  let (_, path) ← computeAuthpathWots b S hf idx skSeed p pubSeed otsAddr
  ok (idxBytes idx ++ r ++ wsig.flatten ++ path.flatten)

/-- `xmss_sign_msg`, src/rust_wrapper/xmss_alt/algsxmss.rs:303-451: the updated secret key and the bytes written to the
signature. -/
def xmssSignMsg (b : Build) (S : Sha256) (hf : HashFn) (p : XmssParams) (sk msg : Bytes) : Res (Bytes × Bytes) := do
  let idx ← be32At sk
  let skSeed ← slice sk 4 32
  let skPrf ← slice sk 36 32
  let pubSeed ← slice sk 68 32
  let next ← u32 b (idx + 1)
  let sk' := idxBytes next ++ sk.drop 4
  let r ← prf S hf (toByte idx 32) skPrf
  let root ← slice sk' 100 32
  let hashKey := r ++ root ++ toByte idx 32
  let msgH ← hMsg S hf msg hashKey
  let sig ← signDigest b S hf p skSeed pubSeed r msgH idx
  ok (sk', sig)

end Qrl.Rs
