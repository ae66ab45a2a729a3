import Verif.Model.WotsN
import Verif.Model.CLow
/-!
# `l_tree` and `xmss_Verifysig` of src/xmss-alt/xmss_common.c for every `n`
-/

namespace Qrl

open Outcome

/-- The inner loop of `l_tree`, src/xmss-alt/xmss_common.c:61-64: `k` more pairs from pair `i`, in place. `hash_h` reads its
input before it writes its output, which is slot `i`. -/
def lTreeRowN (S : Sha256) (hf n : Nat) (pubSeed : Bytes) :
    Nat → Nat → List Slot → Adrs → Outcome (List Slot × Adrs)
  | 0, _, buf, addr => ok (buf, addr)
  | k + 1, i, buf, addr => do
    let addr := addr.setTreeIndex i
    let l ← rd buf (2 * i)
    let r ← rd buf (2 * i + 1)
    let old ← rd buf i
    let (_, x, addr) := hashHN S hf (joinSlot l r) pubSeed addr n old
    let buf ← wr buf i x
    lTreeRowN S hf n pubSeed k (i + 1) buf addr

/-- The `while (l > 1)` loop of `l_tree`, src/xmss-alt/xmss_common.c:59-73. -/
def lTreeLoopN (S : Sha256) (hf n : Nat) (pubSeed : Bytes) (l height : Nat) (buf : List Slot)
    (addr : Adrs) : Outcome (Slot × Adrs) :=
  if _h : l > 1 then do
    let (buf, addr) ← lTreeRowN S hf n pubSeed (l >>> 1) 0 buf addr
    if l &&& 1 = 1 then
      let x ← rd buf (l - 1)
      let buf ← wr buf (l >>> 1) x
      lTreeLoopN S hf n pubSeed ((l >>> 1) + 1) (height + 1) buf (addr.setTreeHeight (height + 1))
    else
      lTreeLoopN S hf n pubSeed (l >>> 1) (height + 1) buf (addr.setTreeHeight (height + 1))
  else do
    let x ← rd buf 0
    ok (x, addr)
termination_by l
decreasing_by
  · have : l >>> 1 = l / 2 := Nat.shiftRight_eq_div_pow l 1
    have h1 : l &&& 1 = l % 2 := Nat.and_one_is_mod l
    omega
  · have : l >>> 1 = l / 2 := Nat.shiftRight_eq_div_pow l 1
    omega

/-- `l_tree`, src/xmss-alt/xmss_common.c:45-75. -/
def lTreeN (S : Sha256) (hf n : Nat) (p : WotsParams) (wotsPk : List Slot) (pubSeed : Bytes)
    (addr : Adrs) : Outcome (Slot × Adrs) :=
  lTreeLoopN S hf n pubSeed p.len 0 wotsPk (addr.setTreeHeight 0)

/-- The loop of `validate_authpath`, src/xmss-alt/xmss_common.c:108-122, with `m` iterations left. The output of `hash_h` is one
half of `buffer`: the right one (line 113) or the left one (line 117). -/
def authPathLoopN (S : Sha256) (hf n : Nat) (pubSeed sig : Bytes) :
    Nat → Nat → Nat → Nat → Slot → Slot → Adrs → Outcome (Nat × Slot × Slot × Adrs)
  | 0, _, leafidx, _, bl, br, addr => ok (leafidx, bl, br, addr)
  | m + 1, i, leafidx, off, bl, br, addr => do
    let addr := addr.setTreeHeight i
    let leafidx := leafidx >>> 1
    let addr := addr.setTreeIndex leafidx
    if leafidx &&& 1 = 1 then
      let (_, x, addr) := hashHN S hf (joinSlot bl br) pubSeed addr n br
      let a ← slice sig off n
      authPathLoopN S hf n pubSeed sig m (i + 1) leafidx (off + n) (some a) x addr
    else
      let (_, x, addr) := hashHN S hf (joinSlot bl br) pubSeed addr n bl
      let a ← slice sig off n
      authPathLoopN S hf n pubSeed sig m (i + 1) leafidx (off + n) x (some a) addr

/-- `validate_authpath`, src/xmss-alt/xmss_common.c:80-127. `root` is a fresh local array of the caller (line 147). -/
def validateAuthpathN (S : Sha256) (hf n : Nat) (leaf : Slot) (leafidx : Nat) (sig : Bytes) (off : Nat)
    (h : Nat) (pubSeed : Bytes) (addr : Adrs) : Outcome Slot := do
  let a ← slice sig off n
  let (bl, br) := if leafidx &&& 1 = 1 then (some a, leaf) else (leaf, some a)
  let (leafidx, bl, br, addr) ← authPathLoopN S hf n pubSeed sig (sub32 h 1) 0 leafidx (off + n) bl br addr
  let addr := addr.setTreeHeight (sub32 h 1)
  let leafidx := leafidx >>> 1
  let addr := addr.setTreeIndex leafidx
  let (_, root, _) := hashHN S hf (joinSlot bl br) pubSeed addr n none
  ok root

/-- The `len` strings of `n` bytes at `sig_msg` read by `wots_pkFromSig`, src/xmss-alt/wots.c:194-199: `k` strings starting at offset
`off`. -/
def sliceChunksN (sig : Bytes) (n : Nat) : Nat → Nat → Outcome (List Slot)
  | _, 0 => ok []
  | off, k + 1 => do
    let c ← slice sig off n
    let cs ← sliceChunksN sig n (off + n) k
    ok (some c :: cs)

/-- `xmss_Verifysig(hash_func, wotsParams, msg, msglen, sig_msg, pk, h)` up to the comparison, src/xmss-alt/xmss_common.c:133-206, for
the field `n` of the parameters and the whole message buffer (`msglen` is its length): the array `root`, the first `n` bytes of
`pk`, the offset of `sig_msg` and the value of `sig_msg_len`. The initial `sig_msg_len` (line 141) is computed from the
constant 32. Digits of an indeterminate digest (`msg_h` not written by `h_msg`) are undefined. -/
def verifyRootN (S : Sha256) (hf n : Nat) (p : WotsParams) (msg sig pk : Bytes) (h : Nat) :
    Outcome (Slot × Bytes × Nat × Nat) := do
  let sigMsgLen := (4 + 32 + p.len * 32 + h * 32) % 2 ^ 32
  let pubSeed ← slice pk n n
  let otsAddr := ({} : Adrs).setType 0
  let ltreeAddr := ({} : Adrs).setType 1
  let nodeAddr := ({} : Adrs).setType 2
  let idx ← be32At sig
  let r ← slice sig 4 n
  let root0 ← slice pk 0 n
  let hashKey := r ++ root0 ++ toByte idx n
  let off := n + 4
  let sigMsgLen := sub64 sigMsgLen (n + 4)
  match (hMsgN S hf (some msg) (some hashKey) (3 * n) n none).2 with
  | none => ub
  | some msgH =>
    let otsAddr := otsAddr.setOTS idx
    let wsig ← sliceChunksN sig n off p.len
    let (wotsPk, _) ← wotsPkFromSigN S hf n p wsig msgH pubSeed otsAddr
    let off := off + p.keysize
    let sigMsgLen := sub64 sigMsgLen p.keysize
    let ltreeAddr := ltreeAddr.setLtree idx
    let (pkhash, _) ← lTreeN S hf n p wotsPk pubSeed ltreeAddr
    let root ← validateAuthpathN S hf n pkhash idx sig off h pubSeed nodeAddr
    ok (root, root0, off + h * n, sub64 sigMsgLen (h * n))

/-- `xmss_Verifysig`, src/xmss-alt/xmss_common.c:133-221, for every `n`: the result code and the message buffer afterwards. Branching
on an indeterminate `root` (lines 208-210) is undefined. -/
def xmssVerifysigN (S : Sha256) (hf n : Nat) (p : WotsParams) (msg sig pk : Bytes) (h : Nat) : Outcome (Int × Bytes) := do
  let (root, root0, off, sigMsgLen) ← verifyRootN S hf n p msg sig pk h
  match root with
  | none => ub
  | some root =>
    if root ≠ root0 then
      let msg ← zeroBack 0 sigMsgLen msg
      ok (-1, msg)
    else
      let msg ← copyBack sig off 0 sigMsgLen msg
      ok (0, msg)

end Qrl
