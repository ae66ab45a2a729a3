import Verif.Model.Wots
/-!
# src/xmss-alt/xmss_common.c
-/

namespace Qrl

open Outcome

/-- `xmss_params`, src/xmss-alt/xmss_params.h:14-19 (`n` = 32 and `k` = 2 everywhere in the library). -/
structure XmssParams where
  wots : WotsParams
  h : Nat
  deriving DecidableEq, Repr

/-- `xmss_set_params(params, 32, h, w, 2)`, src/xmss-alt/xmss_common.c:30-43. The early return leaves the
caller's struct unset; every caller checks the same condition first, so it is `ub` here. -/
def xmssSetParams (h w : Nat) : Outcome XmssParams :=
  if 2 ≥ h ∨ (h - 2) % 2 ≠ 0 then ub
  else do
    let wp ← wotsSetParams w
    ok { wots := wp, h := h }

/-- The inner loop of `l_tree`, src/xmss-alt/xmss_common.c:61-64: `k` more pairs from pair `i`,
in place in the buffer of `wots_pk`. -/
def lTreeRow (S : Sha256) (hf : HashFn) (pubSeed : Bytes) :
    Nat → Nat → List Bytes → Adrs → Outcome (List Bytes × Adrs)
  | 0, _, buf, addr => ok (buf, addr)
  | k + 1, i, buf, addr => do
    let addr := addr.setTreeIndex i
    let l ← rd buf (2 * i)
    let r ← rd buf (2 * i + 1)
    let (x, addr) := hashH S hf (l ++ r) pubSeed addr
    let buf ← wr buf i x
    lTreeRow S hf pubSeed k (i + 1) buf addr

/-- The `while (l > 1)` loop of `l_tree`, src/xmss-alt/xmss_common.c:59-73. -/
def lTreeLoop (S : Sha256) (hf : HashFn) (pubSeed : Bytes) (l height : Nat) (buf : List Bytes)
    (addr : Adrs) : Outcome (Bytes × Adrs) :=
  if _h : l > 1 then do
    let (buf, addr) ← lTreeRow S hf pubSeed (l >>> 1) 0 buf addr
    if l &&& 1 = 1 then
      let x ← rd buf (l - 1)
      let buf ← wr buf (l >>> 1) x
      lTreeLoop S hf pubSeed ((l >>> 1) + 1) (height + 1) buf (addr.setTreeHeight (height + 1))
    else
      lTreeLoop S hf pubSeed (l >>> 1) (height + 1) buf (addr.setTreeHeight (height + 1))
  else do
    let x ← rd buf 0
    ok (x, addr)
termination_by l
decreasing_by
  · have : l >>> 1 = l / 2 := Nat.shiftRight_eq_div_pow l 1
    have h1 : l &&& 1 = l % 2 := Nat.and_one_is_mod l
    omega
  · have : l >>> 1 = l / 2 := Nat.shiftRight_eq_div_pow l 1
    omega

/-- `l_tree`, src/xmss-alt/xmss_common.c:45-75. -/
def lTree (S : Sha256) (hf : HashFn) (p : WotsParams) (wotsPk : List Bytes) (pubSeed : Bytes)
    (addr : Adrs) : Outcome (Bytes × Adrs) :=
  lTreeLoop S hf pubSeed p.len 0 wotsPk (addr.setTreeHeight 0)

/-- The loop `for (i = 0; i < h - 1; i++)` of `validate_authpath`, src/xmss-alt/xmss_common.c:108-122,
with `m` iterations left. `(bl, br)` are the two halves of `buffer`; `sig`/`off` stand for the pointer
`authpath` into the signature. -/
def authPathLoop (S : Sha256) (hf : HashFn) (pubSeed sig : Bytes) :
    Nat → Nat → Nat → Nat → Bytes → Bytes → Adrs → Outcome (Nat × Bytes × Bytes × Adrs)
  | 0, _, leafidx, _, bl, br, addr => ok (leafidx, bl, br, addr)
  | m + 1, i, leafidx, off, bl, br, addr => do
    let addr := addr.setTreeHeight i
    let leafidx := leafidx >>> 1
    let addr := addr.setTreeIndex leafidx
    let (x, addr) := hashH S hf (bl ++ br) pubSeed addr
    let a ← slice sig off 32
    if leafidx &&& 1 = 1 then
      authPathLoop S hf pubSeed sig m (i + 1) leafidx (off + 32) a x addr
    else
      authPathLoop S hf pubSeed sig m (i + 1) leafidx (off + 32) x a addr

/-- `validate_authpath`, src/xmss-alt/xmss_common.c:80-127 (the copy in algsxmss_fast.c:235-281 is never
called). `off` is the position of `authpath` in the signature `sig`; `h ≥ 1`. -/
def validateAuthpath (S : Sha256) (hf : HashFn) (leaf : Bytes) (leafidx : Nat) (sig : Bytes) (off : Nat)
    (h : Nat) (pubSeed : Bytes) (addr : Adrs) : Outcome Bytes := do
  let a ← slice sig off 32
  let (bl, br) := if leafidx &&& 1 = 1 then (a, leaf) else (leaf, a)
  let (leafidx, bl, br, addr) ← authPathLoop S hf pubSeed sig (h - 1) 0 leafidx (off + 32) bl br addr
  let addr := addr.setTreeHeight (h - 1)
  let leafidx := leafidx >>> 1
  let addr := addr.setTreeIndex leafidx
  let (root, _) := hashH S hf (bl ++ br) pubSeed addr
  ok root

/-- The `len` strings of 32 bytes at `sig_msg` read by `wots_pkFromSig` (src/xmss-alt/wots.c:194-199),
`k` strings starting at offset `off`. -/
def sliceChunks (sig : Bytes) : Nat → Nat → Outcome (List Bytes)
  | _, 0 => ok []
  | off, k + 1 => do
    let c ← slice sig off 32
    let cs ← sliceChunks sig (off + 32) k
    ok (c :: cs)

/-- `for (i = 0; i < sig_msg_len; i++) msg[i] = sig_msg[i]`, src/xmss-alt/xmss_common.c:212-213. -/
def copyBack (sig : Bytes) (off : Nat) : Nat → Nat → Bytes → Outcome Bytes
  | _, 0, msg => ok msg
  | i, k + 1, msg => do
    let b ← rd sig (off + i)
    let msg ← wr msg i b
    copyBack sig off (i + 1) k msg

/-- `for (i = 0; i < sig_msg_len; i++) msg[i] = 0`, src/xmss-alt/xmss_common.c:218-219. -/
def zeroBack : Nat → Nat → Bytes → Outcome Bytes
  | _, 0, msg => ok msg
  | i, k + 1, msg => do
    let msg ← wr msg i 0
    zeroBack (i + 1) k msg

/-- Subtraction of `unsigned long long`.
As in `sig_msg_len -= …`, src/xmss-alt/xmss_common.c:179, 196 and 206. -/
def sub64 (a b : Nat) : Nat := (a + 2 ^ 64 - b % 2 ^ 64) % 2 ^ 64

/-- The index bytes `(b0 << 24) | (b1 << 16) | (b2 << 8) | b3` at the start of a buffer:
src/xmss-alt/xmss_common.c:166-169, algsxmss.c:229, algsxmss_fast.c:541-545 and 604-605. -/
def be32At (l : Bytes) : Outcome Nat := do
  let b0 ← rd l 0
  let b1 ← rd l 1
  let b2 ← rd l 2
  let b3 ← rd l 3
  ok ((b0.toNat <<< 24) ||| (b1.toNat <<< 16) ||| (b2.toNat <<< 8) ||| b3.toNat)

/-- `xmss_Verifysig`, src/xmss-alt/xmss_common.c:133-221: returns the result code and the final contents
of the message buffer, which the function writes to. `pk` is root || pub_seed. -/
def xmssVerifysig (S : Sha256) (hf : HashFn) (p : WotsParams) (msg sig pk : Bytes) (h : Nat) :
    Outcome (Int × Bytes) := do
  let sigMsgLen := (4 + 32 + p.len * 32 + h * 32) % 2 ^ 32
  let pubSeed ← slice pk 32 32
  let otsAddr := ({} : Adrs).setType 0
  let ltreeAddr := ({} : Adrs).setType 1
  let nodeAddr := ({} : Adrs).setType 2
  let idx ← be32At sig
  let r ← slice sig 4 32
  let root0 ← slice pk 0 32
  let hashKey := r ++ root0 ++ toByte idx 32
  let off := 36
  let sigMsgLen := sub64 sigMsgLen 36
  let msgH := hMsg S hf msg hashKey
  let otsAddr := otsAddr.setOTS idx
  let wsig ← sliceChunks sig off p.len
  let (wotsPk, _) ← wotsPkFromSig S hf p wsig msgH pubSeed otsAddr
  let off := off + p.keysize
  let sigMsgLen := sub64 sigMsgLen p.keysize
  let ltreeAddr := ltreeAddr.setLtree idx
  let (pkhash, _) ← lTree S hf p wotsPk pubSeed ltreeAddr
  let root ← validateAuthpath S hf pkhash idx sig off h pubSeed nodeAddr
  let off := off + h * 32
  let sigMsgLen := sub64 sigMsgLen (h * 32)
  if root ≠ root0 then
    let msg ← zeroBack 0 sigMsgLen msg
    ok (-1, msg)
  else
    let msg ← copyBack sig off 0 sigMsgLen msg
    ok (0, msg)

end Qrl
