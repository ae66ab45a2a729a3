import Verif.Model.Wots
/-!
# src/xmss-alt/hash.c and src/xmss-alt/wots.c for every `n`

The classes of src/qrl always pass `n = 32`. A program that calls `wots_set_params` or `xmss_set_params` itself chooses `n`,
and the hash function is any value of the enumeration. The functions of hash.c report an `n` they do not support with the
return value 1 and leave their output as it was; the functions of wots.c ignore that value.

The contents of a buffer slot of `n` bytes is `some` byte string, or `none` if the slot has not been written yet (local arrays
and fresh allocations, whose contents are indeterminate).
-/

namespace Qrl

open Outcome

/-- The contents of a slot of `n` bytes; `none`: not written yet (for instance `key`, src/xmss-alt/hash.c:118 and 143). -/
abbrev Slot := Option Bytes

/-- `core_hash(hash_func, out, type, key, keylen, in, inlen, n)`, src/xmss-alt/hash.c:26-85: the return value and `out` afterwards.
`key` and `inp` are the `keylen` and `inlen` bytes read. Which hash function is called, if any, does not depend on the
contents of the buffers; hashing indeterminate bytes gives an indeterminate result. -/
def coreHashN (S : Sha256) (hf type : Nat) (key inp : Slot) (n : Nat) (out : Slot) : Int × Slot :=
  match key, inp with
  | some k, some m =>
    match coreHashRaw S hf type k m n with
    | some v => (0, some v)
    | none => (1, out)
  | _, _ =>
    match coreHashRaw S hf type [] [] n with
    | some _ => (0, none)
    | none => (1, out)

/-- `prf(hash_func, out, in, key, keylen)`, src/xmss-alt/hash.c:90-95: `in` is 32 bytes, `n` is the length of the key. -/
def prfN (S : Sha256) (hf : Nat) (inp key : Slot) (n : Nat) (out : Slot) : Int × Slot :=
  coreHashN S hf 3 key inp n out

/-- `h_msg(hash_func, out, in, inlen, key, keylen, n)`, src/xmss-alt/hash.c:100-108. `3 * n` is computed in `unsigned int`. -/
def hMsgN (S : Sha256) (hf : Nat) (inp key : Slot) (keylen n : Nat) (out : Slot) : Int × Slot :=
  if keylen ≠ 3 * n % 2 ^ 32 then (1, out)
  else coreHashN S hf 2 key inp n out

/-- `buf[i] = in[i] ^ bitmask[i]`, src/xmss-alt/hash.c:133-135 and 156-158, on slots. -/
def xorSlot (a b : Slot) : Slot := do
  let x ← a
  let y ← b
  return xorBytes x y

/-- `hash_f(hash_func, out, in, pub_seed, addr, n)`, src/xmss-alt/hash.c:139-160: the return value, `out` and `addr` afterwards.
`pubSeed` is the `n` bytes read. -/
def hashFN (S : Sha256) (hf : Nat) (inp : Slot) (pubSeed : Bytes) (addr : Adrs) (n : Nat) (out : Slot) : Int × Slot × Adrs :=
  let addr := addr.setKeyAndMask 0
  let (_, key) := prfN S hf (some addr.toBytes) (some pubSeed) n none
  let addr := addr.setKeyAndMask 1
  let (_, bitmask) := prfN S hf (some addr.toBytes) (some pubSeed) n none
  let buf := xorSlot inp bitmask
  let (r, out) := coreHashN S hf 0 key buf n out
  (r, out, addr)

/-- The two halves of `bitmask` as one array, src/xmss-alt/hash.c:119-132. -/
def joinSlot (a b : Slot) : Slot := do
  let x ← a
  let y ← b
  return x ++ y

/-- `hash_h(hash_func, out, in, pub_seed, addr, n)`, src/xmss-alt/hash.c:113-137: the return value, `out` and `addr` afterwards.
`inp` is the `2 * n` bytes read. -/
def hashHN (S : Sha256) (hf : Nat) (inp : Slot) (pubSeed : Bytes) (addr : Adrs) (n : Nat) (out : Slot) : Int × Slot × Adrs :=
  let addr := addr.setKeyAndMask 0
  let (_, key) := prfN S hf (some addr.toBytes) (some pubSeed) n none
  let addr := addr.setKeyAndMask 1
  let (_, mask0) := prfN S hf (some addr.toBytes) (some pubSeed) n none
  let addr := addr.setKeyAndMask 2
  let (_, mask1) := prfN S hf (some addr.toBytes) (some pubSeed) n none
  let buf := xorSlot inp (joinSlot mask0 mask1)
  let (r, out) := coreHashN S hf 1 key buf n out
  (r, out, addr)

/-- `wots_set_params(params, n, w)`, src/xmss-alt/wots.c:19-27, for `n ≥ 0` (field `n` is the argument). As `wotsSetParams`;
`8 * n` is computed in `int`, `keysize` in `uint32_t`. -/
def wotsSetParamsN (n w : Nat) : Outcome WotsParams :=
  if w = 0 ∨ w ≥ 2 ^ 31 then ub
  else if 8 * n ≥ 2 ^ 31 then ub
  else
    let logW := Nat.log2 w
    if logW = 0 then ub
    else
      let len1 := (8 * n) / logW
      let prod := (len1 * (w - 1)) % 2 ^ 32
      if prod = 0 then ub
      else
        let len2 := Nat.log2 prod / logW + 1
        ok { len1 := len1, len2 := len2, len := len1 + len2, w := w, logW := logW,
             keysize := (len1 + len2) * n % 2 ^ 32 }

/-- The loop of `expand_seed`, src/xmss-alt/wots.c:40-43, from counter `i`, over the slots of `outseeds`. `inseed` is the `n` bytes
read. -/
def expandSeedN (S : Sha256) (hf n : Nat) (inseed : Bytes) : Nat → List Slot → List Slot
  | _, [] => []
  | i, o :: os => (prfN S hf (some (toByte i 32)) (some inseed) n o).2 :: expandSeedN S hf n inseed (i + 1) os

/-- The loop of `gen_chain`, src/xmss-alt/wots.c:65-68, on the slot `out`, which lines 62-63 have filled with `in`. -/
def genChainN (S : Sha256) (hf n w : Nat) (pubSeed : Bytes) : Slot → Nat → Nat → Adrs → Slot × Adrs
  | x, _, 0, addr => (x, addr)
  | x, i, steps + 1, addr =>
    if i < w then
      let addr := addr.setHash i
      let (_, y, addr) := hashFN S hf x pubSeed addr n x
      genChainN S hf n w pubSeed y (i + 1) steps addr
    else (x, addr)

/-- The loop of `wots_pkgen`, src/xmss-alt/wots.c:106-116, from chain `i`, over the slots of `pk`. -/
def pkgenLoopN (S : Sha256) (hf n : Nat) (p : WotsParams) (pubSeed : Bytes) : Nat → List Slot → Adrs → List Slot × Adrs
  | _, [], addr => ([], addr)
  | i, x :: xs, addr =>
    let addr := addr.setChain i
    let (y, addr) := genChainN S hf n p.w pubSeed x 0 (p.w - 1) addr
    let (ys, addr) := pkgenLoopN S hf n p pubSeed (i + 1) xs addr
    (y :: ys, addr)

/-- `wots_pkgen(hash_func, pk, sk, params, pub_seed, addr)`, src/xmss-alt/wots.c:98-117: the `len` slots of `pk` and `addr` afterwards. -/
def wotsPkgenN (S : Sha256) (hf n : Nat) (p : WotsParams) (pk : List Slot) (sk pubSeed : Bytes) (addr : Adrs) :
    List Slot × Adrs :=
  pkgenLoopN S hf n p pubSeed 0 (expandSeedN S hf n sk 0 pk) addr

/-- The loop of `wots_sign`, src/xmss-alt/wots.c:154-157, over the slots of `sig` with their digits. -/
def wotsSignLoopN (S : Sha256) (hf n : Nat) (p : WotsParams) (pubSeed : Bytes) :
    Nat → List (Slot × Nat) → Adrs → List Slot × Adrs
  | _, [], addr => ([], addr)
  | i, (x, d) :: xs, addr =>
    let addr := addr.setChain i
    let (y, addr) := genChainN S hf n p.w pubSeed x 0 d addr
    let (ys, addr) := wotsSignLoopN S hf n p pubSeed (i + 1) xs addr
    (y :: ys, addr)

/-- `wots_sign(hash_func, sig, msg, sk, params, pub_seed, addr)`, src/xmss-alt/wots.c:120-158: the `len` slots of `sig` and `addr`
afterwards. -/
def wotsSignN (S : Sha256) (hf n : Nat) (p : WotsParams) (sig : List Slot) (msg sk pubSeed : Bytes) (addr : Adrs) :
    Outcome (List Slot × Adrs) := do
  let basew ← signDigits p msg
  ok (wotsSignLoopN S hf n p pubSeed 0 ((expandSeedN S hf n sk 0 sig).zip basew) addr)

/-- The loop of `wots_pkFromSig`, src/xmss-alt/wots.c:194-199, over the slots of `sig` with their digits. What the slots of `pk` held
before is overwritten by `gen_chain` (line 63) and does not matter. -/
def pkFromSigLoopN (S : Sha256) (hf n : Nat) (p : WotsParams) (pubSeed : Bytes) :
    Nat → List (Slot × Nat) → Adrs → List Slot × Adrs
  | _, [], addr => ([], addr)
  | i, (x, d) :: xs, addr =>
    let addr := addr.setChain i
    let (y, addr) := genChainN S hf n p.w pubSeed x d (p.w - 1 - d) addr
    let (ys, addr) := pkFromSigLoopN S hf n p pubSeed (i + 1) xs addr
    (y :: ys, addr)

/-- `wots_pkFromSig(hash_func, pk, sig, msg, wotsParams, pub_seed, addr)`, src/xmss-alt/wots.c:160-200: the `len` slots of `pk` and
`addr` afterwards. -/
def wotsPkFromSigN (S : Sha256) (hf n : Nat) (p : WotsParams) (sig : List Slot) (msg pubSeed : Bytes) (addr : Adrs) :
    Outcome (List Slot × Adrs) := do
  let basew ← verifyDigits p msg
  ok (pkFromSigLoopN S hf n p pubSeed 0 (sig.zip basew) addr)

end Qrl
