import Verif.Model.RustLow
/-!
# The Rust crate's hash functions and `xmss_verify_sig` for every `n`

src/rust_wrapper/xmss_alt/hash.rs, wots.rs and xmss_common.rs. `WOTSParams` has public fields, and all functions below but `gen_chain`, `base_w`
and `validate_authpath` are public. `vec![0; …]` buffers hold zeros, so an output that is not written keeps what it held before: every
function takes the previous content `old` of its output, of `n` bytes.
-/

namespace Qrl.Rs

open Res

/-- `to_byte(out, input, n)`, src/rust_wrapper/xmss_alt/xmss_common.rs:35-40: for `n = 0` the bound `bytes - 1` overflows, which panics in
a checked build; in the others the loop starts at `out[2^32 - 1]`, which panics. -/
def toByteN (v n : Nat) : Res Bytes := if n = 0 then panic else ok (toByte v n)

/-- `core_hash`, src/rust_wrapper/xmss_alt/hash.rs:30-82, for every `n`: the return value and the output. -/
def coreHashN (S : Sha256) (hf : HashFn) (n type : Nat) (key : Bytes) (keylen : Nat) (inp : Bytes) (inlen : Nat) (old : Bytes) :
    Res (Nat × Bytes) := do
  if inlen + n + keylen ≥ 2 ^ 32 then panic
  else
    let t ← toByteN type n
    let k ← slice key 0 keylen
    let m ← slice inp 0 inlen
    let buf := t ++ k ++ m
    match hf with
    | .shake_128 =>
      if n = 32 ∨ n = 64 then do
        let d ← fipsShake128 n buf (inlen + keylen + n)
        ok (0, d)
      else ok (1, old)
    | .shake_256 =>
      if n = 32 ∨ n = 64 then do
        let d ← fipsShake256 n buf (inlen + keylen + n)
        ok (0, d)
      else ok (1, old)
    | .sha2_256 => if n = 32 then ok (0, sha2_256 S buf) else ok (1, old)

/-- `prf` with `keylen = n`, src/rust_wrapper/xmss_alt/hash.rs:87-89. -/
def prfN (S : Sha256) (hf : HashFn) (n : Nat) (inp key old : Bytes) : Res (Nat × Bytes) := coreHashN S hf n 3 key n inp 32 old

/-- `h_msg`, src/rust_wrapper/xmss_alt/hash.rs:94-120. -/
def hMsgN (S : Sha256) (hf : HashFn) (n : Nat) (inp : Bytes) (inlen : Nat) (key : Bytes) (keylen : Nat) (old : Bytes) :
    Res (Nat × Bytes) :=
  if keylen ≠ 3 * n then ok (1, old)
  else if inlen ≥ 2 ^ 32 then panic
  else coreHashN S hf n 2 key keylen inp inlen old

/-- `hash_h`, src/rust_wrapper/xmss_alt/hash.rs:125-154: return value, output and mutated address. `key` and the two halves of `bitmask`
start as zeros. -/
def hashHN (S : Sha256) (hf : HashFn) (n : Nat) (inp pubSeed : Bytes) (addr : Adrs) (old : Bytes) : Res (Nat × Bytes × Adrs) := do
  let z := List.replicate n 0
  let addr := setKeyAndMask addr 0
  let (_, key) ← prfN S hf n (adrsBytes addr) pubSeed z
  let addr := setKeyAndMask addr 1
  let (_, mask0) ← prfN S hf n (adrsBytes addr) pubSeed z
  let addr := setKeyAndMask addr 2
  let (_, mask1) ← prfN S hf n (adrsBytes addr) pubSeed z
  let inp ← slice inp 0 (2 * n)
  let buf := xorBytes inp (mask0 ++ mask1)
  let (r, out) ← coreHashN S hf n 1 key n buf (2 * n) old
  ok (r, out, addr)

/-- `hash_f`, src/rust_wrapper/xmss_alt/hash.rs:156-181. -/
def hashFN (S : Sha256) (hf : HashFn) (n : Nat) (inp pubSeed : Bytes) (addr : Adrs) (old : Bytes) : Res (Nat × Bytes × Adrs) := do
  let z := List.replicate n 0
  let addr := setKeyAndMask addr 0
  let (_, key) ← prfN S hf n (adrsBytes addr) pubSeed z
  let addr := setKeyAndMask addr 1
  let (_, mask) ← prfN S hf n (adrsBytes addr) pubSeed z
  let inp ← slice inp 0 n
  let buf := xorBytes inp mask
  let (r, out) ← coreHashN S hf n 0 key n buf n old
  ok (r, out, addr)

/-- `WOTSParams::new(n, w)`, src/rust_wrapper/xmss_alt/wots.rs:38-53, for `1 ≤ n ≤ 4096` and `w` one of 2, 4, 16, 256 (for
`n = 32`: `2 ≤ w < 2^16`), with exact logarithms for the `f32` ones (see `wotsParams`): there `len_1 * (w - 1)` is a power of two or differs
from the next one by enough for `f32`. -/
def wotsParamsN (n w : Nat) : WotsParams :=
  let logW := Nat.log2 w
  let len1 := (8 * n + logW - 1) / logW
  let len2 := Nat.log2 (len1 * (w - 1)) / logW + 1
  { len1 := len1, len2 := len2, len := len1 + len2, w := w, logW := logW, keysize := (len1 + len2) * n }

/-- `gen_chain`, src/rust_wrapper/xmss_alt/wots.rs:83-103, after the copy of the input to the output (92-94): the hash function's output
is the buffer its input was copied from. -/
def genChainN (S : Sha256) (hf : HashFn) (n w : Nat) (pubSeed : Bytes) : Bytes → Nat → Nat → Adrs → Res (Bytes × Adrs)
  | x, _, 0, addr => ok (x, addr)
  | x, i, steps + 1, addr =>
    if i < w then do
      let addr := setHash addr i
      let (_, y, addr) ← hashFN S hf n x pubSeed addr x
      genChainN S hf n w pubSeed y (i + 1) steps addr
    else ok (x, addr)

/-- The loop of `wots_pk_from_sig`, src/rust_wrapper/xmss_alt/wots.rs:257-271. -/
def pkFromSigLoopN (S : Sha256) (hf : HashFn) (n : Nat) (p : WotsParams) (pubSeed : Bytes) :
    Nat → List (Bytes × Nat) → Adrs → Res (List Bytes × Adrs)
  | _, [], addr => ok ([], addr)
  | i, (x, d) :: xs, addr => do
    let addr := setChain addr i
    let (y, addr) ← genChainN S hf n p.w pubSeed x d (p.w - 1 - d) addr
    let (ys, addr) ← pkFromSigLoopN S hf n p pubSeed (i + 1) xs addr
    ok (y :: ys, addr)

/-- `wots_pk_from_sig`, src/rust_wrapper/xmss_alt/wots.rs:218-272; `sig` is the list of `len` values of `n` bytes. -/
def wotsPkFromSigN (b : Build) (S : Sha256) (hf : HashFn) (n : Nat) (p : WotsParams) (sig : List Bytes) (msg pubSeed : Bytes)
    (addr : Adrs) : Res (List Bytes × Adrs) := do
  let basew ← verifyDigits b p msg
  pkFromSigLoopN S hf n p pubSeed 0 (sig.zip basew) addr

/-- The inner loop of `l_tree`, src/rust_wrapper/xmss_alt/xmss_common.rs:58-65: `k` more pairs from pair `i`, in place. -/
def lTreeRowN (S : Sha256) (hf : HashFn) (n : Nat) (pubSeed : Bytes) :
    Nat → Nat → List Bytes → Adrs → Res (List Bytes × Adrs)
  | 0, _, buf, addr => ok (buf, addr)
  | k + 1, i, buf, addr => do
    let addr := setTreeIndex addr i
    let l ← rd buf (2 * i)
    let r ← rd buf (2 * i + 1)
    let old ← rd buf i
    let (_, x, addr) ← hashHN S hf n (l ++ r) pubSeed addr old
    let buf ← wr buf i x
    lTreeRowN S hf n pubSeed k (i + 1) buf addr

/-- The `while l > 1` loop of `l_tree`, src/rust_wrapper/xmss_alt/xmss_common.rs:56-76, and the final copy, 77-79. -/
def lTreeLoopN (S : Sha256) (hf : HashFn) (n : Nat) (pubSeed : Bytes) (l height : Nat) (buf : List Bytes)
    (addr : Adrs) : Res (Bytes × Adrs) :=
  if _h : l > 1 then do
    let (buf, addr) ← lTreeRowN S hf n pubSeed (l >>> 1) 0 buf addr
    if l &&& 1 ≠ 0 then
      let x ← rd buf (l - 1)
      let buf ← wr buf (l >>> 1) x
      lTreeLoopN S hf n pubSeed ((l >>> 1) + 1) (height + 1) buf (setTreeHeight addr (height + 1))
    else
      lTreeLoopN S hf n pubSeed (l >>> 1) (height + 1) buf (setTreeHeight addr (height + 1))
  else do
    let x ← rd buf 0
    ok (x, addr)
termination_by l
decreasing_by
  · have : l >>> 1 = l / 2 := Nat.shiftRight_eq_div_pow l 1
    have h1 : l &&& 1 = l % 2 := Nat.and_one_is_mod l
    omega
  · have : l >>> 1 = l / 2 := Nat.shiftRight_eq_div_pow l 1
    omega

/-- `l_tree`, src/rust_wrapper/xmss_alt/xmss_common.rs:42-80. -/
def lTreeN (S : Sha256) (hf : HashFn) (n : Nat) (p : WotsParams) (wotsPk : List Bytes) (pubSeed : Bytes)
    (addr : Adrs) : Res (Bytes × Adrs) :=
  lTreeLoopN S hf n pubSeed p.len 0 wotsPk (setTreeHeight addr 0)

/-- The loop `for i in 0..(h - 1)` of `validate_authpath`, src/rust_wrapper/xmss_alt/xmss_common.rs:117-143, with `m` iterations left. The
output of `hash_h` is the right half of `buffer` (line 126) or the left one (line 137). -/
def authPathLoopN (S : Sha256) (hf : HashFn) (n : Nat) (pubSeed sig : Bytes) :
    Nat → Nat → Nat → Nat → Bytes → Bytes → Adrs → Res (Nat × Bytes × Bytes × Adrs)
  | 0, _, leafidx, _, bl, br, addr => ok (leafidx, bl, br, addr)
  | m + 1, i, leafidx, off, bl, br, addr => do
    let addr := setTreeHeight addr i
    let leafidx := leafidx >>> 1
    let addr := setTreeIndex addr leafidx
    if leafidx &&& 1 ≠ 0 then
      let (_, x, addr) ← hashHN S hf n (bl ++ br) pubSeed addr br
      let a ← slice sig off n
      authPathLoopN S hf n pubSeed sig m (i + 1) leafidx (off + n) a x addr
    else
      let (_, x, addr) ← hashHN S hf n (bl ++ br) pubSeed addr bl
      let a ← slice sig off n
      authPathLoopN S hf n pubSeed sig m (i + 1) leafidx (off + n) x a addr

/-- `validate_authpath`, src/rust_wrapper/xmss_alt/xmss_common.rs:85-148. `root` holds the zeros of line 168. For `h = 0` see
`validateAuthpathAny`. -/
def validateAuthpathN (b : Build) (S : Sha256) (hf : HashFn) (n : Nat) (leaf : Bytes) (leafidx : Nat) (sig : Bytes) (off : Nat)
    (h : Nat) (pubSeed : Bytes) (addr : Adrs) : Res Bytes := do
  let a ← slice sig off n
  let (bl, br) := if leafidx &&& 1 ≠ 0 then (a, leaf) else (leaf, a)
  let m ← u32sub b h 1
  let (leafidx, bl, br, addr) ← authPathLoopN S hf n pubSeed sig m 0 leafidx (off + n) bl br addr
  let addr := setTreeHeight addr m
  let leafidx := leafidx >>> 1
  let addr := setTreeIndex addr leafidx
  let (_, root, _) ← hashHN S hf n (bl ++ br) pubSeed addr (List.replicate n 0)
  ok root

/-- The `k` values of `n` bytes from offset `off` read by `wots_pk_from_sig`, src/rust_wrapper/xmss_alt/wots.rs:259-260. -/
def sliceChunksN (sig : Bytes) (n : Nat) : Nat → Nat → Res (List Bytes)
  | _, 0 => ok []
  | off, k + 1 => do
    let c ← slice sig off n
    let cs ← sliceChunksN sig n (off + n) k
    ok (c :: cs)

/-- `sig_msg_len -= x` on `u64`, src/rust_wrapper/xmss_alt/xmss_common.rs:201, 233 and 260: panics in a checked build, wraps otherwise. -/
def u64sub (b : Build) (a x : Nat) : Res Nat :=
  if x ≤ a then ok (a - x)
  else match b with
    | .debug => panic
    | .release => ok (2 ^ 64 + a - x)

/-- `xmss_verify_sig` for the field `n` of the parameters, on any slices, src/rust_wrapper/xmss_alt/xmss_common.rs:153-276: the result code and the
message buffer. The counter `sig_msg_len` starts from lengths for the constant 32 (line 162). -/
def xmssVerifySigN (b : Build) (S : Sha256) (hf : HashFn) (n : Nat) (p : WotsParams) (msg : Bytes) (msglen : Nat) (sig pk : Bytes) (h : Nat) :
    Res (Int × Bytes) := do
  let sigMsgLen := 4 + 32 + p.len * 32 + h * 32
  let pubSeed ← slice pk n n
  let idx ← be32At sig
  let r ← slice sig 4 n
  let root0 ← slice pk 0 n
  let t ← toByteN idx n
  let hashKey := r ++ root0 ++ t
  let sigMsgLen ← u64sub b sigMsgLen (n + 4)
  let (_, msgH) ← hMsgN S hf n msg msglen hashKey (3 * n) (List.replicate n 0)
  let wsig ← sliceChunksN sig n (4 + n) p.len
  let (wotsPk, _) ← wotsPkFromSigN b S hf n p wsig msgH pubSeed (setOTS (setType {} 0) idx)
  let sigMsgLen ← u64sub b sigMsgLen p.keysize
  let (pkhash, _) ← lTreeN S hf n p wotsPk pubSeed (setLtree (setType {} 1) idx)
  let root ← validateAuthpathN b S hf n pkhash idx sig (4 + n + p.keysize) h pubSeed (setType {} 2)
  let sigMsgLen ← u64sub b sigMsgLen (h * n)
  if root ≠ root0 then
    let msg ← zeroBack 0 sigMsgLen msg
    ok (-1, msg)
  else
    let msg ← copyBack sig (4 + n + p.keysize + h * n) 0 sigMsgLen msg
    ok (0, msg)

end Qrl.Rs
