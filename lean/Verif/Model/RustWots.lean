import Verif.Model.RustHash
import Verif.Model.Wots
/-!
# src/rust_wrapper/xmss_alt/wots.rs

`n` is 32 everywhere. A `Vec<u8>` holding `len` values of 32 bytes is a list of byte strings. The structure `WotsParams`
is shared with the C++ model.
-/

namespace Qrl.Rs

open Res

/-- `WOTSParams::new(32, w)`, src/rust_wrapper/xmss_alt/wots.rs:38-53, for `2 ≤ w < 2^16`, with exact logarithms for the
`f32` ones. In that range `log2` of a number that is not a power of two is many units in the last place away from every
integer, and `log2(len_1 * (w - 1)) / log_w` is never within 0.0006 of an integer it does not equal, so truncation gives the
same. `w` = 0, 1 and `w ≥ 2^16` are not modelled. `len_1 = ⌈256 / log_w⌉` (C++ rounds down). -/
def wotsParams (w : Nat) : WotsParams :=
  let logW := Nat.log2 w
  let len1 := (8 * 32 + logW - 1) / logW
  let len2 := Nat.log2 (len1 * (w - 1)) / logW + 1
  { len1 := len1, len2 := len2, len := len1 + len2, w := w, logW := logW, keysize := (len1 + len2) * 32 }

/-- The loop of `expand_seed`, src/rust_wrapper/xmss_alt/wots.rs:64-73, from counter `i`, `k` iterations. -/
def expandSeedLoop (S : Sha256) (hf : HashFn) (inseed : Bytes) (i : Nat) : Nat → Res (List Bytes)
  | 0 => ok []
  | k + 1 => do
    let x ← prf S hf (toByte i 32) inseed
    let xs ← expandSeedLoop S hf inseed (i + 1) k
    ok (x :: xs)

/-- `expand_seed`, src/rust_wrapper/xmss_alt/wots.rs:61-74. -/
def expandSeed (S : Sha256) (hf : HashFn) (inseed : Bytes) (len : Nat) : Res (List Bytes) :=
  expandSeedLoop S hf inseed 0 len

/-- `gen_chain`, src/rust_wrapper/xmss_alt/wots.rs:83-103: `for i in start..min(start + steps, w)`. -/
def genChain (S : Sha256) (hf : HashFn) (w : Nat) (pubSeed : Bytes) :
    Bytes → Nat → Nat → Adrs → Res (Bytes × Adrs)
  | x, _, 0, addr => ok (x, addr)
  | x, i, steps + 1, addr =>
    if i < w then do
      let addr := setHash addr i
      let (y, addr) ← hashF S hf x pubSeed addr
      genChain S hf w pubSeed y (i + 1) steps addr
    else ok (x, addr)

/-- `total >> bits` on `u8`, src/rust_wrapper/xmss_alt/wots.rs:121: a shift by 8 or more panics in a checked build,
otherwise the amount is taken modulo 8. -/
def shr8 (b : Build) (total bits : Nat) : Res Nat :=
  if bits < 8 then ok (total >>> bits)
  else match b with
    | .debug => panic
    | .release => ok (total >>> (bits % 8))

/-- The loop of `base_w`, src/rust_wrapper/xmss_alt/wots.rs:114-123, with `k` digits left: `inp` is the unread input.
`bits -= log_w` is a subtraction in `u32`: when fewer than `log_w` bits are left it panics in a checked build and wraps
otherwise. -/
def baseWLoop (b : Build) (p : WotsParams) : Bytes → (total : Nat) → (bits : Nat) → Nat → Res (List Nat)
  | _, _, _, 0 => ok []
  | inp, total, bits, k + 1 => do
    let (inp, total, bits) ←
      if bits = 0 then
        match inp with
        | [] => panic
        | x :: rest => ok (rest, x.toNat, bits + 8)
      else ok (inp, total, bits)
    let bits ← u32sub b bits p.logW
    let t ← shr8 b total bits
    let ds ← baseWLoop b p inp total bits k
    ok ((t &&& (p.w - 1)) :: ds)

/-- `base_w`, src/rust_wrapper/xmss_alt/wots.rs:108-124. -/
def baseW (b : Build) (p : WotsParams) (outLen : Nat) (inp : Bytes) : Res (List Nat) := baseWLoop b p inp 0 0 outLen

/-- `csum += w - 1 - basew[i]`, src/rust_wrapper/xmss_alt/wots.rs:178-180 and 241-243. For `w < 2^16` the sum and its shift
by at most 8 stay below 2^31, so neither `i32` nor `u32` overflows. -/
def checksum (p : WotsParams) : List Nat → Nat
  | [] => 0
  | d :: ds => (p.w - 1 - d) + checksum p ds

/-- The digits computed by `wots_sign`, src/rust_wrapper/xmss_alt/wots.rs:173-195. -/
def signDigits (b : Build) (p : WotsParams) (msg : Bytes) : Res (List Nat) := do
  let basew ← baseW b p p.len1 msg
  let csum := checksum p basew
  let csum := csum <<< (8 - ((p.len2 * p.logW) % 8))
  let len2Bytes := (p.len2 * p.logW + 7) / 8
  let csumBytes := toByte csum len2Bytes
  let csumBasew ← baseW b p p.len2 csumBytes
  ok (basew ++ csumBasew)

/-- The digits computed by `wots_pk_from_sig`, src/rust_wrapper/xmss_alt/wots.rs:234-256. -/
def verifyDigits (b : Build) (p : WotsParams) (msg : Bytes) : Res (List Nat) := do
  let basew ← baseW b p p.len1 msg
  let csum := checksum p basew
  let csum := csum <<< (8 - ((p.len2 * p.logW) % 8))
  let csumBytes := toByte csum ((p.len2 * p.logW + 7) / 8)
  let csumBasew ← baseW b p p.len2 csumBytes
  ok (basew ++ csumBasew)

/-- The loop of `wots_pkgen`, src/rust_wrapper/xmss_alt/wots.rs:146-161, from chain `i`. -/
def pkgenLoop (S : Sha256) (hf : HashFn) (p : WotsParams) (pubSeed : Bytes) :
    Nat → List Bytes → Adrs → Res (List Bytes × Adrs)
  | _, [], addr => ok ([], addr)
  | i, x :: xs, addr => do
    let addr := setChain addr i
    let (y, addr) ← genChain S hf p.w pubSeed x 0 (p.w - 1) addr
    let (ys, addr) ← pkgenLoop S hf p pubSeed (i + 1) xs addr
    ok (y :: ys, addr)

/-- `wots_pkgen`, src/rust_wrapper/xmss_alt/wots.rs:134-162. -/
def wotsPkgen (S : Sha256) (hf : HashFn) (p : WotsParams) (sk pubSeed : Bytes) (addr : Adrs) :
    Res (List Bytes × Adrs) := do
  let xs ← expandSeed S hf sk p.len
  pkgenLoop S hf p pubSeed 0 xs addr

/-- The loop of `wots_sign`, src/rust_wrapper/xmss_alt/wots.rs:199-215, over chains `i, i+1, …` with their digits. -/
def wotsSignLoop (S : Sha256) (hf : HashFn) (p : WotsParams) (pubSeed : Bytes) :
    Nat → List (Bytes × Nat) → Adrs → Res (List Bytes × Adrs)
  | _, [], addr => ok ([], addr)
  | i, (x, d) :: xs, addr => do
    let addr := setChain addr i
    let (y, addr) ← genChain S hf p.w pubSeed x 0 d addr
    let (ys, addr) ← wotsSignLoop S hf p pubSeed (i + 1) xs addr
    ok (y :: ys, addr)

/-- `wots_sign`, src/rust_wrapper/xmss_alt/wots.rs:164-216. -/
def wotsSign (b : Build) (S : Sha256) (hf : HashFn) (p : WotsParams) (msg sk pubSeed : Bytes) (addr : Adrs) :
    Res (List Bytes × Adrs) := do
  let basew ← signDigits b p msg
  let xs ← expandSeed S hf sk p.len
  wotsSignLoop S hf p pubSeed 0 (xs.zip basew) addr

/-- The loop of `wots_pk_from_sig`, src/rust_wrapper/xmss_alt/wots.rs:257-271. -/
def pkFromSigLoop (S : Sha256) (hf : HashFn) (p : WotsParams) (pubSeed : Bytes) :
    Nat → List (Bytes × Nat) → Adrs → Res (List Bytes × Adrs)
  | _, [], addr => ok ([], addr)
  | i, (x, d) :: xs, addr => do
    let addr := setChain addr i
    let (y, addr) ← genChain S hf p.w pubSeed x d (p.w - 1 - d) addr
    let (ys, addr) ← pkFromSigLoop S hf p pubSeed (i + 1) xs addr
    ok (y :: ys, addr)

/-- `wots_pk_from_sig`, src/rust_wrapper/xmss_alt/wots.rs:218-272; `sig` is the list of `len` 32-byte values. -/
def wotsPkFromSig (b : Build) (S : Sha256) (hf : HashFn) (p : WotsParams) (sig : List Bytes)
    (msg pubSeed : Bytes) (addr : Adrs) : Res (List Bytes × Adrs) := do
  let basew ← verifyDigits b p msg
  pkFromSigLoop S hf p pubSeed 0 (sig.zip basew) addr

end Qrl.Rs
