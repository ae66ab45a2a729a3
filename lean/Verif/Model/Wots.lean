import Verif.Model.Hash
/-!
# src/xmss-alt/wots.c

`n` is 32 throughout (every caller in the library passes 32). Arrays of `len` strings of `n` bytes are lists
of byte strings.
-/

namespace Qrl

open Outcome

/-- `wots_params`, src/xmss-alt/wots_params.h:10-18 (`n` = 32, `keysize = 32 * len`). -/
structure WotsParams where
  len1 : Nat
  len2 : Nat
  len : Nat
  w : Nat
  logW : Nat
  keysize : Nat
  deriving DecidableEq, Repr

/-- `wots_set_params(params, 32, w)`, src/xmss-alt/wots.c:19-27, `w` being the `uint32_t` argument of
`xmss_set_params` converted to `int`. The `double` logarithms are replaced by exact ones.
* `w = 0` or `w ≥ 2^31` (negative as `int`): conversion of `-inf`/`nan` to `int`, undefined;
* `w = 1`: `log_w = 0`, integer division by zero;
* `len_1 * (w - 1)` wraps to 0 in `uint32_t`: conversion of `-inf` to `int`, undefined. -/
def wotsSetParams (w : Nat) : Outcome WotsParams :=
  if w = 0 ∨ w ≥ 2 ^ 31 then ub
  else
    let logW := Nat.log2 w
    if logW = 0 then ub
    else
      let len1 := (8 * 32) / logW
      let prod := (len1 * (w - 1)) % 2 ^ 32
      if prod = 0 then ub
      else
        let len2 := Nat.log2 prod / logW + 1
        ok { len1 := len1, len2 := len2, len := len1 + len2, w := w, logW := logW,
             keysize := (len1 + len2) * 32 }

/-- The loop of `expand_seed`, src/xmss-alt/wots.c:40-43, from counter `i`, `k` iterations. -/
def expandSeedLoop (S : Sha256) (hf : HashFn) (inseed : Bytes) (i : Nat) : Nat → List Bytes
  | 0 => []
  | k + 1 => prf S hf (toByte i 32) inseed :: expandSeedLoop S hf inseed (i + 1) k

/-- `expand_seed`, src/xmss-alt/wots.c:34-44. -/
def expandSeed (S : Sha256) (hf : HashFn) (inseed : Bytes) (len : Nat) : List Bytes :=
  expandSeedLoop S hf inseed 0 len

/-- `gen_chain`, src/xmss-alt/wots.c:53-69: `for (i = start; i < start + steps && i < w; i++)`. -/
def genChain (S : Sha256) (hf : HashFn) (w : Nat) (pubSeed : Bytes) :
    Bytes → Nat → Nat → Adrs → Bytes × Adrs
  | x, _, 0, addr => (x, addr)
  | x, i, steps + 1, addr =>
    if i < w then
      let addr := addr.setHash i
      let (y, addr) := hashF S hf x pubSeed addr
      genChain S hf w pubSeed y (i + 1) steps addr
    else (x, addr)

/-- The loop of `base_w`, src/xmss-alt/wots.c:86-95. `inp` is the unread input; reading past its end and
shifting by a negative amount (`bits < log_w` after a refill) are undefined. -/
def baseWLoop (p : WotsParams) : Bytes → (total : Nat) → (bits : Nat) → Nat → Outcome (List Nat)
  | _, _, _, 0 => ok []
  | inp, total, bits, k + 1 => do
    let (inp, total, bits) ←
      if bits = 0 then
        match inp with
        | [] => ub
        | b :: rest => ok (rest, b.toNat, bits + 8)
      else ok (inp, total, bits)
    if bits < p.logW then ub
    else
      let bits := bits - p.logW
      let d := (total >>> bits) &&& (p.w - 1)
      let ds ← baseWLoop p inp total bits k
      ok (d :: ds)

/-- `base_w`, src/xmss-alt/wots.c:76-96. -/
def baseW (p : WotsParams) (outLen : Nat) (inp : Bytes) : Outcome (List Nat) :=
  baseWLoop p inp 0 0 outLen

/-- `csum += w - 1 - basew[i]` over the message digits,
src/xmss-alt/wots.c:133-135 and 182-184 (`basew[i] ≤ w - 1`). -/
def checksum (p : WotsParams) : List Nat → Nat
  | [] => 0
  | d :: ds => (p.w - 1 - d) + checksum p ds

/-- The digits computed by `wots_sign`, src/xmss-alt/wots.c:131-150. -/
def signDigits (p : WotsParams) (msg : Bytes) : Outcome (List Nat) := do
  let basew ← baseW p p.len1 msg
  let csum := checksum p basew
  let csum := csum <<< (8 - ((p.len2 * p.logW) % 8))
  let len2Bytes := (p.len2 * p.logW + 7) / 8
  let csumBytes := toByte csum len2Bytes
  let csumBasew ← baseW p p.len2 csumBytes
  ok (basew ++ csumBasew)

/-- The digits computed by `wots_pkFromSig`, src/xmss-alt/wots.c:180-193. -/
def verifyDigits (p : WotsParams) (msg : Bytes) : Outcome (List Nat) := do
  let basew ← baseW p p.len1 msg
  let csum := checksum p basew
  let csum := csum <<< (8 - ((p.len2 * p.logW) % 8))
  let csumBytes := toByte csum ((p.len2 * p.logW + 7) / 8)
  let csumBasew ← baseW p p.len2 csumBytes
  ok (basew ++ csumBasew)

/-- The loop of `wots_pkgen`, src/xmss-alt/wots.c:106-116, from chain `i`. -/
def pkgenLoop (S : Sha256) (hf : HashFn) (p : WotsParams) (pubSeed : Bytes) :
    Nat → List Bytes → Adrs → List Bytes × Adrs
  | _, [], addr => ([], addr)
  | i, x :: xs, addr =>
    let addr := addr.setChain i
    let (y, addr) := genChain S hf p.w pubSeed x 0 (p.w - 1) addr
    let (ys, addr) := pkgenLoop S hf p pubSeed (i + 1) xs addr
    (y :: ys, addr)

/-- `wots_pkgen`, src/xmss-alt/wots.c:98-117. -/
def wotsPkgen (S : Sha256) (hf : HashFn) (p : WotsParams) (sk pubSeed : Bytes) (addr : Adrs) :
    List Bytes × Adrs :=
  pkgenLoop S hf p pubSeed 0 (expandSeed S hf sk p.len) addr

/-- The loop of `wots_sign`, src/xmss-alt/wots.c:154-157, over chains `i, i+1, …` with their digits. -/
def wotsSignLoop (S : Sha256) (hf : HashFn) (p : WotsParams) (pubSeed : Bytes) :
    Nat → List (Bytes × Nat) → Adrs → List Bytes × Adrs
  | _, [], addr => ([], addr)
  | i, (x, d) :: xs, addr =>
    let addr := addr.setChain i
    let (y, addr) := genChain S hf p.w pubSeed x 0 d addr
    let (ys, addr) := wotsSignLoop S hf p pubSeed (i + 1) xs addr
    (y :: ys, addr)

/-- `wots_sign`, src/xmss-alt/wots.c:120-158. -/
def wotsSign (S : Sha256) (hf : HashFn) (p : WotsParams) (msg sk pubSeed : Bytes) (addr : Adrs) :
    Outcome (List Bytes × Adrs) := do
  let basew ← signDigits p msg
  ok (wotsSignLoop S hf p pubSeed 0 ((expandSeed S hf sk p.len).zip basew) addr)

/-- The loop of `wots_pkFromSig`, src/xmss-alt/wots.c:194-199. -/
def pkFromSigLoop (S : Sha256) (hf : HashFn) (p : WotsParams) (pubSeed : Bytes) :
    Nat → List (Bytes × Nat) → Adrs → List Bytes × Adrs
  | _, [], addr => ([], addr)
  | i, (x, d) :: xs, addr =>
    let addr := addr.setChain i
    let (y, addr) := genChain S hf p.w pubSeed x d (p.w - 1 - d) addr
    let (ys, addr) := pkFromSigLoop S hf p pubSeed (i + 1) xs addr
    (y :: ys, addr)

/-- `wots_pkFromSig`, src/xmss-alt/wots.c:160-200; `sig` is the list of `len` 32-byte strings. -/
def wotsPkFromSig (S : Sha256) (hf : HashFn) (p : WotsParams) (sig : List Bytes)
    (msg pubSeed : Bytes) (addr : Adrs) : Outcome (List Bytes × Adrs) := do
  let basew ← verifyDigits p msg
  ok (pkFromSigLoop S hf p pubSeed 0 (sig.zip basew) addr)

end Qrl
