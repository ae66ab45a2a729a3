import Verif.Model.RustKeccak
import Verif.Model.Hash
/-!
# src/rust_wrapper/xmss_alt/hash_address.rs, hash.rs and hash_functions.rs

The type `Adrs` (eight words) and `HashFn` (the three values of the enum `HashFunction`, hash_functions.rs:1-7) are shared
with the C++ model; in Rust no other value of the enum exists.
-/

namespace Qrl.Rs

open Res

/-- `set_type`, src/rust_wrapper/xmss_alt/hash_address.rs:10-15. -/
def setType (a : Adrs) (t : Nat) : Adrs := { a with w3 := t, w4 := 0, w5 := 0, w6 := 0, w7 := 0 }
/-- `set_key_and_mask`, src/rust_wrapper/xmss_alt/hash_address.rs:17-19. -/
def setKeyAndMask (a : Adrs) (v : Nat) : Adrs := { a with w7 := v }
/-- `set_ots_adrs`, src/rust_wrapper/xmss_alt/hash_address.rs:23-25. -/
def setOTS (a : Adrs) (v : Nat) : Adrs := { a with w4 := v }
/-- `set_chain_adrs`, src/rust_wrapper/xmss_alt/hash_address.rs:27-29. -/
def setChain (a : Adrs) (v : Nat) : Adrs := { a with w5 := v }
/-- `set_hash_adrs`, src/rust_wrapper/xmss_alt/hash_address.rs:31-33. -/
def setHash (a : Adrs) (v : Nat) : Adrs := { a with w6 := v }
/-- `set_ltree_adrs`, src/rust_wrapper/xmss_alt/hash_address.rs:37-39. -/
def setLtree (a : Adrs) (v : Nat) : Adrs := { a with w4 := v }
/-- `set_tree_height`, src/rust_wrapper/xmss_alt/hash_address.rs:43-45. -/
def setTreeHeight (a : Adrs) (v : Nat) : Adrs := { a with w5 := v }
/-- `set_tree_index`, src/rust_wrapper/xmss_alt/hash_address.rs:47-49. -/
def setTreeIndex (a : Adrs) (v : Nat) : Adrs := { a with w6 := v }

/-- `x[0..3].copy_from_slice(&addr[0..3])` on a zero address followed by `set_type(x, t)`, e.g.
src/rust_wrapper/xmss_alt/algsxmss.rs:88-99. -/
def derive (a : Adrs) (t : Nat) : Adrs := setType { w0 := a.w0, w1 := a.w1, w2 := a.w2 } t

/-- `to_byte(out, input, bytes)`, src/rust_wrapper/xmss_alt/xmss_common.rs:35-40: the bytes written, last one first. -/
def toByte (v : Nat) : Nat → Bytes
  | 0 => []
  | k + 1 => toByte (v / 256) k ++ [UInt8.ofNat (v % 256)]

/-- `addr_to_byte` (little-endian branch), src/rust_wrapper/xmss_alt/hash.rs:17-28. -/
def adrsBytes (a : Adrs) : Bytes :=
  toByte a.w0 4 ++ toByte a.w1 4 ++ toByte a.w2 4 ++ toByte a.w3 4 ++
  toByte a.w4 4 ++ toByte a.w5 4 ++ toByte a.w6 4 ++ toByte a.w7 4

/-- `core_hash` with `n = 32`, src/rust_wrapper/xmss_alt/hash.rs:30-82. The loops at 50-56 panic if `key` or `input` is
shorter than announced. If `inlen + n + keylen` does not fit a `u32`, the sum panics in a checked build, and otherwise
the wrapped buffer is too short for the loops: a panic as well. -/
def coreHash (S : Sha256) (hf : HashFn) (type : Nat) (key : Bytes) (keylen : Nat) (inp : Bytes) (inlen : Nat) : Res Bytes := do
  if inlen + 32 + keylen ≥ 2 ^ 32 then panic
  else
    let k ← slice key 0 keylen
    let m ← slice inp 0 inlen
    let buf := toByte type 32 ++ k ++ m
    match hf with
    | .shake_128 => fipsShake128 32 buf (inlen + keylen + 32)
    | .shake_256 => fipsShake256 32 buf (inlen + keylen + 32)
    | .sha2_256 => ok (sha2_256 S buf)

/-- `prf`, src/rust_wrapper/xmss_alt/hash.rs:87-89, with `keylen = 32`. -/
def prf (S : Sha256) (hf : HashFn) (inp key : Bytes) : Res Bytes := coreHash S hf 3 key 32 inp 32

/-- `h_msg`, src/rust_wrapper/xmss_alt/hash.rs:94-120, with `n = 32` and a 96-byte key (both callers). The conversion of
`inlen` to `u32` panics for messages of `2^32` bytes or more. -/
def hMsg (S : Sha256) (hf : HashFn) (inp key : Bytes) : Res Bytes :=
  if inp.length ≥ 2 ^ 32 then panic
  else coreHash S hf 2 key 96 inp inp.length

/-- `buf[i] = input[i] ^ bitmask[i]`, src/rust_wrapper/xmss_alt/hash.rs:150-152 and 177-179. -/
def xorBytes (a b : Bytes) : Bytes := List.zipWith (· ^^^ ·) a b

/-- `hash_h`, src/rust_wrapper/xmss_alt/hash.rs:125-154: the node and the mutated address. `inp` consists of two 32-byte
slots. -/
def hashH (S : Sha256) (hf : HashFn) (inp pubSeed : Bytes) (addr : Adrs) : Res (Bytes × Adrs) := do
  let addr := setKeyAndMask addr 0
  let key ← prf S hf (adrsBytes addr) pubSeed
  let addr := setKeyAndMask addr 1
  let mask0 ← prf S hf (adrsBytes addr) pubSeed
  let addr := setKeyAndMask addr 2
  let mask1 ← prf S hf (adrsBytes addr) pubSeed
  let buf := xorBytes inp (mask0 ++ mask1)
  let out ← coreHash S hf 1 key 32 buf buf.length
  ok (out, addr)

/-- `hash_f`, src/rust_wrapper/xmss_alt/hash.rs:156-181: the value and the mutated address. `inp` is a 32-byte slot. -/
def hashF (S : Sha256) (hf : HashFn) (inp pubSeed : Bytes) (addr : Adrs) : Res (Bytes × Adrs) := do
  let addr := setKeyAndMask addr 0
  let key ← prf S hf (adrsBytes addr) pubSeed
  let addr := setKeyAndMask addr 1
  let mask ← prf S hf (adrsBytes addr) pubSeed
  let buf := xorBytes inp mask
  let out ← coreHash S hf 0 key 32 buf buf.length
  ok (out, addr)

end Qrl.Rs
