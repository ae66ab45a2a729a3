import Verif.Model.Keccak
/-!
# src/xmss-alt/hash_address.c and src/xmss-alt/hash.c
-/

namespace Qrl

open Outcome

/-- `uint32_t adrs[8]`, the mutable hash address of src/xmss-alt/hash_address.c.
The words are natural numbers; every caller passes values below 2^32, and only the low 32 bits of a word
are ever observed (`addr_to_byte` writes 4 bytes), so the `uint32_t` truncation is not written out.
The setters are src/xmss-alt/hash_address.c:15-63. -/
structure Adrs where
  w0 : Nat := 0
  w1 : Nat := 0
  w2 : Nat := 0
  w3 : Nat := 0
  w4 : Nat := 0
  w5 : Nat := 0
  w6 : Nat := 0
  w7 : Nat := 0
  deriving DecidableEq, Repr

namespace Adrs

/-- `setType`, src/xmss-alt/hash_address.c:24-30. -/
def setType (a : Adrs) (t : Nat) : Adrs := { a with w3 := t, w4 := 0, w5 := 0, w6 := 0, w7 := 0 }
/-- `setKeyAndMask`, src/xmss-alt/hash_address.c:32-34. -/
def setKeyAndMask (a : Adrs) (v : Nat) : Adrs := { a with w7 := v }
/-- `setOTSADRS`, src/xmss-alt/hash_address.c:38-40. -/
def setOTS (a : Adrs) (v : Nat) : Adrs := { a with w4 := v }
/-- `setChainADRS`, src/xmss-alt/hash_address.c:42-44. -/
def setChain (a : Adrs) (v : Nat) : Adrs := { a with w5 := v }
/-- `setHashADRS`, src/xmss-alt/hash_address.c:46-48. -/
def setHash (a : Adrs) (v : Nat) : Adrs := { a with w6 := v }
/-- `setLtreeADRS`, src/xmss-alt/hash_address.c:52-54. -/
def setLtree (a : Adrs) (v : Nat) : Adrs := { a with w4 := v }
/-- `setTreeHeight`, src/xmss-alt/hash_address.c:58-60. -/
def setTreeHeight (a : Adrs) (v : Nat) : Adrs := { a with w5 := v }
/-- `setTreeIndex`, src/xmss-alt/hash_address.c:62-64. -/
def setTreeIndex (a : Adrs) (v : Nat) : Adrs := { a with w6 := v }

/-- `memcpy(fresh, addr, 12)` followed by `setType(fresh, t)`, e.g. src/xmss-alt/algsxmss.c:76-82:
the first three words are copied, the others are then all set. -/
def derive (a : Adrs) (t : Nat) : Adrs := ({ w0 := a.w0, w1 := a.w1, w2 := a.w2 } : Adrs).setType t

/-- `addr_to_byte` (little-endian branch), src/xmss-alt/hash.c:14-24. -/
def toBytes (a : Adrs) : Bytes :=
  toByte a.w0 4 ++ toByte a.w1 4 ++ toByte a.w2 4 ++ toByte a.w3 4 ++
  toByte a.w4 4 ++ toByte a.w5 4 ++ toByte a.w6 4 ++ toByte a.w7 4

end Adrs

/-- The supported values of `eHashFunction`, src/xmss-alt/eHashFunctions.h:3-7. -/
inductive HashFn where
  | sha2_256
  | shake_128
  | shake_256
  deriving DecidableEq, Repr

/-- Enumerator values, src/xmss-alt/eHashFunctions.h:4-6. -/
def HashFn.toNat : HashFn → Nat
  | .sha2_256 => 0
  | .shake_128 => 1
  | .shake_256 => 2

/-- The supported hash function with this enumerator value, if any.
The enumerators of src/xmss-alt/eHashFunctions.h:3-7. -/
def HashFn.ofNat? : Nat → Option HashFn
  | 0 => some .sha2_256
  | 1 => some .shake_128
  | 2 => some .shake_256
  | _ => none

/-- `core_hash`, src/xmss-alt/hash.c:26-85, for an arbitrary enum value `hf` and parameter `n`.
`none` means: returns 1 without having written `out`. -/
def coreHashRaw (S : Sha256) (hf : Nat) (type : Nat) (key inp : Bytes) (n : Nat) : Option Bytes :=
  let buf := toByte type n ++ key ++ inp
  if hf = 1 ∧ n = 32 then some (shake128 32 buf)
  else if hf = 1 ∧ n = 64 then some (shake128 64 buf)
  else if hf = 2 ∧ n = 32 then some (shake256 32 buf)
  else if hf = 2 ∧ n = 64 then some (shake256 64 buf)
  else if hf = 0 ∧ n = 32 then some (S.hash buf)
  else none

/-- The hash primitive selected by `hash_func` with 32-byte output:
src/xmss-alt/hash.c:53, 66, 79. -/
def HashFn.prim (S : Sha256) : HashFn → Bytes → Bytes
  | .sha2_256, m => S.hash m
  | .shake_128, m => shake128 32 m
  | .shake_256, m => shake256 32 m

/-- `core_hash` for a supported hash function and `n = 32`, src/xmss-alt/hash.c:26-85
(the only `n` used by the library; `coreHashRaw_supported` relates the two). -/
def coreHash (S : Sha256) (hf : HashFn) (type : Nat) (key inp : Bytes) : Bytes :=
  hf.prim S (toByte type 32 ++ key ++ inp)

theorem coreHashRaw_supported (S : Sha256) (hf : HashFn) (type : Nat) (key inp : Bytes) :
    coreHashRaw S hf.toNat type key inp 32 = some (coreHash S hf type key inp) := by
  cases hf <;> simp [coreHashRaw, HashFn.toNat, coreHash, HashFn.prim]

theorem coreHashRaw_unsupported (S : Sha256) (hf type : Nat) (key inp : Bytes)
    (h : HashFn.ofNat? hf = none) : coreHashRaw S hf type key inp 32 = none := by
  match hf, h with
  | n + 3, _ => simp [coreHashRaw]

/-- `prf`, src/xmss-alt/hash.c:90-95 (`inlen = 32`, `keylen = n = 32`). -/
def prf (S : Sha256) (hf : HashFn) (inp key : Bytes) : Bytes := coreHash S hf 3 key inp

/-- `h_msg`, src/xmss-alt/hash.c:100-108 with `keylen = 3 * n` (both callers). -/
def hMsg (S : Sha256) (hf : HashFn) (inp key : Bytes) : Bytes := coreHash S hf 2 key inp

/-- `buf[i] = in[i] ^ bitmask[i]`, src/xmss-alt/hash.c:133-135 and 156-158. -/
def xorBytes (a b : Bytes) : Bytes := List.zipWith (· ^^^ ·) a b

/-- `hash_h`, src/xmss-alt/hash.c:113-137: returns the node and the mutated address. -/
def hashH (S : Sha256) (hf : HashFn) (inp pubSeed : Bytes) (addr : Adrs) : Bytes × Adrs :=
  let addr := addr.setKeyAndMask 0
  let key := prf S hf addr.toBytes pubSeed
  let addr := addr.setKeyAndMask 1
  let mask0 := prf S hf addr.toBytes pubSeed
  let addr := addr.setKeyAndMask 2
  let mask1 := prf S hf addr.toBytes pubSeed
  let buf := xorBytes inp (mask0 ++ mask1)
  (coreHash S hf 1 key buf, addr)

/-- `hash_f`, src/xmss-alt/hash.c:139-160: returns the value and the mutated address. -/
def hashF (S : Sha256) (hf : HashFn) (inp pubSeed : Bytes) (addr : Adrs) : Bytes × Adrs :=
  let addr := addr.setKeyAndMask 0
  let key := prf S hf addr.toBytes pubSeed
  let addr := addr.setKeyAndMask 1
  let mask := prf S hf addr.toBytes pubSeed
  let buf := xorBytes inp mask
  (coreHash S hf 0 key buf, addr)

end Qrl
