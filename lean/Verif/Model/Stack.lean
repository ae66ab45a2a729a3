import Verif.Model.XmssApi
/-!
# The automatic arrays of the C functions

Most C functions of `src/xmss-alt` keep their buffers in automatic arrays, several of a size known only at run time
(variable-length arrays, an extension of the compiler in C++). This file gives, for each function, the bytes of the arrays it
declares and the calls it makes while they are alive.

Simplifications: scalars, parameters, saved registers and return addresses are not counted, so a real stack needs more; all
arrays of a function are counted for the whole of it (those declared later are declared in the same block). How often a loop
runs is an argument where it depends on hash values (`ds`, `merges`): the theorems hold for all values. What the SHA-256
library (absent from the repository) needs is an argument, `sha`. The functions of `src/qrl` declare no arrays; they keep
their data in `std::vector`, on the heap.
-/

namespace Qrl

open Outcome

/-- A call: the bytes of the automatic arrays of the function, and the calls it makes, in order.
For instance of `core_hash`, src/xmss-alt/hash.c:26-85. -/
inductive Frame where
  | mk (bytes : Nat) (calls : List Frame)

/-- A call returns without running out of a stack that has `room` bytes left: its own arrays fit, and each call it makes fits
into what they leave. This is how src/xmss-alt/hash.c:35 and the other declarations use the stack. -/
def Frame.fits (room : Nat) : Frame → Bool
  | .mk bytes calls => decide (bytes ≤ room) && go (room - bytes) calls
where
  go (room : Nat) : List Frame → Bool
    | [] => true
    | f :: fs => f.fits room && go room fs

namespace Stk

/-- `shake128` and `shake256`, src/xmss-alt/fips202.c:367-409: `s` and `d`; `t` of `keccak_absorb`, 325-351. -/
def shake (rate : Nat) : Frame := .mk (25 * 8 + rate) [.mk 200 []]

/-- The hash function called by `core_hash`, src/xmss-alt/hash.c:48-80. -/
def prim (sha : Nat) : HashFn → Frame
  | .shake_128 => shake 168
  | .shake_256 => shake 136
  | .sha2_256 => .mk sha []

/-- `core_hash`, src/xmss-alt/hash.c:26-85: `buf` (line 35). -/
def coreHash (sha : Nat) (hf : HashFn) (keylen inlen : Nat) : Frame := .mk (inlen + 32 + keylen) [prim sha hf]

/-- `prf`, src/xmss-alt/hash.c:90-95. -/
def prf (sha : Nat) (hf : HashFn) : Frame := .mk 0 [coreHash sha hf 32 32]

/-- `h_msg`, src/xmss-alt/hash.c:100-108, on a message of `m` bytes. -/
def hMsg (sha : Nat) (hf : HashFn) (m : Nat) : Frame := .mk 0 [coreHash sha hf 96 m]

/-- `hash_h`, src/xmss-alt/hash.c:113-137: `buf`, `key`, `bitmask`, `byte_addr`. -/
def hashH (sha : Nat) (hf : HashFn) : Frame :=
  .mk (2 * 32 + 32 + 2 * 32 + 32) [prf sha hf, prf sha hf, prf sha hf, coreHash sha hf 32 (2 * 32)]

/-- `hash_f`, src/xmss-alt/hash.c:139-160: `buf`, `key`, `bitmask`, `byte_addr`. -/
def hashF (sha : Nat) (hf : HashFn) : Frame :=
  .mk (32 + 32 + 32 + 32) [prf sha hf, prf sha hf, coreHash sha hf 32 32]

/-- `expand_seed`, src/xmss-alt/wots.c:34-44: `ctr`. -/
def expandSeed (sha : Nat) (hf : HashFn) (len : Nat) : Frame := .mk 32 (List.replicate len (prf sha hf))

/-- `gen_chain`, src/xmss-alt/wots.c:53-69, `steps` steps. -/
def genChain (sha : Nat) (hf : HashFn) (steps : Nat) : Frame := .mk 0 (List.replicate steps (hashF sha hf))

/-- `wots_pkgen`, src/xmss-alt/wots.c:98-117. -/
def wotsPkgen (sha : Nat) (hf : HashFn) (p : WotsParams) : Frame :=
  .mk 0 (expandSeed sha hf p.len :: List.replicate p.len (genChain sha hf (p.w - 1)))

/-- The arrays of `wots_sign` and of `wots_pkFromSig`: `basew`, `csum_bytes`, `csum_basew`, src/xmss-alt/wots.c:127, 141, 144
and 174-177 (`int` has four bytes). -/
def digitArrays (p : WotsParams) : Nat := 4 * p.len + (p.len2 * p.logW + 7) / 8 + 4 * p.len2

/-- `wots_sign`, src/xmss-alt/wots.c:120-158, with digits `ds`. -/
def wotsSign (sha : Nat) (hf : HashFn) (p : WotsParams) (ds : List Nat) : Frame :=
  .mk (digitArrays p) (expandSeed sha hf p.len :: ds.map (genChain sha hf))

/-- `wots_pkFromSig`, src/xmss-alt/wots.c:160-200, with digits `ds`. -/
def wotsPkFromSig (sha : Nat) (hf : HashFn) (p : WotsParams) (ds : List Nat) : Frame :=
  .mk (digitArrays p) (ds.map fun d => genChain sha hf (p.w - 1 - d))

/-- `l_tree`, src/xmss-alt/xmss_common.c:45-75: one `hash_h` for each of the `len - 1` inner nodes. -/
def lTree (sha : Nat) (hf : HashFn) (p : WotsParams) : Frame := .mk 0 (List.replicate (p.len - 1) (hashH sha hf))

/-- `validate_authpath`, src/xmss-alt/xmss_common.c:80-127: `buffer`. -/
def validateAuthpath (sha : Nat) (hf : HashFn) (h : Nat) : Frame := .mk (2 * 32) (List.replicate h (hashH sha hf))

/-- `xmss_Verifysig`, src/xmss-alt/xmss_common.c:133-221: `wots_pk`, `pkhash`, `root`, `msg_h`, `hash_key`, `pub_seed` and three
addresses (lines 147-159). -/
def verifysig (sha : Nat) (hf : HashFn) (p : WotsParams) (m h : Nat) (ds : List Nat) : Frame :=
  .mk (p.keysize + 32 + 32 + 32 + 3 * 32 + 32 + 3 * 32)
    [hMsg sha hf m, wotsPkFromSig sha hf p ds, lTree sha hf p, validateAuthpath sha hf h]

/-- `get_seed`, src/xmss-alt/algsxmss.c:19-31 and its copy in algsxmss_fast.c:26-42: `bytes`. -/
def getSeed (sha : Nat) (hf : HashFn) : Frame := .mk 32 [prf sha hf]

/-- `gen_leaf_wots`, src/xmss-alt/algsxmss.c:37-51 and its copy in algsxmss_fast.c:71-86: `seed`, `pk`. -/
def genLeaf (sha : Nat) (hf : HashFn) (p : WotsParams) : Frame :=
  .mk (32 + p.keysize) [getSeed sha hf, wotsPkgen sha hf p, lTree sha hf p]

/-- `treehash`, src/xmss-alt/algsxmss.c:59-108: three addresses, `stack`, `stacklevels` (of `uint16_t`). -/
def treehash (sha : Nat) (hf : HashFn) (p : XmssParams) : Frame :=
  .mk (3 * 32 + (p.h + 1) * 32 + (p.h + 1) * 2)
    (List.replicate (2 ^ p.h) (genLeaf sha hf p.wots) ++ List.replicate (2 ^ p.h - 1) (hashH sha hf))

/-- `compute_authpath_wots`, src/xmss-alt/algsxmss.c:115-167: `tree` and three addresses. (Below height 26; above, the size of
`tree` overflows: C45.) -/
def computeAuthpath (sha : Nat) (hf : HashFn) (p : XmssParams) : Frame :=
  .mk (2 * 2 ^ p.h * 32 + 3 * 32)
    (List.replicate (2 ^ p.h) (genLeaf sha hf p.wots) ++ List.replicate (2 ^ p.h - 1) (hashH sha hf))

/-- `xmss_Genkeypair`, src/xmss-alt/algsxmss.c:170-197: `randombits`, `addr`. -/
def genkeypair (sha : Nat) (hf : HashFn) (p : XmssParams) : Frame := .mk (3 * 32 + 32) [shake 136, treehash sha hf p]

/-- `xmss_Signmsg`, src/xmss-alt/algsxmss.c:218-318: `sk_seed`, `sk_prf`, `pub_seed`, `idx_bytes_32`, `hash_key`, `R`, `msg_h`,
`root`, `ots_seed`, `ots_addr`. -/
def signmsg (sha : Nat) (hf : HashFn) (p : XmssParams) (m : Nat) (ds : List Nat) : Frame :=
  .mk (3 * 32 + 32 + 3 * 32 + 4 * 32 + 32)
    [prf sha hf, hMsg sha hf m, getSeed sha hf, wotsSign sha hf p.wots ds, computeAuthpath sha hf p]

/-- `treehash_setup`, src/xmss-alt/algsxmss_fast.c:104-182: three addresses, `stack`, `stacklevels` (of `unsigned int`). -/
def treehashSetup (sha : Nat) (hf : HashFn) (p : XmssParams) : Frame :=
  .mk (3 * 32 + (p.h + 1) * 32 + (p.h + 1) * 4)
    (List.replicate (2 ^ p.h) (genLeaf sha hf p.wots) ++ List.replicate (2 ^ p.h - 1) (hashH sha hf))

/-- `treehash_update`, src/xmss-alt/algsxmss_fast.c:184-230: three addresses, `nodebuffer`; a leaf and `merges` inner nodes. -/
def treehashUpdate (sha : Nat) (hf : HashFn) (p : XmssParams) (merges : Nat) : Frame :=
  .mk (3 * 32 + 2 * 32) (genLeaf sha hf p.wots :: List.replicate merges (hashH sha hf))

/-- `bds_treehash_update`, src/xmss-alt/algsxmss_fast.c:287-323: one `treehash_update` for each element of `merges`. -/
def bdsTreehashUpdate (sha : Nat) (hf : HashFn) (p : XmssParams) (merges : List Nat) : Frame :=
  .mk 0 (merges.map (treehashUpdate sha hf p))

/-- `bds_round`, src/xmss-alt/algsxmss_fast.c:413-489: `buf`, three addresses; a leaf at an even index, else an inner node. -/
def bdsRound (sha : Nat) (hf : HashFn) (p : XmssParams) (even : Bool) : Frame :=
  .mk (2 * 32 + 3 * 32) [if even then genLeaf sha hf p.wots else hashH sha hf]

/-- `xmssfast_Genkeypair`, src/xmss-alt/algsxmss_fast.c:496-531: `randombits`, `addr`. -/
def fastGenkeypair (sha : Nat) (hf : HashFn) (p : XmssParams) : Frame := .mk (3 * 32 + 32) [shake 136, treehashSetup sha hf p]

/-- One iteration of the loop of `xmssfast_update`, src/xmss-alt/algsxmss_fast.c:567-580, or the end of `xmssfast_Signmsg`,
685-688. -/
def step (sha : Nat) (hf : HashFn) (p : XmssParams) (r : Bool × List Nat) : List Frame :=
  [bdsRound sha hf p r.1, bdsTreehashUpdate sha hf p r.2]

/-- `xmssfast_update`, src/xmss-alt/algsxmss_fast.c:533-590: `sk_seed`, `pub_seed`, `ots_addr`; one element of `rs` for each index
skipped. -/
def fastUpdate (sha : Nat) (hf : HashFn) (p : XmssParams) (rs : List (Bool × List Nat)) : Frame :=
  .mk (32 + 32 + 32) (rs.flatMap (step sha hf p))

/-- `xmssfast_Signmsg`, src/xmss-alt/algsxmss_fast.c:592-700: `sk_seed`, `sk_prf`, `pub_seed`, `idx_bytes_32`, `hash_key`, `R`,
`msg_h`, `ots_seed`, `ots_addr`; `last`: the index is the last one. -/
def fastSignmsg (sha : Nat) (hf : HashFn) (p : XmssParams) (m : Nat) (ds : List Nat) (last : Bool) (r : Bool × List Nat) : Frame :=
  .mk (3 * 32 + 32 + 3 * 32 + 3 * 32 + 32)
    ([prf sha hf, hMsg sha hf m, getSeed sha hf, wotsSign sha hf p.wots ds] ++ if last then [] else step sha hf p r)

end Stk

/-- The checks of `XmssBase::verify` before it calls `xmss_Verifysig`, src/qrl/xmssBase.cpp:203-247: the arguments of that call, or
none if the answer is false. -/
def verifyReach (signature extendedPk : Bytes) (w : Nat) : Outcome (Option (HashFn × WotsParams × Nat)) :=
  catchInvalid (do
    if extendedPk.length ≠ 67 then .throw .invalidArgument
    else
      let base ← calculateSignatureBaseSize w
      if signature.length > base + 254 * 32 then .throw .invalidArgument
      else
        let desc ← Descriptor.fromExtendedPK extendedPk
        if desc.signatureType ≠ sigTypeXMSS then .ok none
        else
          let height ← getHeightFromSigSize signature.length w
          if height = 0 ∨ desc.height ≠ height then .ok none
          else if 2 ≥ height.toNat ∨ (height.toNat - 2) % 2 ≠ 0 then .throw .invalidArgument
          else
            let p ← xmssSetParams height.toNat w
            withHash desc.hashFunction fun hf => .ok (some (hf, p.wots, height.toNat))) none

/-- The calls of `XmssBase::verify`, src/qrl/xmssBase.cpp:203-259. -/
def verifyFrame (sha : Nat) (message signature extendedPk : Bytes) (w : Nat) (ds : List Nat) : Frame :=
  match verifyReach signature extendedPk w with
  | .ok (some (hf, p, h)) => .mk 0 [Stk.verifysig sha hf p message.length h ds]
  | _ => .mk 0 []

/-- The calls of `XmssFast::XmssFast(seed, height, …)`, src/qrl/xmssFast.cpp:8-66, once its checks are passed. -/
def fastNewFrame (sha : Nat) (hf : HashFn) (p : XmssParams) : Frame := .mk 0 [Stk.fastGenkeypair sha hf p]

/-- The calls of `XmssFast::setIndex`, src/qrl/xmssFast.cpp:68-77. -/
def fastSetIndexFrame (sha : Nat) (hf : HashFn) (p : XmssParams) (rs : List (Bool × List Nat)) : Frame :=
  .mk 0 [Stk.fastUpdate sha hf p rs]

/-- The calls of `XmssFast::sign`, src/qrl/xmssFast.cpp:79-95. -/
def fastSignFrame (sha : Nat) (hf : HashFn) (p : XmssParams) (m : Nat) (ds : List Nat) (last : Bool) (r : Bool × List Nat) :
    Frame :=
  .mk 0 [Stk.fastUpdate sha hf p [], Stk.fastSignmsg sha hf p m ds last r]

/-- The calls of `XmssBasic::XmssBasic`, src/qrl/xmssBasic.cpp:9-49, once its checks are passed. -/
def basicNewFrame (sha : Nat) (hf : HashFn) (p : XmssParams) : Frame := .mk 0 [Stk.genkeypair sha hf p]

/-- The calls of `XmssBasic::sign`, src/qrl/xmssBasic.cpp:52-63. -/
def basicSignFrame (sha : Nat) (hf : HashFn) (p : XmssParams) (m : Nat) (ds : List Nat) : Frame :=
  .mk 0 [Stk.signmsg sha hf p m ds]

end Qrl
