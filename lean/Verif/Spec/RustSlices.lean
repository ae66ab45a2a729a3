import Verif.Spec.CLow
import Verif.Spec.RustAny
/-!
# What the Rust crate's signing functions do on the caller's slices: specification (C91)
-/

namespace Qrl.Spec

/-- The bytes of a signature of the Rust crate. -/
def rustSize (w h : Nat) : Nat := 36 + 32 * rustLen w + 32 * h

/-- A signature made with one-time key `idx` from the parts of a key slice: the digest of the message as Rust sees it is keyed with
the root that the slice holds, and the authentication path is that of leaf `leaf`; `none`: panic. -/
def sliceSignature (b : Rs.Build) (S : Sha256) (f : HashFn) (w h : Nat) (skSeed skPrf seed root : Bytes) (idx leaf : Nat) (msg : Bytes) :
    Option Bytes := do
  let r := PRF (f.prim S) skPrf (be 32 idx)
  let m' ← rustSigned f (r ++ root ++ be 32 idx) msg
  let ds ← rustPositions b w (digest (f.prim S) r root idx m')
  some (be 4 idx ++ r ++ (wotsSig (f.prim S) skSeed seed idx ds).flatten ++
    (authPath (f.prim S) w (rustLen w) skSeed seed h leaf).flatten)

/-- The signature written at counter `i`: the one the signer classes make while the tree has a leaf `i`; after that the one-time key
`i`, which is not in the tree, with the path of the last leaf. -/
def sliceWrittenAt (b : Rs.Build) (S : Sha256) (f : HashFn) (w h : Nat) (skSeed skPrf ps : Bytes) (i : Nat) (m : Bytes) : Option Bytes :=
  if i < 2 ^ h then rustSignatureAny b S f w h skSeed skPrf ps i m
  else sliceSignature b S f w h skSeed skPrf ps (node (f.prim S) w (rustLen w) skSeed ps h 0) i (2 ^ h - 1) m

/-- The fast functions as a counter that `xmss_fast_sign_msg` advances without looking at its limit: a slice that is too short and a
message that cannot be signed panic (`none`), `xmss_fast_update` refuses to go back and to go to the limit or beyond, everything else
returns 0. -/
def sliceCounter (size limit : Nat) (σ : Nat → Bytes → Option Bytes) : Nat → List CCall → Option (List CReply × Nat)
  | i, [] => some ([], i)
  | i, .update n :: cs =>
    if n.toNat ≥ limit ∨ n.toNat < i then (sliceCounter size limit σ i cs).map fun x => (.threw .invalidArgument :: x.1, x.2)
    else (sliceCounter size limit σ n.toNat cs).map fun x => (.code 0 :: x.1, x.2)
  | i, .sign buf msg msglen :: cs =>
    if buf.length < size ∨ msg.length < msglen then none
    else (σ i (msg.take msglen)).bind fun s =>
      (sliceCounter size limit σ (i + 1) cs).map fun x => (.signed 0 (s ++ buf.drop size) :: x.1, x.2)

end Qrl.Spec
