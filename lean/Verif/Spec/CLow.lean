import Verif.Spec.Sig
import Verif.Model.CLow
/-!
# What the functions of src/xmss-alt do on the caller's buffers: specification (C89)
-/

namespace Qrl.Spec

/-- A signature made with one-time key `idx` from the parts of a key buffer: the message digest is keyed with the root that the
buffer holds, and the authentication path is that of leaf `leaf`. -/
def bufferSignature (G : Bytes → Bytes) (w h : Nat) (skSeed skPrf seed root : Bytes) (idx leaf : Nat) (msg : Bytes) : Bytes :=
  let r := PRF G skPrf (be 32 idx)
  be 4 idx ++ r ++ (wotsSig G skSeed seed idx (wotsDigits w (digest G r root idx msg))).flatten ++
    (authPath G w (lenW w) skSeed seed h leaf).flatten

/-- The bytes of a signature. -/
def signatureSize (w h : Nat) : Nat := 36 + 32 * lenW w + 32 * h

/-- The signature written at counter `i`: the honest one while the tree has a leaf `i`; after that the one-time key `i`, which is not in
the tree, with the path of the last leaf. -/
def writtenAt (G : Bytes → Bytes) (w h : Nat) (skSeed skPrf ps : Bytes) (i : Nat) (m : Bytes) : Bytes :=
  if i < 2 ^ h then signature G w h skSeed skPrf ps i m
  else bufferSignature G w h skSeed skPrf ps (node G w (lenW w) skSeed ps h 0) i (2 ^ h - 1) m

/-- The fast functions as a counter that `xmssfast_Signmsg` advances without looking at its limit: a buffer that is too short is
undefined (`none`), `xmssfast_update` refuses to go back and to go to the limit or beyond, everything else returns 0. `σ i m` is the
signature written at counter `i`. -/
def uncheckedRun (size limit : Nat) (σ : Nat → Bytes → Bytes) : Nat → List CCall → Option (List CReply × Nat)
  | i, [] => some ([], i)
  | i, .update n :: cs =>
    if n.toNat ≥ limit ∨ n.toNat < i then (uncheckedRun size limit σ i cs).map fun x => (.threw .invalidArgument :: x.1, x.2)
    else (uncheckedRun size limit σ n.toNat cs).map fun x => (.code 0 :: x.1, x.2)
  | i, .sign buf msg msglen :: cs =>
    if buf.length < size ∨ msg.length < msglen then none
    else (uncheckedRun size limit σ (i + 1) cs).map fun x => (.signed 0 (σ i (msg.take msglen) ++ buf.drop size) :: x.1, x.2)

end Qrl.Spec
