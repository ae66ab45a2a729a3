import Verif.Spec.Rust
import Verif.Spec.LossyW
import Verif.Model.RustBasic
/-!
# The Rust port with any Winternitz parameter

Rust rounds the number of message chains up where C++ rounds down. When `⌊log2 w⌋` does not divide 8, a build with overflow
checks cannot cut a digest into positions, and one without keeps on cutting the same first byte.
-/

namespace Qrl.Spec

/-- Number of message chains: `256 / lgW w` rounded up. -/
def rustLen1 (w : Nat) : Nat := (256 + lgW w - 1) / lgW w
/-- Number of checksum chains. -/
def rustLen2 (w : Nat) : Nat := Nat.log2 (rustLen1 w * (w - 1)) / lgW w + 1
/-- Number of chains. -/
def rustLen (w : Nat) : Nat := rustLen1 w + rustLen2 w

/-- `k` chain positions, all cut out of the one byte `x`: the shift goes down by `lgW w` from position to position, modulo 8. -/
def oneByte (w k : Nat) (x : UInt8) : List Nat :=
  (List.range k).map fun j => (x.toNat / 2 ^ ((8 - lgW w * (j + 1) % 8) % 8)) &&& (w - 1)

/-- The chain positions of a digest when only its first byte, and the first byte of the checksum, are read. -/
def stuckPositions (w : Nat) (m : Bytes) : List Nat :=
  let ms := oneByte w (rustLen1 w) (m.headD 0)
  let csum := (ms.map fun d => w - 1 - d).sum
  let cs := be ((rustLen2 w * lgW w + 7) / 8) (csum * 2 ^ (8 - rustLen2 w * lgW w % 8))
  ms ++ oneByte w (rustLen2 w) (cs.headD 0)

/-- The chain positions of a digest in Rust; `none`: panic. -/
def rustPositions (b : Rs.Build) (w : Nat) (m : Bytes) : Option (List Nat) :=
  if UsableW w then some (positions w m)
  else match b with
    | .debug => none
    | .release => some (stuckPositions w m)

/-- The tree root recomputed from a signature whose digest has the chain positions `ds`. -/
def rootFromPositions (G : Bytes → Bytes) (w h : Nat) (seed sig : Bytes) (ds : List Nat) : Bytes :=
  let idx := byteVal (sig.take 4)
  let wpk := wotsPkFromSig G w seed idx (chunks sig 36 (rustLen w)) ds
  climb G seed 0 idx (ltree G seed idx 0 wpk) (chunks sig (36 + 32 * rustLen w) h)

/-- The signature with one-time key `idx` of a digest with the chain positions `ds`. -/
def signatureFrom (G : Bytes → Bytes) (w h : Nat) (skSeed skPrf seed : Bytes) (idx : Nat) (ds : List Nat) : Bytes :=
  be 4 idx ++ PRF G skPrf (be 32 idx) ++ (wotsSig G skSeed seed idx ds).flatten ++
    (authPath G w (rustLen w) skSeed seed h idx).flatten

/-- The parameters covered here. -/
def RangeW (w : Nat) : Prop := 2 ≤ w ∧ w < 2 ^ 16

instance (w : Nat) : Decidable (RangeW w) := inferInstanceAs (Decidable (_ ∧ _))

/-- What signing `m` with one-time key `idx` gives: the signature of the message the Rust hash sees, at the positions Rust
gives its digest; `none`: panic. -/
def rustSignatureAny (b : Rs.Build) (S : Sha256) (f : HashFn) (w h : Nat) (skSeed skPrf seed : Bytes) (idx : Nat) (m : Bytes) :
    Option Bytes := do
  let r := PRF (f.prim S) skPrf (be 32 idx)
  let root := node (f.prim S) w (rustLen w) skSeed seed h 0
  let m' ← rustSigned f (r ++ root ++ be 32 idx) m
  let ds ← rustPositions b w (digest (f.prim S) r root idx m')
  some (signatureFrom (f.prim S) w h skSeed skPrf seed idx ds)

/-- The root a verifier recomputes from a message (as Rust sees it) and a signature, under a key with root `root` and public
seed `seed`; `none`: panic. -/
def rustRootAny (b : Rs.Build) (S : Sha256) (f : HashFn) (w h : Nat) (root seed msg sig : Bytes) : Option Bytes := do
  let m' ← rustSigned f (keyInSig sig root) msg
  let ds ← rustPositions b w (digest (f.prim S) ((sig.drop 4).take 32) root (byteVal (sig.take 4)) m')
  some (rootFromPositions (f.prim S) w h seed sig ds)

end Qrl.Spec
