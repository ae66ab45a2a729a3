import Verif.Spec.RustAny
import Verif.Spec.RustHistory
/-!
# The Rust `XMSSBasic` in a build without overflow checks, at every index

`compute_authpath_wots` keeps the tree in an array: slot 1 is the root, the children of slot `s` are slots `2 s` and `2 s + 1`,
slot 0 is unused and holds zeros. The sibling at level `l` of the way up from leaf `i` should be in slot
`2^(h-l) + sibling (i / 2^l)`. The byte offset of the slot is a 32-bit number, so the slot that is read is this number modulo
`2^27`. The read panics if that slot is not in the array.
-/

namespace Qrl.Spec

/-- What slot `s` of the array of a tree of height `h` holds. -/
def slotBytes (G : Bytes → Bytes) (w len : Nat) (skSeed seed : Bytes) (h s : Nat) : Bytes :=
  if s = 0 then List.replicate 32 0 else node G w len skSeed seed (h - s.log2) (s - 2 ^ s.log2)

/-- The slot read for level `l` of the path of leaf `i`. -/
def wrapSlot (h i l : Nat) : Nat := (2 ^ (h - l) + sibling (i / 2 ^ l)) % 2 ^ 27

/-- All slots read for leaf `i` are in the array. -/
def WrapFits (h i : Nat) : Prop := ∀ l, l < h → wrapSlot h i l < 2 ^ (h + 1)

instance (h i : Nat) : Decidable (WrapFits h i) := inferInstanceAs (Decidable (∀ l, l < h → _))

/-- The path read for leaf `i`. -/
def wrapPath (G : Bytes → Bytes) (w len : Nat) (skSeed seed : Bytes) (h i : Nat) : List Bytes :=
  (List.range h).map fun l => slotBytes G w len skSeed seed h (wrapSlot h i l)

/-- What `sign` returns at index `i` of the tree of `seed`; `none`: panic. Index, randomizer and one-time signature are those of
one-time key `i`, whether or not it is in the tree; only the path goes wrong. -/
def wrapSignature (S : Sha256) (f : HashFn) (w h : Nat) (seed : Bytes) (i : Nat) (m : Bytes) : Option Bytes := do
  let skSeed := (shake256 96 seed).take 32
  let skPrf := ((shake256 96 seed).drop 32).take 32
  let pub := (shake256 96 seed).drop 64
  let r := PRF (f.prim S) skPrf (be 32 i)
  let root := node (f.prim S) w (rustLen w) skSeed pub h 0
  if WrapFits h i then
    let m' ← rustSigned f (r ++ root ++ be 32 i) m
    let ds ← rustPositions .release w (digest (f.prim S) r root i m')
    some (be 4 i ++ r ++ (wotsSig (f.prim S) skSeed pub i ds).flatten ++
      (wrapPath (f.prim S) w (rustLen w) skSeed pub h i).flatten)
  else none

/-- A counter of 32 bits without any check: `setIndex` accepts everything, `sign` adds one modulo `2^32`. -/
def wrapRun (σ : Nat → Bytes → Option Bytes) : Nat → List Call → Option (List Reply × Nat)
  | i, [] => some ([], i)
  | _, .setIndex n :: cs => (wrapRun σ n.toNat cs).map fun x => (.index n.toNat :: x.1, x.2)
  | i, .sign m :: cs =>
    match σ i m with
    | none => none
    | some s => (wrapRun σ ((i + 1) % 2 ^ 32) cs).map fun x => (.sig s :: x.1, x.2)

end Qrl.Spec
