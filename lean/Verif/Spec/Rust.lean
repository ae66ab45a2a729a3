import Verif.Spec.Sig
import Verif.Model.Hash
/-!
# What the Rust port hashes

The Rust sponge reads its last block from the beginning of the message and cannot absorb more than one full block. The
definitions here describe the effect in terms of the correct functions; they do not mention the model of the port.
-/

namespace Qrl.Spec

/-- The string whose correct SHAKE value (rate `rate` bytes) the Rust sponge returns for the message `m`; `none`: it
panics. -/
def rustAbsorbed (rate : Nat) (m : Bytes) : Option Bytes :=
  if m.length < rate then some m
  else if m.length < 2 * rate then some (m.take rate ++ m.take (m.length - rate))
  else none

/-- The message whose correct digest under the 96-byte key `key` the Rust message hash returns for the message `m`, with
`room` bytes of the first block left for the message; `none`: it panics. -/
def rustSeen (room : Nat) (key m : Bytes) : Option Bytes :=
  if m.length < room then some m
  else if m.length < 2 * room + 128 then
    some (m.take room ++ (be 32 2 ++ key ++ m.take room).take (m.length - room))
  else none

/-- The message the Rust port signs (or verifies) in place of `m`, when the hash key (randomizer, root and index) is
`key`; `none`: it panics. SHA-256 sees every message whose 128-byte prefix still lets the length fit 32 bits. -/
def rustSigned (hf : HashFn) (key m : Bytes) : Option Bytes :=
  match hf with
  | .sha2_256 => if m.length + 128 < 2 ^ 32 then some m else none
  | .shake_128 => rustSeen 40 key m
  | .shake_256 => rustSeen 8 key m

/-- Bytes of the first block left for the message by the message hash (SHAKE only). -/
def rustRoom : HashFn → Nat
  | .sha2_256 => 0
  | .shake_128 => 40
  | .shake_256 => 8

/-- The messages the Rust port hashes correctly. -/
def rustShort (hf : HashFn) (m : Bytes) : Prop :=
  match hf with
  | .sha2_256 => m.length + 128 < 2 ^ 32
  | _ => m.length < rustRoom hf

/-- The messages it hashes without looking past the first `rustRoom` bytes. -/
def rustCut (hf : HashFn) (m : Bytes) : Prop :=
  hf ≠ .sha2_256 ∧ rustRoom hf ≤ m.length ∧ m.length < 2 * rustRoom hf + 128

/-- The messages on which it panics. -/
def rustLong (hf : HashFn) (m : Bytes) : Prop :=
  match hf with
  | .sha2_256 => 2 ^ 32 ≤ m.length + 128
  | _ => 2 * rustRoom hf + 128 ≤ m.length

/-- The hash key of the signature with one-time key `idx`: randomizer, root, index. -/
def signKey (G : Bytes → Bytes) (w h : Nat) (skSeed skPrf seed : Bytes) (idx : Nat) : Bytes :=
  PRF G skPrf (be 32 idx) ++ node G w (lenW w) skSeed seed h 0 ++ be 32 idx

/-- The hash key a verifier reads from a signature, for a key with root `root`: randomizer, root, index. -/
def keyInSig (sig root : Bytes) : Bytes := (sig.drop 4).take 32 ++ root ++ be 32 (byteVal (sig.take 4))

end Qrl.Spec
