import Verif.Model.Memory
/-!
# The ideal signer when memory runs out

A `sign` that finds no memory gives nothing and leaves the counter alone.
-/

namespace Qrl.Spec

/-- One call on the ideal signer. Allocation 0 of `sign` comes first of all; allocation 1 only if the counter allows signing. -/
def memCounterCall (limit : Nat) (σ : Nat → Bytes → Bytes) (i : Nat) (c : MemCall) : Option Reply × Nat :=
  match c.call with
  | .setIndex n => (some (counterCall limit σ i (.setIndex n)).1, (counterCall limit σ i (.setIndex n)).2)
  | .sign m =>
    if c.fail = some 0 ∨ (c.fail = some 1 ∧ i < limit) then (none, i)
    else (some (counterCall limit σ i (.sign m)).1, (counterCall limit σ i (.sign m)).2)

/-- A history on the ideal signer: replies (`none`: no memory) and final counter value. -/
def memCounterRun (limit : Nat) (σ : Nat → Bytes → Bytes) : Nat → List MemCall → List (Option Reply) × Nat
  | i, [] => ([], i)
  | i, c :: cs =>
    ((memCounterCall limit σ i c).1 :: (memCounterRun limit σ (memCounterCall limit σ i c).2 cs).1,
      (memCounterRun limit σ (memCounterCall limit σ i c).2 cs).2)

/-- The calls that did not run out of memory. -/
def survived : List MemCall → List (Option Reply) → List Call
  | c :: cs, some _ :: rs => c.call :: survived cs rs
  | _ :: cs, none :: rs => survived cs rs
  | _, _ => []

/-- Does the call on an `XmssBasic` get its memory? -/
def MemCall.fed (c : MemCall) : Bool :=
  match c.call with
  | .setIndex _ => true
  | .sign _ => !(c.fail == some 0 || c.fail == some 1)

/-- Index, randomiser and chain values of the signature of `msg` with one-time key 0 of the key that is all zeros. It depends on
nothing secret: everybody can compute it. -/
def zeroKeySignature (G : Bytes → Bytes) (w : Nat) (msg : Bytes) : Bytes :=
  let z := List.replicate 32 0
  let r := PRF G z (be 32 0)
  be 4 0 ++ r ++ (wotsSig G z z 0 (wotsDigits w (digest G r z 0 msg))).flatten

end Qrl.Spec
