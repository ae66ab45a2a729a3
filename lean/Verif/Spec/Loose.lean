import Verif.Spec.History
/-!
# What the simple signer is: a counter without any check

`setIndex` accepts every 32-bit value, up or down; `sign` uses the current value as long as it names a one-time key,
and is undefined otherwise. Compare `Spec.counterCall`, the signer a user would want.
-/

namespace Qrl.Spec

/-- One call at counter value `i`; `none` is undefined behaviour. `σ i m` is the signature with one-time key `i`. -/
def looseCall (limit : Nat) (σ : Nat → Bytes → Bytes) (i : Nat) : Call → Option (Reply × Nat)
  | .setIndex n => some (.index n.toNat, n.toNat)
  | .sign m => if i < limit then some (.sig (σ i m), i + 1) else none

/-- A history: replies and final counter value; `none` as soon as some call is undefined. -/
def looseRun (limit : Nat) (σ : Nat → Bytes → Bytes) : Nat → List Call → Option (List Reply × Nat)
  | i, [] => some ([], i)
  | i, c :: cs =>
    match looseCall limit σ i c with
    | none => none
    | some (r, i') =>
      match looseRun limit σ i' cs with
      | none => none
      | some (rs, i'') => some (r :: rs, i'')

end Qrl.Spec
