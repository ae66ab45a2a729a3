import Verif.Spec.History
/-!
# The ideal stateful signer

A counter that only goes up: `sign` uses the current value and increments it, `setIndex` moves it forward;
both refuse to reach or pass `limit` one-time keys. Nothing here mentions trees or traversal state.
-/

namespace Qrl.Spec

/-- One call on the ideal signer with `limit` one-time keys at counter value `i`; `σ i m` is the signature with
one-time key `i`. -/
def counterCall (limit : Nat) (σ : Nat → Bytes → Bytes) (i : Nat) : Call → Reply × Nat
  | .setIndex n =>
    if i ≤ n.toNat ∧ n.toNat < limit then (.index n.toNat, n.toNat) else (.threw .invalidArgument, i)
  | .sign m => if i < limit then (.sig (σ i m), i + 1) else (.threw .invalidArgument, i)

/-- A history on the ideal signer: replies and final counter value. -/
def counterRun (limit : Nat) (σ : Nat → Bytes → Bytes) : Nat → List Call → List Reply × Nat
  | i, [] => ([], i)
  | i, c :: cs =>
    let (r, i') := counterCall limit σ i c
    let (rs, i'') := counterRun limit σ i' cs
    (r :: rs, i'')

end Qrl.Spec
