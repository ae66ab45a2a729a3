import Verif.Spec.Reinit
import Verif.Spec.LossyW
/-!
# Histories with `initialize_tree(w)` for every `w`

The ideal object of `Verif.Spec.Reinit`, with what happens outside the four supported parameters: a `w` in `CrashW`
cannot be set, and with a `w` not in `UsableW` nothing can be signed. `none` is undefined behaviour.
-/

namespace Qrl.Spec

/-- One call on the ideal object with parameter `w` and counter `i`; `σ w i m` is the signature of `m` with one-time
key `i` of the key pair for `w`. -/
def fullCallAny (limit : Nat) (σ : Nat → Nat → Bytes → Bytes) (w i : Nat) : FullCall → Option (FullReply × Nat × Nat)
  | .basic (.sign m) =>
    if i < limit then
      if UsableW w then some (some (.sig (σ w i m)), w, i + 1) else none
    else some (some (.threw .invalidArgument), w, i)
  | .basic (.setIndex n) =>
    if n.toNat < limit ∧ i ≤ n.toNat then some (some (.index n.toNat), w, n.toNat)
    else some (some (.threw .invalidArgument), w, i)
  | .initializeTree w' => if CrashW w' then none else some (none, w', 0)

/-- A history on the ideal object: replies, final parameter and counter. -/
def fullRunAny (limit : Nat) (σ : Nat → Nat → Bytes → Bytes) : Nat → Nat → List FullCall →
    Option (List FullReply × Nat × Nat)
  | w, i, [] => some ([], w, i)
  | w, i, c :: cs =>
    match fullCallAny limit σ w i c with
    | none => none
    | some (r, w', i') =>
      match fullRunAny limit σ w' i' cs with
      | none => none
      | some (rs, w'', i'') => some (r :: rs, w'', i'')

end Qrl.Spec
