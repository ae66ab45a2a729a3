import Verif.Model.RustApi
import Verif.Spec.Counter
import Verif.Spec.Rust
/-!
# Histories of calls on a Rust signer

The calls and replies are those of `Verif.Spec.History`; `Err(InvalidArgument)` is the reply `threw invalidArgument`
(`Err(FailedConversion)`, which no signer call gives, would be `threw runtimeError`). A panic ends the history: `none`.
-/

namespace Qrl.Rs

/-- An `Err` as a reply. -/
def Err.reply : Err → Reply
  | .invalidArgument => .threw .invalidArgument
  | .failedConversion => .threw .runtimeError

/-- One call on an `XMSSFast`; `none` is a panic. -/
def XMSSFast.call (b : Build) (S : Sha256) (o : XMSSFast) : Call → Option (Reply × XMSSFast)
  | .setIndex n => match o.setIndex b S n.toNat with
    | .ret i o' => some (.index i, o')
    | .fail e o' => some (e.reply, o')
    | .panic => none
  | .sign m => match o.sign b S m with
    | .ret s o' => some (.sig s, o')
    | .fail e o' => some (e.reply, o')
    | .panic => none

/-- One call on an `XMSSBasic`; a failing call leaves the object as it was. -/
def XMSSBasic.call (b : Build) (S : Sha256) (o : XMSSBasic) : Call → Option (Reply × XMSSBasic)
  | .setIndex n => match o.setIndex n.toNat with
    | .ok (i, base) => some (.index i, { o with toXMSSBase := base })
    | .err e => some (e.reply, o)
    | .panic => none
  | .sign m => match o.sign b S m with
    | .ok (s, o') => some (.sig s, o')
    | .err e => some (e.reply, o)
    | .panic => none

end Qrl.Rs

namespace Qrl.Spec

/-- The ideal counter of `Verif.Spec.Counter` with a signing function that may panic (`none`). -/
def partialRun (limit : Nat) (σ : Nat → Bytes → Option Bytes) : Nat → List Call → Option (List Reply × Nat)
  | i, [] => some ([], i)
  | i, .setIndex n :: cs =>
    if i ≤ n.toNat ∧ n.toNat < limit then
      (partialRun limit σ n.toNat cs).map fun x => (.index n.toNat :: x.1, x.2)
    else (partialRun limit σ i cs).map fun x => (.threw .invalidArgument :: x.1, x.2)
  | i, .sign m :: cs =>
    if i < limit then
      match σ i m with
      | none => none
      | some s => (partialRun limit σ (i + 1) cs).map fun x => (.sig s :: x.1, x.2)
    else (partialRun limit σ i cs).map fun x => (.threw .invalidArgument :: x.1, x.2)

/-- The unchecked counter of `Verif.Spec.Loose` with a signing function that may panic: `setIndex` accepts everything,
`sign` panics beyond the last one-time key. -/
def partialLoose (limit : Nat) (σ : Nat → Bytes → Option Bytes) : Nat → List Call → Option (List Reply × Nat)
  | i, [] => some ([], i)
  | _, .setIndex n :: cs => (partialLoose limit σ n.toNat cs).map fun x => (.index n.toNat :: x.1, x.2)
  | i, .sign m :: cs =>
    if i < limit then
      match σ i m with
      | none => none
      | some s => (partialLoose limit σ (i + 1) cs).map fun x => (.sig s :: x.1, x.2)
    else none

end Qrl.Spec
