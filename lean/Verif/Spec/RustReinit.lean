import Verif.Spec.RustHistory
import Verif.Spec.Reinit
/-!
# Histories on a Rust signer that also call the public `initialize_tree`
-/

namespace Qrl.Rs

/-- One call; `none` is a panic. -/
def XMSSFast.fullCall (b : Build) (S : Sha256) (o : XMSSFast) : FullCall → Option (FullReply × XMSSFast)
  | .basic c => match o.call b S c with
    | some (r, o') => some (some r, o')
    | none => none
  | .initializeTree w => match o.initializeTree b S w with
    | .ret () o' => some (none, o')
    | .fail e o' => some (some e.reply, o')
    | .panic => none

/-- A history of such calls; a panic ends it. -/
def runFull (b : Build) (S : Sha256) : XMSSFast → List FullCall → Option (List FullReply × XMSSFast)
  | o, [] => some ([], o)
  | o, c :: cs =>
    match o.fullCall b S c with
    | none => none
    | some (r, o') =>
      match runFull b S o' cs with
      | none => none
      | some (rs, o'') => some (r :: rs, o'')

end Qrl.Rs

namespace Qrl.Spec

/-- The ideal object of `Verif.Spec.Reinit` (parameter `w`, counter `i`) with a signing function that may panic. -/
def partialFull (limit : Nat) (σ : Nat → Nat → Bytes → Option Bytes) :
    Nat → Nat → List FullCall → Option (List FullReply × Nat × Nat)
  | w, i, [] => some ([], w, i)
  | w, i, .basic (.setIndex n) :: cs =>
    if i ≤ n.toNat ∧ n.toNat < limit then
      (partialFull limit σ w n.toNat cs).map fun x => (some (.index n.toNat) :: x.1, x.2)
    else (partialFull limit σ w i cs).map fun x => (some (.threw .invalidArgument) :: x.1, x.2)
  | w, i, .basic (.sign m) :: cs =>
    if i < limit then
      match σ w i m with
      | none => none
      | some s => (partialFull limit σ w (i + 1) cs).map fun x => (some (.sig s) :: x.1, x.2)
    else (partialFull limit σ w i cs).map fun x => (some (.threw .invalidArgument) :: x.1, x.2)
  | _, _, .initializeTree w' :: cs => (partialFull limit σ w' 0 cs).map fun x => (none :: x.1, x.2)

end Qrl.Spec
