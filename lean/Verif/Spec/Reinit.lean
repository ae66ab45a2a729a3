import Verif.Spec.Counter
/-!
# Histories that also call the public `initialize_tree(w)`

The ideal object has a Winternitz parameter and a counter. `initialize_tree(w)` sets the parameter and puts the
counter back to zero; nothing else changes the parameter.
-/

namespace Qrl

/-- A call on an `XmssFast`, with the public `initialize_tree` (src/qrl/xmssFast.h:14). -/
inductive FullCall where
  | basic (c : Call)
  | initializeTree (w : Nat)
  deriving DecidableEq, Repr

/-- What a call gave; `none` for `initialize_tree`, which returns nothing. -/
abbrev FullReply := Option Reply

/-- One call on an `XmssFast`; `none` is undefined behaviour. -/
def XmssFast.fullCall (S : Sha256) (o : XmssFast) : FullCall → Option (FullReply × XmssFast)
  | .basic c => match o.call S c with
    | some (r, o') => some (some r, o')
    | none => none
  | .initializeTree w => match o.initializeTree S w with
    | .ret () o' => some (none, o')
    | .raise e o' => some (some (.threw e), o')
    | .ub => none

/-- A history of such calls. -/
def runFull (S : Sha256) : XmssFast → List FullCall → Option (List FullReply × XmssFast)
  | o, [] => some ([], o)
  | o, c :: cs =>
    match o.fullCall S c with
    | none => none
    | some (r, o') =>
      match runFull S o' cs with
      | none => none
      | some (rs, o'') => some (r :: rs, o'')

namespace Spec

/-- One call on the ideal object with parameter `w` and counter `i`; `σ w i m` is the signature of `m` with one-time
key `i` of the key pair for `w`. -/
def fullCall (limit : Nat) (σ : Nat → Nat → Bytes → Bytes) (w i : Nat) : FullCall → FullReply × Nat × Nat
  | .basic c => (some (counterCall limit (σ w) i c).1, w, (counterCall limit (σ w) i c).2)
  | .initializeTree w' => (none, w', 0)

/-- A history on the ideal object: replies, final parameter and counter. -/
def fullRun (limit : Nat) (σ : Nat → Nat → Bytes → Bytes) : Nat → Nat → List FullCall → List FullReply × Nat × Nat
  | w, i, [] => ([], w, i)
  | w, i, c :: cs =>
    let (r, w', i') := fullCall limit σ w i c
    let (rs, w'', i'') := fullRun limit σ w' i' cs
    (r :: rs, w'', i'')

/-- Every `initialize_tree` in the history gets one of the Winternitz parameters 2, 4, 16, 256. -/
def SupportedW (cs : List FullCall) : Prop :=
  ∀ w, FullCall.initializeTree w ∈ cs → w = 2 ∨ w = 4 ∨ w = 16 ∨ w = 256

end Spec

end Qrl
