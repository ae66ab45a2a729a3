import Verif.Spec.History
/-!
# What a signer has given away over a history
-/

namespace Qrl.Spec

/-- The messages and signatures of the `sign` calls of a history that returned. -/
def signedPairs (cs : List Call) (rs : List Reply) : List (Bytes × Bytes) :=
  (cs.zip rs).filterMap fun
    | (.sign m, .sig s) => some (m, s)
    | _ => none

end Qrl.Spec
