import Verif.Spec.Calls
/-!
# The hash calls that lead to one chain value
-/

namespace Qrl.Spec

/-- The calls that compute the value of chain `ch` of one-time key `i` at position `d`, from the secret seed on. -/
def chainValueCalls (G : Bytes → Bytes) (sk ps : Bytes) (i ch d : Nat) : List HCall :=
  wotsSecretCalls G sk i ch ++ chainCalls G ps i ch 0 d (wotsSecret G sk i ch)

/-- That value. -/
def chainValue (G : Bytes → Bytes) (sk ps : Bytes) (i ch d : Nat) : Bytes :=
  chain G ps i ch 0 d (wotsSecret G sk i ch)

end Qrl.Spec
