import Verif.Spec.Reuse
/-!
# Choosing the randomiser of a signature
-/

namespace Qrl.Spec

/-- The signature with its 32 bytes of randomness (bytes 4 to 35) replaced. -/
def withRandomiser (sig r : Bytes) : Bytes := sig.take 4 ++ r ++ sig.drop 36

end Qrl.Spec
