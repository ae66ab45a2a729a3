import Verif.Model.JsKeypair
/-!
# C81: the exported key-pair functions never return
-/

namespace Qrl.Props

/-- C81, refuted: no call of the exported `crypto_kem_keypair` returns. -/
theorem C81_kem_keypair_refuted (pk sk : UInt8) (r : Int) : Js.cryptoKemKeypair pk sk ≠ some r := by
  intro h
  exact Js.cryptoKemKeypair.partial_correctness pk sk (fun _ => False) (fun _ ih r h => ih r h) r h

/-- C81, refuted: no call of the exported `crypto_sign_keypair` returns. -/
theorem C81_sign_keypair_refuted (pk sk : UInt8) (r : Int) : Js.cryptoSignKeypair pk sk ≠ some r := by
  intro h
  exact Js.cryptoSignKeypair.partial_correctness pk sk (fun _ => False) (fun _ ih r h => ih r h) r h

end Qrl.Props
