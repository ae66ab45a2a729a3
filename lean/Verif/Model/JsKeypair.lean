import Verif.Model.Basic
/-!
# src/jswrapper/jskybwrapper.cpp:98-104 and src/jswrapper/jsdilwrapper.cpp:95-101

Two functions exported to JavaScript. Each takes two single bytes (not pointers) and its body is a call of itself: in the
anonymous namespace the name of the function hides the function of the same name in the reference library, and the argument types
`unsigned char` would not fit that one anyway. A call that never returns is `none`: the definitions are the least solutions of the
recursive equations.
-/

namespace Qrl.Js

/-- `crypto_kem_keypair(unsigned char pk, unsigned char sk)`, src/jswrapper/jskybwrapper.cpp:98-104. -/
def cryptoKemKeypair (pk sk : UInt8) : Option Int := do
  cryptoKemKeypair pk sk
partial_fixpoint

/-- `crypto_sign_keypair(unsigned char pk, unsigned char sk)`, src/jswrapper/jsdilwrapper.cpp:95-101. -/
def cryptoSignKeypair (pk sk : UInt8) : Option Int := do
  cryptoSignKeypair pk sk
partial_fixpoint

end Qrl.Js
