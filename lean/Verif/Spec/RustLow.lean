import Verif.Spec.RustAny
/-!
# What the Rust sponge reads
-/

namespace Qrl.Spec

/-- What the Rust SHAKE with rate `r` absorbs when given `inp` and an announced length: below one block the first `inlen` bytes; below
two blocks the first block and then the beginning once more (so `inlen` may exceed the input); otherwise it panics. -/
def shakeReads (r : Nat) (inp : Bytes) (inlen : Nat) : Option Bytes :=
  if inlen < r then (if inlen ≤ inp.length then some (inp.take inlen) else none)
  else if inlen < 2 * r ∧ r ≤ inp.length then some (inp.take r ++ inp.take (inlen - r))
  else none

end Qrl.Spec
