import Verif.Model.Basic
/-!
# src/jswrapper/getRandomSeed.js
-/

namespace Qrl

/-- The exceptions of `getRandomSeed`.
src/jswrapper/getRandomSeed.js:15, 24, 28 and 41. -/
inductive JsRandErr where
  | badSize | noCrypto | platform | allZero
  deriving DecidableEq, Repr

/-- `crypto.getRandomValues` of the platform: for a requested length the bytes written, or `none` when the call throws
(for instance for more than 65536 bytes). The bytes written are as many as requested.
Called at src/jswrapper/getRandomSeed.js:28. -/
structure JsCrypto where
  values : Nat → Option Bytes
  length_values : ∀ n b, values n = some b → b.length = n

/-- `for (var i = 0; i < size; i++) if (bytes[i] !== 0) { allZero = false; break; }`,
src/jswrapper/getRandomSeed.js:34-39. -/
def allZeroLoop : Bytes → Bool
  | [] => true
  | b :: bs => if b ≠ 0 then false else allZeroLoop bs

/-- `for (var j = 0; j < size; j++) vec.push_back(bytes[j])`, src/jswrapper/getRandomSeed.js:46-48. -/
def pushLoop : Bytes → Bytes → Bytes
  | vec, [] => vec
  | vec, b :: bs => pushLoop (vec ++ [b]) bs

/-- `Module['getRandomSeed'](size)`, src/jswrapper/getRandomSeed.js:10-50. `size` is `undefined` (`none`) or an integer;
`crypto` is `none` where no `crypto.getRandomValues` exists. Not modelled: a `size` that is no integer. -/
def jsGetRandomSeed (crypto : Option JsCrypto) (size : Option Int) : Except JsRandErr Bytes :=
  let size := size.getD 48
  if ¬ size > 0 then .error .badSize
  else match crypto with
    | none => .error .noCrypto
    | some c => match c.values size.toNat with
      | none => .error .platform
      | some bytes =>
        if size ≥ 16 ∧ allZeroLoop bytes = true then .error .allZero
        else .ok (pushLoop [] bytes)

end Qrl
