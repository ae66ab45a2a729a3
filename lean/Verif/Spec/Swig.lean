import Verif.Model.Swig
import Verif.Spec.History
import Verif.Spec.Counter
/-!
# Python and Go programs that use a signer and carry on after an error
-/

namespace Qrl.Spec

/-- One method call by a Python program that catches what it gets. -/
def pySigner (S : Sha256) (o : XmssFast) : Call → PyResult (Nat ⊕ Bytes) × XmssFast
  | .setIndex n => match pyMethod o (o.setIndex S n.toNat) with
    | (.value i, o') => (.value (.inl i), o')
    | (.valueError, o') => (.valueError, o')
    | (.runtimeError, o') => (.runtimeError, o')
    | (.undefined, o') => (.undefined, o')
  | .sign m => match pyMethod o (o.sign S m) with
    | (.value s, o') => (.value (.inr s), o')
    | (.valueError, o') => (.valueError, o')
    | (.runtimeError, o') => (.runtimeError, o')
    | (.undefined, o') => (.undefined, o')

def pyRun (S : Sha256) : XmssFast → List Call → List (PyResult (Nat ⊕ Bytes)) × XmssFast
  | o, [] => ([], o)
  | o, c :: cs =>
    let (r, o') := pySigner S o c
    let (rs, o'') := pyRun S o' cs
    (r :: rs, o'')

/-- One method call by a Go program that recovers from panics. -/
def goSigner (S : Sha256) (o : XmssFast) : Call → GoResult (Nat ⊕ Bytes) × XmssFast
  | .setIndex n => match goMethod o (o.setIndex S n.toNat) with
    | (.value i, o') => (.value (.inl i), o')
    | (.panic, o') => (.panic, o')
    | (.undefined, o') => (.undefined, o')
  | .sign m => match goMethod o (o.sign S m) with
    | (.value s, o') => (.value (.inr s), o')
    | (.panic, o') => (.panic, o')
    | (.undefined, o') => (.undefined, o')

def goRun (S : Sha256) : XmssFast → List Call → List (GoResult (Nat ⊕ Bytes)) × XmssFast
  | o, [] => ([], o)
  | o, c :: cs =>
    let (r, o') := goSigner S o c
    let (rs, o'') := goRun S o' cs
    (r :: rs, o'')

/-- What a Python program should see of an ideal reply. -/
def pyReply : Reply → PyResult (Nat ⊕ Bytes)
  | .index i => .value (.inl i)
  | .sig s => .value (.inr s)
  | .threw _ => .valueError

/-- What a Go program should see of an ideal reply. -/
def goReply : Reply → GoResult (Nat ⊕ Bytes)
  | .index i => .value (.inl i)
  | .sig s => .value (.inr s)
  | .threw _ => .panic

end Qrl.Spec
