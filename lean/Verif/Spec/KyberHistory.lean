import Verif.Model.Pq
import Verif.Model.RustPq
/-!
# Histories of calls on a Kyber object, in C++ and through the JS wrapper
-/

namespace Qrl.Spec

/-- A call that changes a Kyber object. `r` is the randomness the call consumes. -/
inductive KemCall (Rand : Type) where
  | encode (r : Rand) (otherPk : Bytes)
  | decode (cyphertext : Bytes)

/-- The argument has at least the size the primitive reads. -/
def KemCall.Fits (P : KemPrim) : KemCall P.Rand → Prop
  | .encode _ pk => P.pkBytes ≤ pk.length
  | .decode ct => P.ctBytes ≤ ct.length

def KemCall.isEncode {Rand : Type} : KemCall Rand → Bool
  | .encode _ _ => true
  | .decode _ => false

/-- The boolean a call returns, on an object with secret key `sk`. -/
def KemCall.verdict (P : KemPrim) (sk : Bytes) : KemCall P.Rand → Bool
  | .encode r pk => (P.enc r (pk.take P.pkBytes)).1 == 0
  | .decode ct => (P.dec (ct.take P.ctBytes) sk).1 == 0

/-- The key a call computes. -/
def KemCall.key (P : KemPrim) (sk : Bytes) : KemCall P.Rand → Bytes
  | .encode r pk => (P.enc r (pk.take P.pkBytes)).2.2
  | .decode ct => (P.dec (ct.take P.ctBytes) sk).2

/-- The cypher text an `encode` produces. -/
def KemCall.ct (P : KemPrim) : KemCall P.Rand → Bytes
  | .encode r pk => (P.enc r (pk.take P.pkBytes)).2.1
  | .decode _ => []

/-- One call on a C++ object. -/
def Kyber.call (P : KemPrim) (o : Kyber) : KemCall P.Rand → Outcome (Bool × Kyber)
  | .encode r pk => o.kemEncode P r pk
  | .decode ct => o.kemDecode P ct

/-- One call on a JS object: the arguments are text. -/
def Js.call (P : KemPrim) (o : Kyber) : KemCall P.Rand → Outcome (Bool × Kyber)
  | .encode r pk => Qrl.Js.kyberEncode P r o pk
  | .decode ct => Qrl.Js.kyberDecode P o ct

/-- A sequence of calls; an exception is caught by the caller and noted as `none`. The outer `none` is undefined behaviour. -/
def kemRun {C : Type} (call : Kyber → C → Outcome (Bool × Kyber)) : Kyber → List C → Option (List (Option Bool) × Kyber)
  | o, [] => some ([], o)
  | o, c :: cs => match call o c with
    | .ub => none
    | .throw _ => match kemRun call o cs with
      | none => none
      | some (bs, o') => some (none :: bs, o')
    | .ok (b, o1) => match kemRun call o1 cs with
      | none => none
      | some (bs, o') => some (some b :: bs, o')

/-- The argument of a call. -/
def KemCall.arg {Rand : Type} : KemCall Rand → Bytes
  | .encode _ t => t
  | .decode t => t

/-- The same call with its argument read from hex text, if it is hex. -/
def KemCall.ofText {Rand : Type} : KemCall Rand → Option (KemCall Rand)
  | .encode r t => match hstr2bin t with
    | .ok b => some (.encode r b)
    | _ => none
  | .decode t => match hstr2bin t with
    | .ok b => some (.decode b)
    | _ => none

/-- A sequence of calls on a Rust object. The arguments there are typed: a public key and a cypher text have their sizes. -/
def rustKemRun (P : Rs.KemCrate) (o : Rs.Kyber) (cs : List (KemCall P.Rand)) : Rs.Kyber :=
  cs.foldl (fun o c => match c with
    | .encode r pk => o.kemEncode P r pk
    | .decode ct => o.kemDecode P ct) o

/-- The secret a call computes in Rust. -/
def KemCall.rustSecret (P : Rs.KemCrate) (sk : Bytes) : KemCall P.Rand → Bytes
  | .encode r pk => (P.encapsulate r pk).1
  | .decode ct => P.decapsulate ct sk

/-- The cypher text an `encode` produces in Rust. -/
def KemCall.rustCt (P : Rs.KemCrate) : KemCall P.Rand → Bytes
  | .encode r pk => (P.encapsulate r pk).2
  | .decode _ => []

end Qrl.Spec
