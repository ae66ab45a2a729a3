import Verif.Model.XmssApi
import Verif.Spec.Sig
/-!
# Histories of calls on a signer

A client holds one object and makes calls on it, one after the other. A call returns a value, throws, or has
undefined behaviour; a client survives exceptions and goes on using the object.
-/

namespace Qrl

/-- A call on a signer. `setIndex` takes a `uint32_t`. -/
inductive Call where
  | setIndex (n : UInt32)
  | sign (msg : Bytes)
  deriving DecidableEq, Repr

/-- What a call gave. -/
inductive Reply where
  | index (n : Nat)
  | sig (s : Bytes)
  | threw (e : Exc)
  deriving DecidableEq, Repr

/-- One call on an `XmssFast`; `none` is undefined behaviour. -/
def XmssFast.call (S : Sha256) (o : XmssFast) : Call → Option (Reply × XmssFast)
  | .setIndex n => match o.setIndex S n.toNat with
    | .ret i o' => some (.index i, o')
    | .raise e o' => some (.threw e, o')
    | .ub => none
  | .sign m => match o.sign S m with
    | .ret s o' => some (.sig s, o')
    | .raise e o' => some (.threw e, o')
    | .ub => none

/-- One call on an `XmssBasic`; a throwing call leaves the object as it was. -/
def XmssBasic.call (S : Sha256) (o : XmssBase) : Call → Option (Reply × XmssBase)
  | .setIndex n => match o.setIndex n.toNat with
    | .ok (i, o') => some (.index i, o')
    | .throw e => some (.threw e, o)
    | .ub => none
  | .sign m => match XmssBasic.sign S o m with
    | .ok (s, o') => some (.sig s, o')
    | .throw e => some (.threw e, o)
    | .ub => none

/-- A history of calls: the replies in order and the final object; `none` if some call is undefined. -/
def runCalls {σ : Type} (call : σ → Call → Option (Reply × σ)) : σ → List Call → Option (List Reply × σ)
  | o, [] => some ([], o)
  | o, c :: cs =>
    match call o c with
    | none => none
    | some (r, o') =>
      match runCalls call o' cs with
      | none => none
      | some (rs, o'') => some (r :: rs, o'')

/-- The signatures among the replies. -/
def signatures : List Reply → List Bytes
  | [] => []
  | .sig s :: rs => s :: signatures rs
  | _ :: rs => signatures rs

/-- The one-time key index written in a signature: its first four bytes. -/
def sigIndex (s : Bytes) : Nat := Spec.byteVal (s.take 4)

end Qrl
