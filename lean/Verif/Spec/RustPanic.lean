import Verif.Model.RustPanic
import Verif.Spec.RustHistory
/-!
# Histories in which the program catches panics and goes on with the object

A reply `none` is a caught panic. Each call comes with the tree state a panic inside its rounds would leave (`torn`); only
`XMSSFast` has one, and the theorems hold whatever it is.
-/

namespace Qrl.Rs

/-- How a call ended, as a reply; `none` is a panic. -/
def Fate.reply {σ α : Type} (f : α → Reply) : Fate σ α → Option Reply × σ
  | .ret a s => (some (f a), s)
  | .fail e s => (some e.reply, s)
  | .panic s => (none, s)

/-- A call on an `XMSSFast` whose panic is caught. -/
def XMSSFast.caught (b : Build) (S : Sha256) (o : XMSSFast) : Call × BdsState → Option Reply × XMSSFast
  | (.setIndex n, torn) => (o.setIndexP b S torn n.toNat).reply .index
  | (.sign m, torn) => (o.signP b S torn m).reply .sig

/-- A call on an `XMSSBasic` whose panic is caught. `set_index` writes `sk[3]` first, so if it panics it has written
nothing. -/
def XMSSBasic.caught (b : Build) (S : Sha256) (o : XMSSBasic) : Call → Option Reply × XMSSBasic
  | .setIndex n => match o.setIndex n.toNat with
    | .ok (i, base) => (some (.index i), { o with toXMSSBase := base })
    | .err e => (some e.reply, o)
    | .panic => (none, o)
  | .sign m => (o.signP b S m).reply .sig

/-- A history of such calls: all the replies in order and the final object. -/
def runCaught {σ γ : Type} (call : σ → γ → Option Reply × σ) : σ → List γ → List (Option Reply) × σ
  | o, [] => ([], o)
  | o, c :: cs =>
    let x := call o c
    let y := runCaught call x.2 cs
    (x.1 :: y.1, y.2)

/-- The signatures among the replies, in order. -/
def caughtSignatures : List (Option Reply) → List Bytes
  | [] => []
  | some (.sig s) :: rs => s :: caughtSignatures rs
  | _ :: rs => caughtSignatures rs

end Qrl.Rs

namespace Qrl.Spec

/-- The unchecked counter whose `sign` may panic (`σ` gives `none`, or the index is past the limit): the panic has used up
the index all the same. Overflow: a `sign` at the largest `u32` panics without a change in a checked build (`wrap = false`)
and starts over at 0 otherwise. -/
def burningLoose (limit : Nat) (wrap : Bool) (σ : Nat → Bytes → Option Bytes) : Nat → List Call → List (Option Reply) × Nat
  | i, [] => ([], i)
  | _, .setIndex n :: cs =>
    let y := burningLoose limit wrap σ n.toNat cs
    (some (.index n.toNat) :: y.1, y.2)
  | i, .sign m :: cs =>
    let next := if i + 1 < 2 ^ 32 then i + 1 else if wrap then 0 else i
    let y := burningLoose limit wrap σ next cs
    ((if i < limit then (σ i m).map .sig else none) :: y.1, y.2)

end Qrl.Spec
