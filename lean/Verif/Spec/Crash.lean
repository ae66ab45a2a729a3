import Verif.Spec.Counter
/-!
# A wallet that can crash

The wallet keeps two things on disk: the extended seed, and an index it saves from time to time. The signer object
lives in memory. After a crash the wallet rebuilds the object from the extended seed and calls `setIndex` with the
saved index; if that throws, the wallet stops.
-/

namespace Qrl.Spec

/-- What can happen to the wallet. -/
inductive Event where
  /-- a call on the object in memory -/
  | call (c : Call)
  /-- the wallet writes an index to disk -/
  | save (n : UInt32)
  /-- memory is lost; the wallet restarts from what is on disk -/
  | crash
  deriving DecidableEq, Repr

/-- The object in memory and what is on disk. -/
structure Wallet where
  object : XmssFast
  extendedSeed : Bytes
  saved : UInt32

/-- One event: the reply (of a call), and the wallet afterwards (`none` inside: the wallet has stopped).
The outer `none` is undefined behaviour. -/
def Wallet.step (S : Sha256) (v : Wallet) : Event → Option (Option Reply × Option Wallet)
  | .call c => match XmssFast.call S v.object c with
    | none => none
    | some (r, o) => some (some r, some { v with object := o })
  | .save n => some (none, some { v with saved := n })
  | .crash => match XmssFast.fromExtendedSeed S v.extendedSeed with
    | .ub => none
    | .throw _ => some (none, none)
    | .ok o => match o.setIndex S v.saved.toNat with
      | .ub => none
      | .raise _ _ => some (none, none)
      | .ret _ o' => some (none, some { v with object := o' })

/-- All replies given over a sequence of events, and the wallet at the end (`none`: it has stopped). -/
def Wallet.run (S : Sha256) : Wallet → List Event → Option (List Reply × Option Wallet)
  | v, [] => some ([], some v)
  | v, e :: es => match v.step S e with
    | none => none
    | some (r, none) => some (r.toList, none)
    | some (r, some v') => match v'.run S es with
      | none => none
      | some (rs, v'') => some (r.toList ++ rs, v'')

/-- The wallet writes ahead: whenever it signs, the index on disk is already beyond the one `getIndex()` reports, and
the index on disk is never lowered. -/
def Wallet.WritesAhead (S : Sha256) : Wallet → List Event → Prop
  | _, [] => True
  | v, e :: es =>
    (match e with
      | .call (.sign _) => ∀ i, v.object.getIndex = .ok i → i < v.saved.toNat
      | .call (.setIndex _) => True
      | .save n => v.saved.toNat ≤ n.toNat
      | .crash => True) ∧
    match v.step S e with
    | some (_, some v') => Wallet.WritesAhead S v' es
    | _ => True

/-- One event of the ideal wallet: counter value `i`, saved index `j`. A restart takes the saved index as the counter
value, or stops if there is no such one-time key. -/
def walletStep (limit : Nat) (σ : Nat → Bytes → Bytes) (i : Nat) (j : UInt32) :
    Event → Option Reply × Option (Nat × UInt32)
  | .call c => (some (counterCall limit σ i c).1, some ((counterCall limit σ i c).2, j))
  | .save n => (none, some (i, n))
  | .crash => if j.toNat < limit then (none, some (j.toNat, j)) else (none, none)

/-- All replies of the ideal wallet, and its final counter and saved index (`none`: it has stopped). -/
def walletRun (limit : Nat) (σ : Nat → Bytes → Bytes) :
    Nat → UInt32 → List Event → List Reply × Option (Nat × UInt32)
  | i, j, [] => ([], some (i, j))
  | i, j, e :: es => match walletStep limit σ i j e with
    | (r, none) => (r.toList, none)
    | (r, some (i', j')) =>
      let (rs, end_) := walletRun limit σ i' j' es
      (r.toList ++ rs, end_)

end Qrl.Spec
