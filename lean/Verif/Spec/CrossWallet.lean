import Verif.Spec.Crash
import Verif.Spec.RustHistory
/-!
# A wallet whose process may be the C++ library or the Rust port, and may die at any point

On disk: the extended seed and a saved index. In memory of the running process, if there is one: a signer. A process may be
killed at any point, and a Rust panic also ends it. The next process may run the other implementation: it rebuilds the signer
from the extended seed and calls `setIndex` with the saved index.
-/

namespace Qrl.Spec

/-- The program a process runs: the C++ library, or the Rust port in one of its build modes. -/
inductive Program where
  | cpp
  | rust (b : Rs.Build)
  deriving DecidableEq, Repr

/-- The signer in the memory of the running process. -/
inductive Signer where
  | cpp (o : XmssFast)
  | rust (b : Rs.Build) (o : Rs.XMSSFast)

def Signer.program : Signer → Program
  | .cpp _ => .cpp
  | .rust b _ => .rust b

/-- What `getIndex()` reports. -/
def Signer.index : Signer → Option Nat
  | .cpp o => match o.getIndex with
    | .ok i => some i
    | _ => none
  | .rust _ o => match o.getIndex with
    | .ok i => some i
    | _ => none

/-- A call on the signer: `none` is undefined behaviour, `some none` a panic. -/
def Signer.call (S : Sha256) : Signer → Call → Option (Option (Reply × Signer))
  | .cpp o, c => match XmssFast.call S o c with
    | none => none
    | some (r, o') => some (some (r, .cpp o'))
  | .rust b o, c => match Rs.XMSSFast.call b S o c with
    | none => some none
    | some (r, o') => some (some (r, .rust b o'))

/-- The start of a process: `none` is undefined behaviour, `some none` a process that gave up. -/
def Program.restore (S : Sha256) (extendedSeed : Bytes) (saved : Nat) : Program → Option (Option Signer)
  | .cpp => match XmssFast.fromExtendedSeed S extendedSeed with
    | .ub => none
    | .throw _ => some none
    | .ok o => match o.setIndex S saved with
      | .ub => none
      | .raise _ _ => some none
      | .ret _ o' => some (some (.cpp o'))
  | .rust b => match Rs.XMSSFast.fromExtendedSeed b S extendedSeed with
    | .panic => some none
    | .err _ => some none
    | .ok o => match o.setIndex b S saved with
      | .panic => some none
      | .fail _ _ => some none
      | .ret _ o' => some (some (.rust b o'))

/-- What can happen. -/
inductive CrossEvent where
  /-- a call on the signer in memory, if a process is running -/
  | call (c : Call)
  /-- an index is written to disk -/
  | save (n : UInt32)
  /-- the process is killed -/
  | crash
  /-- a process is started, in place of any that is still running -/
  | start (p : Program)

/-- The running process, if any, and what is on disk. -/
structure CrossWallet where
  signer : Option Signer
  extendedSeed : Bytes
  saved : UInt32

/-- One event: the reply of a call, and the wallet afterwards. The outer `none` is undefined behaviour. -/
def CrossWallet.step (S : Sha256) (v : CrossWallet) : CrossEvent → Option (Option Reply × CrossWallet)
  | .call c => match v.signer with
    | none => some (none, v)
    | some s => match s.call S c with
      | none => none
      | some none => some (none, { v with signer := none })
      | some (some (r, s')) => some (some r, { v with signer := some s' })
  | .save n => some (none, { v with saved := n })
  | .crash => some (none, { v with signer := none })
  | .start p => match p.restore S v.extendedSeed v.saved.toNat with
    | none => none
    | some s => some (none, { v with signer := s })

/-- All replies over a sequence of events, and the wallet at the end. -/
def CrossWallet.run (S : Sha256) : CrossWallet → List CrossEvent → Option (List Reply × CrossWallet)
  | v, [] => some ([], v)
  | v, e :: es => match v.step S e with
    | none => none
    | some (r, v') => match v'.run S es with
      | none => none
      | some (rs, v'') => some (r.toList ++ rs, v'')

/-- The wallet writes ahead: whenever a process signs, the index on disk is already beyond the one `getIndex()` reports, and
the index on disk is never lowered. -/
def CrossWallet.WritesAhead (S : Sha256) : CrossWallet → List CrossEvent → Prop
  | _, [] => True
  | v, e :: es =>
    (match e with
      | .call (.sign _) => ∀ s i, v.signer = some s → s.index = some i → i < v.saved.toNat
      | .save n => v.saved.toNat ≤ n.toNat
      | _ => True) ∧
    match v.step S e with
    | some (_, v') => CrossWallet.WritesAhead S v' es
    | none => True

/-- One event of the ideal wallet. `x` is the running program and its counter; `j` is the index on disk; `σ p i m` is what
program `p` answers to signing `m` at index `i` (`none`: it dies). -/
def crossStep (limit : Nat) (σ : Program → Nat → Bytes → Option Bytes) (x : Option (Program × Nat)) (j : UInt32) :
    CrossEvent → Option Reply × Option (Program × Nat) × UInt32
  | .call c => match x with
    | none => (none, none, j)
    | some (p, i) => match c with
      | .setIndex n =>
        if i ≤ n.toNat ∧ n.toNat < limit then (some (.index n.toNat), some (p, n.toNat), j)
        else (some (.threw .invalidArgument), some (p, i), j)
      | .sign m =>
        if i < limit then
          match σ p i m with
          | none => (none, none, j)
          | some s => (some (.sig s), some (p, i + 1), j)
        else (some (.threw .invalidArgument), some (p, i), j)
  | .save n => (none, x, n)
  | .crash => (none, none, j)
  | .start p => (none, if j.toNat < limit then some (p, j.toNat) else none, j)

/-- The ideal wallet over a sequence of events. -/
def crossRun (limit : Nat) (σ : Program → Nat → Bytes → Option Bytes) :
    Option (Program × Nat) → UInt32 → List CrossEvent → List Reply × Option (Program × Nat) × UInt32
  | x, j, [] => ([], x, j)
  | x, j, e :: es =>
    let (r, x', j') := crossStep limit σ x j e
    let (rs, end_) := crossRun limit σ x' j' es
    (r.toList ++ rs, end_)

/-- The same events with every process running the C++ library. -/
def inCpp : CrossEvent → CrossEvent
  | .start _ => .start .cpp
  | e => e

end Qrl.Spec
