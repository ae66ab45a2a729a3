import Verif.Model.Pool
/-!
# What can be read off a schedule of the pool
-/

namespace Qrl.Spec

/-- The indices claimed, in the order in which the lock was held. -/
def claims : List Ev → List Nat
  | [] => []
  | .claim _ i :: tr => i :: claims tr
  | _ :: tr => claims tr

/-- The trees (or exceptions of tree building) returned by `getNextTree`, in the order of the returns. -/
def trees : List Ev → List (Outcome XmssFast)
  | [] => []
  | .tree _ r :: tr => r :: trees tr
  | _ :: tr => trees tr

/-- Calls of `getNextTree` ended by a failure: a thread could not be started or stored, or there was not enough memory to
build the tree. -/
def failures : List Ev → Nat
  | [] => 0
  | .threw _ :: tr => failures tr + 1
  | .noMemory _ :: tr => failures tr + 1
  | _ :: tr => failures tr

/-- Calls of `getNextTree` that could not start a thread or store its future. -/
def fillFailures : List Ev → Nat
  | [] => 0
  | .threw _ :: tr => fillFailures tr + 1
  | _ :: tr => fillFailures tr

/-- Every thread is outside the pool. -/
def quiescent (s : Pool) : Prop := ∀ pc ∈ s.pcs, pc = Pc.idle

end Qrl.Spec
