import Verif.Model.Threads
/-!
# What is said of schedules
-/

namespace Qrl.Spec

/-- Mutual exclusion, as a lock taken for the whole of each call gives it: whenever a call moves, no other call is between its
first and its last step. -/
def Exclusive {σ π : Type} (step : σ → π → σ × π) (idle : π → Prop) : List Nat → σ × List π → Prop
  | [], _ => True
  | t :: ts, x => (∀ u pc, u ≠ t → x.2[u]? = some pc → idle pc) ∧ Exclusive step idle ts (runSchedule step [t] x)

/-- The call has not been entered, or is over. -/
def fastIdle : FastPc → Prop
  | .start _ => True
  | .done _ => True
  | _ => False

/-- The call has not been entered, or is over. -/
def basicIdle : BasicPc → Prop
  | .start _ => True
  | .done _ => True
  | _ => False

/-- Two calls of `sign`, both past the reading of the index before either has written it. -/
def bothRead : List Nat := [0, 0, 0, 0, 0, 1, 1, 1, 1, 1, 0, 1, 0, 1, 0, 1]

/-- One call of `sign` between the check and the writing of the index in `xmssfast_update`, while another is made. -/
def oneWaits : List Nat := [0, 0, 0] ++ List.replicate 8 1 ++ [0, 0, 0, 0, 0]

/-- One call of `sign` between `xmssfast_update` and `xmssfast_Signmsg`, while another is made. -/
def lastTwice : List Nat := [0, 0, 0, 0] ++ List.replicate 8 1 ++ [0, 0, 0, 0]

end Qrl.Spec
