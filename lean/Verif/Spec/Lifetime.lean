import Verif.Model.Lifetime
/-!
# Value semantics for `XmssFast` objects

The ideal memory: every object is a value of its own, there are no pointers. An object is *whole* unless it was made or
assigned by copying another, or has been moved from; calling `initialize_tree`, or assigning it by moving a whole object,
makes it whole again. The ideal run is defined as long as
`sign` and `setIndex` are called on whole objects only, and no destroyed object is used.
-/

namespace Qrl.Spec

/-- A value, and whether it is whole. -/
structure ValueObj where
  value : XmssFast
  whole : Bool
  deriving DecidableEq, Repr

/-- One operation on values. -/
def valueStep (S : Sha256) (W : List (Option ValueObj)) : FastOp → Option (OpReply × List (Option ValueObj))
  | .create seed height hf af => match XmssFast.new S seed height hf af with
    | .ok o => some (.made W.length, W ++ [some ⟨o, true⟩])
    | .throw e => some (.threw e, W)
    | .ub => none
  | .copy a => match W[a]? with
    | some (some x) => some (.made W.length, W ++ [some ⟨x.value, false⟩])
    | _ => none
  | .move a => match W[a]? with
    | some (some x) => some (.made W.length, W.set a (some ⟨x.value, false⟩) ++ [some x])
    | _ => none
  | .destroy a => match W[a]? with
    | some (some _) => some (.done, W.set a none)
    | _ => none
  | .assign dst src _ => match W[dst]?, W[src]? with
    | some (some _), some (some x) => some (.done, if dst = src then W else W.set dst (some ⟨x.value, false⟩))
    | _, _ => none
  | .moveAssign dst src => match W[dst]?, W[src]? with
    | some (some _), some (some x) =>
      if dst = src then none else some (.done, (W.set src (some ⟨x.value, false⟩)).set dst (some x))
    | _, _ => none
  | .call a c => match W[a]? with
    | some (some ⟨v, true⟩) => match v.fullCall S c with
      | some (r, v') => some (.reply r, W.set a (some ⟨v', true⟩))
      | none => none
    | some (some ⟨v, false⟩) => match c with
      | .initializeTree w => match v.initializeTree S w with
        | .ret () v' => some (.reply none, W.set a (some ⟨v', true⟩))
        | _ => none
      | .basic _ => none
    | _ => none

/-- A program on values. -/
def valueRun (S : Sha256) : List (Option ValueObj) → List FastOp → Option (List OpReply × List (Option ValueObj))
  | W, [] => some ([], W)
  | W, op :: ops =>
    match valueStep S W op with
    | none => none
    | some (r, W') =>
      match valueRun S W' ops with
      | none => none
      | some (rs, W'') => some (r :: rs, W'')

end Qrl.Spec
