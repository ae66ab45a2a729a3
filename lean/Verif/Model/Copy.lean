import Verif.Model.XmssApi
/-!
# Copying an `XmssFast`

The class declares no copy constructor (src/qrl/xmssFast.h:12-37), so `XmssFast b = a;` copies member by member. The
vectors are copied, but `_state` keeps the raw pointers it has: `b._state` points into the vectors of `a`
(src/qrl/xmssFast.cpp:46-58, `bds_state` in src/xmss-alt/algsxmss_fast.h:27-36). The pointed-to buffers `stack`,
`stacklevels`, `auth`, `keep`, `treehash` (with the nodes) and `retain` are therefore shared; the integers
`stackoffset` and `next_leaf` inside `_state`, the secret key and the parameters are not.
-/

namespace Qrl

/-- The original and its copy, both alive. The shared buffers appear in both objects.
Made by the implicit copy constructor of src/qrl/xmssFast.h:12-37. -/
structure Twins where
  original : XmssFast
  copy : XmssFast
  deriving DecidableEq, Repr

/-- `XmssFast b = a;`, the implicitly defined copy constructor (src/qrl/xmssFast.h:12-37). -/
def XmssFast.copyOf (o : XmssFast) : Twins := { original := o, copy := o }

/-- The state seen by the other object after one object has changed its state to `s`: same buffers, own integers
(`bds_state`, src/xmss-alt/algsxmss_fast.h:27-36). -/
def BdsState.shareTo (s other : BdsState) : BdsState :=
  { s with stackoffset := other.stackoffset, nextLeaf := other.nextLeaf }

/-- `sign` on the original, src/qrl/xmssFast.cpp:79-95. -/
def Twins.signOriginal (S : Sha256) (t : Twins) (m : Bytes) : Step Twins Bytes :=
  match t.original.sign S m with
  | .ret s o => .ret s { original := o, copy := { t.copy with state := o.state.shareTo t.copy.state } }
  | .raise e o => .raise e { original := o, copy := { t.copy with state := o.state.shareTo t.copy.state } }
  | .ub => .ub

/-- `sign` on the copy, src/qrl/xmssFast.cpp:79-95. -/
def Twins.signCopy (S : Sha256) (t : Twins) (m : Bytes) : Step Twins Bytes :=
  match t.copy.sign S m with
  | .ret s o => .ret s { copy := o, original := { t.original with state := o.state.shareTo t.original.state } }
  | .raise e o => .raise e { copy := o, original := { t.original with state := o.state.shareTo t.original.state } }
  | .ub => .ub

end Qrl
