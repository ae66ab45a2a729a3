import Verif.Spec.History
/-!
# Several threads calling one object

The library has no lock. A call on an object is here a sequence of steps, each of which reads or writes the shared object, and
the steps of the calls in flight are interleaved by a schedule. One step is atomic and steps are sequentially consistent: this
is weaker than the machine, where the bytes of one step can be interleaved too and the C++ standard gives an access that
races with a write no meaning at all, so every execution shown here is one a real machine can show.
-/

namespace Qrl

open Outcome

/-- What the caller of `xmssfast_update` goes on with: `XmssFast::sign` or the return from `setIndex`,
src/qrl/xmssFast.cpp:68-95. -/
inductive After where
  | sign (msg : Bytes)
  | setIndex
  deriving DecidableEq, Repr

/-- Where a call on an `XmssFast` has got to: the next step it takes and the locals it holds,
src/qrl/xmssFast.cpp:68-95, src/xmss-alt/algsxmss_fast.c:533-700. -/
inductive FastPc where
  /-- not entered yet -/
  | start (c : Call)
  /-- `xmssfast_update` entered with `new_idx = n` -/
  | update (k : After) (n : Nat)
  /-- `current_idx` was read and the two checks passed -/
  | advance (k : After) (n cur : Nat)
  /-- the loop is over, the index is to be written -/
  | store (k : After) (n : Nat)
  /-- `xmssfast_Signmsg` entered -/
  | signRead (msg : Bytes)
  /-- the index was read into the local `idx` -/
  | signWrite (msg : Bytes) (idx : Nat)
  /-- `idx + 1` was written into the secret key -/
  | signBody (msg : Bytes) (idx : Nat)
  /-- the signature is complete (authentication path copied), the traversal is to be moved on -/
  | round (idx : Nat) (otsAddr : Adrs) (data : Bytes)
  /-- returned or threw -/
  | done (r : Reply)
  /-- undefined behaviour -/
  | ub
  deriving DecidableEq, Repr

/-- The bytes `xmssfast_Signmsg` writes to the signature once `idx` is known, and the address it goes on with,
src/xmss-alt/algsxmss_fast.c:606-615 and 624-683. (The seeds are read at 606-611, before the index is written; no step of
any call changes them.) -/
def fastSignBody (S : Sha256) (hf : HashFn) (p : XmssParams) (sk : Bytes) (st : BdsState) (idx : Nat) (msg : Bytes) :
    Outcome (Bytes × Adrs) := do
  let skSeed ← slice sk 4 32
  let skPrf ← slice sk 36 32
  let pubSeed ← slice sk 68 32
  let r := prf S hf (toByte idx 32) skPrf
  let root ← slice sk 100 32
  let hashKey := r ++ root ++ toByte idx 32
  let msgH := hMsg S hf msg hashKey
  let otsAddr := (({} : Adrs).setType 0).setOTS idx
  let (otsSeed, otsAddr) := getSeed S hf skSeed otsAddr
  let (wsig, otsAddr) ← wotsSign S hf p.wots msgH otsSeed pubSeed otsAddr
  let path ← authOut st.auth p.h 0
  ok (idxBytes idx ++ r ++ wsig.flatten ++ path.flatten, otsAddr)

/-- The traversal step at the end of `xmssfast_Signmsg`, src/xmss-alt/algsxmss_fast.c:685-688. -/
def fastSignRound (S : Sha256) (hf : HashFn) (p : XmssParams) (sk : Bytes) (st : BdsState) (idx : Nat) (otsAddr : Adrs) :
    Outcome BdsState := do
  let skSeed ← slice sk 4 32
  let pubSeed ← slice sk 68 32
  if idx < 2 ^ p.h - 1 then do
    let st ← bdsRound S hf st idx skSeed p pubSeed otsAddr
    bdsTreehashUpdate S hf skSeed p pubSeed otsAddr ((p.h - 2) >>> 1) st
  else ok st

/-- One step of a call on an `XmssFast`, src/qrl/xmssFast.cpp:68-95, src/xmss-alt/algsxmss_fast.c:533-700. An exception that is not
one of the two of `xmssfast_update` does not arise there (`fastCall_alone`); it is made undefined behaviour. -/
def fastStep (S : Sha256) (o : XmssFast) : FastPc → XmssFast × FastPc
  -- xmssFast.cpp:68 and 81-84: the buffer, `getIndex()`
  | .start (.setIndex n) => (o, .update .setIndex n.toNat)
  | .start (.sign m) =>
    match o.getSignatureSize o.params.wots.w, o.getIndex with
    | .ok _, .ok index => (o, .update (.sign m) index)
    | _, _ => (o, .ub)
  -- algsxmss_fast.c:539-556
  | .update k n =>
    if o.params.h ≥ 32 then (o, .ub)
    else
      match be32At o.sk with
      | .ok cur =>
        if n ≥ 2 ^ o.params.h then (o, .done (.threw .invalidArgument))
        else if n < cur then (o, .done (.threw .invalidArgument))
        else (o, .advance k n cur)
      | _ => (o, .ub)
  -- algsxmss_fast.c:559-581
  | .advance k n cur =>
    match HashFn.ofNat? o.hashFunction, slice o.sk 4 32, slice o.sk 68 32 with
    | some hf, .ok skSeed, .ok pubSeed =>
      match advanceLoop S hf skSeed o.params pubSeed (n - cur) cur o.state with
      | .ok st => ({ o with state := st }, .store k n)
      | _ => (o, .ub)
    | _, _, _ => (o, .ub)
  -- algsxmss_fast.c:583-589, xmssFast.cpp:76 and 86
  | .store k n =>
    ({ o with sk := idxBytes n ++ o.sk.drop 4 },
      match k with
      | .setIndex => .done (.index n)
      | .sign m => .signRead m)
  -- algsxmss_fast.c:604-605
  | .signRead m =>
    match be32At o.sk with
    | .ok idx => (o, .signWrite m idx)
    | _ => (o, .ub)
  -- algsxmss_fast.c:620-623
  | .signWrite m idx => ({ o with sk := idxBytes (idx + 1) ++ o.sk.drop 4 }, .signBody m idx)
  -- algsxmss_fast.c:624-683
  | .signBody m idx =>
    match HashFn.ofNat? o.hashFunction with
    | some hf =>
      match fastSignBody S hf o.params o.sk o.state idx m with
      | .ok (data, a) => (o, .round idx a data)
      | _ => (o, .ub)
    | none => (o, .ub)
  -- algsxmss_fast.c:685-688, xmssFast.cpp:94
  | .round idx a data =>
    match HashFn.ofNat? o.hashFunction, o.getSignatureSize o.params.wots.w with
    | some hf, .ok size =>
      match fastSignRound S hf o.params o.sk o.state idx a, fillBuffer size data with
      | .ok st, .ok sig => ({ o with state := st }, .done (.sig sig))
      | _, _ => (o, .ub)
    | _, _ => (o, .ub)
  | .done r => (o, .done r)
  | .ub => (o, .ub)

/-- Where a call on an `XmssBasic` has got to, src/qrl/xmssBasic.cpp:52-63, src/xmss-alt/algsxmss.c:218-318,
src/qrl/xmssBase.cpp:141-152. -/
inductive BasicPc where
  /-- not entered yet -/
  | start (c : Call)
  /-- the index was read into the local `idx` -/
  | signWrite (msg : Bytes) (idx : Nat)
  /-- `idx + 1` was written into the secret key -/
  | signBody (msg : Bytes) (idx : Nat)
  /-- returned or threw -/
  | done (r : Reply)
  /-- undefined behaviour -/
  | ub
  deriving DecidableEq, Repr

/-- The bytes `xmss_Signmsg` writes to the signature once `idx` is known, src/xmss-alt/algsxmss.c:230-236 and 250-313. (As for
`fastSignBody` on when the seeds are read.) -/
def basicSignBody (S : Sha256) (hf : HashFn) (p : XmssParams) (sk : Bytes) (idx : Nat) (msg : Bytes) : Outcome Bytes := do
  let skSeed ← slice sk 4 32
  let skPrf ← slice sk 36 32
  let pubSeed ← slice sk 68 32
  let r := prf S hf (toByte idx 32) skPrf
  let root ← slice sk 100 32
  let hashKey := r ++ root ++ toByte idx 32
  let msgH := hMsg S hf msg hashKey
  let otsAddr := (({} : Adrs).setType 0).setOTS idx
  let (otsSeed, otsAddr) := getSeed S hf skSeed otsAddr
  let (wsig, otsAddr) ← wotsSign S hf p.wots msgH otsSeed pubSeed otsAddr
  let (_, path) ← computeAuthpathWots S hf idx skSeed p pubSeed otsAddr
  ok (idxBytes idx ++ r ++ wsig.flatten ++ path.flatten)

/-- One step of a call on an `XmssBasic`, src/qrl/xmssBasic.cpp:52-63, src/xmss-alt/algsxmss.c:218-318,
src/qrl/xmssBase.cpp:141-152 (`setIndex` is one step). -/
def basicStep (S : Sha256) (o : XmssBase) : BasicPc → XmssBase × BasicPc
  | .start (.setIndex n) =>
    match o.setIndex n.toNat with
    | .ok (i, o') => (o', .done (.index i))
    | _ => (o, .ub)
  -- algsxmss.c:229
  | .start (.sign m) =>
    match be32At o.sk with
    | .ok idx => (o, .signWrite m idx)
    | _ => (o, .ub)
  -- algsxmss.c:245-248
  | .signWrite m idx => ({ o with sk := idxBytes (idx + 1) ++ o.sk.drop 4 }, .signBody m idx)
  -- algsxmss.c:249-318, xmssBasic.cpp:62
  | .signBody m idx =>
    match HashFn.ofNat? o.hashFunction, o.getSignatureSize o.params.wots.w with
    | some hf, .ok size =>
      match basicSignBody S hf o.params o.sk idx m with
      | .ok data =>
        match fillBuffer size data with
        | .ok sig => (o, .done (.sig sig))
        | _ => (o, .ub)
      | _ => (o, .ub)
    | _, _ => (o, .ub)
  | .done r => (o, .done r)
  | .ub => (o, .ub)

/-- A schedule: at each step the number of the call that moves. Calls are numbered by their place in `pcs`; a number that is not
one of them does nothing. For src/qrl/xmssFast.cpp:68-95 and src/qrl/xmssBasic.cpp:52-63 called by several threads. -/
def runSchedule {σ π : Type} (step : σ → π → σ × π) : List Nat → σ × List π → σ × List π
  | [], x => x
  | t :: ts, (o, pcs) =>
    match pcs[t]? with
    | none => runSchedule step ts (o, pcs)
    | some pc => runSchedule step ts ((step o pc).1, pcs.set t (step o pc).2)

/-- The state of `calls` made on `o` by different threads, before any has moved. For src/qrl/xmssFast.cpp:68-95. -/
def fastThreads (o : XmssFast) (calls : List Call) : XmssFast × List FastPc := (o, calls.map .start)

/-- The same for an `XmssBasic`, src/qrl/xmssBasic.cpp:52-63. -/
def basicThreads (o : XmssBase) (calls : List Call) : XmssBase × List BasicPc := (o, calls.map .start)

end Qrl
