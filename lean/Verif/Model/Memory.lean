import Verif.Spec.Reinit
/-!
# Running out of memory

Every construction of a non-empty `std::vector` takes memory and throws `std::bad_alloc` when there is none. The methods are
modelled again here with a number `fail`: which allocation of the call, counted from 0, finds no memory (`none`: all succeed).
The exception leaves the members as the statements before it left them.

Simplifications: only the allocations made by the code of this repository are counted. PicoSHA2 (the absent dependency behind
SHA2_256) is taken not to allocate, and stack memory (the variable-length arrays of the C code) not to run out. A message of no
bytes is copied without an allocation; letting that fail too only adds behaviours.
-/

namespace Qrl

open Outcome

/-- Result of a call that may run out of memory.
For instance src/qrl/xmssFast.cpp:79-95. -/
inductive MemStep (σ α : Type) where
  | ret (a : α) (s : σ)
  | raise (e : Exc) (s : σ)
  /-- `std::bad_alloc`, with the state the object is left in -/
  | badAlloc (s : σ)
  | ub
  deriving DecidableEq, Repr

/-- A call from here on without any allocation.
For instance the C functions called at src/qrl/xmssFast.cpp:86-92. -/
def MemStep.ofStep {σ α : Type} : Step σ α → MemStep σ α
  | .ret a s => .ret a s
  | .raise e s => .raise e s
  | .ub => .ub

/-- `XmssFast::sign`, src/qrl/xmssFast.cpp:79-95. Allocation 0 is the buffer for the signature (:81), allocation 1 the copy of
the message made by `static_cast<TMESSAGE>(message)` (:91), after `setIndex(getIndex())` (:83-84) and before any byte is signed. -/
def XmssFast.signMem (S : Sha256) (o : XmssFast) (message : Bytes) (fail : Option Nat) : MemStep XmssFast Bytes :=
  match o.getSignatureSize o.params.wots.w with
  | .ok size =>
    if fail = some 0 then .badAlloc o
    else match o.getIndex with
      | .ok index => match o.setIndex S index with
        | .ret _ o =>
          if fail = some 1 then .badAlloc o
          else .ofStep (Step.ofOutcome o do
            withHash o.hashFunction fun hf => do
              let (data, (sk, st)) ← xmssfastSignmsg S hf o.params o.sk o.state message
              let sig ← fillBuffer size data
              ok (sig, { o with sk := sk, state := st }))
        | .raise e o => .raise e o
        | .ub => .ub
      | _ => .ub
  | _ => .ub

/-- `XmssBasic::sign`, src/qrl/xmssBasic.cpp:53-64: allocation 0 is the buffer for the signature (:54), allocation 1 the copy of the
message (:59). -/
def XmssBasic.signMem (S : Sha256) (o : XmssBase) (message : Bytes) (fail : Option Nat) : MemStep XmssBase Bytes :=
  match o.getSignatureSize o.params.wots.w with
  | .ok _ =>
    if fail = some 0 ∨ fail = some 1 then .badAlloc o
    else .ofStep (Step.ofOutcome o (XmssBasic.sign S o message))
  | _ => .ub

/-- The traversal state when `n` of the seven vectors `_stack`, `_stacklevels`, `_auth`, `_keep`, `_treehash`, `_th_nodes`, `_retain`
have been assigned anew (src/qrl/xmssFast.cpp:38-44) and `_state` still points to the old memory, which each assignment freed.
Freed memory has no cells, so every access to it is undefined. -/
def BdsState.freeFirst (st : BdsState) (n : Nat) : BdsState :=
  { st with
    stack := if 1 ≤ n then [] else st.stack
    stacklevels := if 2 ≤ n then [] else st.stacklevels
    auth := if 3 ≤ n then [] else st.auth
    keep := if 4 ≤ n then [] else st.keep
    treehash := if 5 ≤ n then [] else st.treehash
    retain := if 7 ≤ n then [] else st.retain }

/-- `XmssFast::initialize_tree` on an existing object, src/qrl/xmssFast.cpp:22-66. Allocation 0 is the new `_sk` (:24), 1 is `tmp` (:25);
then the height is checked (:31), the parameters are set (:35), and allocations 2 to 8 are the seven vectors (:38-44).
(`_th_nodes` is reached only through `_treehash`, so its old memory needs no entry of its own.) -/
def XmssFast.initializeTreeMem (S : Sha256) (o : XmssFast) (w : Nat) (fail : Option Nat) : MemStep XmssFast Unit :=
  if fail = some 0 then .badAlloc o
  else
    let o := { o with sk := List.replicate 132 0 }
    if fail = some 1 then .badAlloc o
    else if 2 ≥ o.height.toNat ∨ (o.height.toNat - 2) % 2 ≠ 0 then .raise .invalidArgument o
    else match xmssSetParams o.height.toNat w with
      | .ok p => match fail with
        | some n =>
          if n ≤ 8 then .badAlloc { o with params := p, state := o.state.freeFirst (n - 2) }
          else .ofStep (o.initializeTree S w)
        | none => .ofStep (o.initializeTree S w)
      | .throw e => .raise e o
      | .ub => .ub

/-- A call and the allocation in it that fails.
Calls of src/qrl/xmssFast.h:21-24. -/
structure MemCall where
  call : Call
  fail : Option Nat
  deriving DecidableEq, Repr

/-- One call on an `XmssFast`: `none` is undefined behaviour, the reply `none` is `std::bad_alloc`. `setIndex` does not allocate.
src/qrl/xmssFast.cpp:68-95. -/
def XmssFast.callMem (S : Sha256) (o : XmssFast) (c : MemCall) : Option (Option Reply × XmssFast) :=
  match c.call with
  | .setIndex n => match o.setIndex S n.toNat with
    | .ret i o' => some (some (.index i), o')
    | .raise e o' => some (some (.threw e), o')
    | .ub => none
  | .sign m => match o.signMem S m c.fail with
    | .ret s o' => some (some (.sig s), o')
    | .raise e o' => some (some (.threw e), o')
    | .badAlloc o' => some (none, o')
    | .ub => none

/-- One call on an `XmssBasic`. `setIndex` does not allocate.
src/qrl/xmssBasic.cpp:53-64 and src/qrl/xmssBase.cpp:141-152. -/
def XmssBasic.callMem (S : Sha256) (o : XmssBase) (c : MemCall) : Option (Option Reply × XmssBase) :=
  match c.call with
  | .setIndex n => match o.setIndex n.toNat with
    | .ok (i, o') => some (some (.index i), o')
    | .throw e => some (some (.threw e), o)
    | .ub => none
  | .sign m => match XmssBasic.signMem S o m c.fail with
    | .ret s o' => some (some (.sig s), o')
    | .raise e o' => some (some (.threw e), o')
    | .badAlloc o' => some (none, o')
    | .ub => none

/-- A client that survives `std::bad_alloc` and goes on using the object.
A sequence of calls of src/qrl/xmssFast.h:21-24. -/
def runMem {σ : Type} (call : σ → MemCall → Option (Option Reply × σ)) : σ → List MemCall → Option (List (Option Reply) × σ)
  | o, [] => some ([], o)
  | o, c :: cs =>
    match call o c with
    | none => none
    | some (r, o') =>
      match runMem call o' cs with
      | none => none
      | some (rs, o'') => some (r :: rs, o'')

end Qrl
