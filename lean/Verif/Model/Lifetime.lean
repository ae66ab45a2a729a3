import Verif.Spec.Reinit
/-!
# Lifetimes of `XmssFast` objects: construction, copy, move, assignment, destruction

`XmssFast` (src/qrl/xmssFast.h:12-37) declares no copy or move operations and no destructor, so all are implicit; its
base declares a virtual destructor (src/qrl/xmssBase.h:37) and therefore has no move constructor, only a copy
constructor, and likewise no move assignment. The member `_state` is a struct of raw pointers into the heap memory of the vectors `_stack`,
`_stacklevels`, `_auth`, `_keep`, `_treehash`, `_th_nodes`, `_retain`, set by `initialize_tree`
(src/qrl/xmssFast.cpp:39-58). A copied vector has new memory, a moved one takes the memory along and leaves the source
empty; the raw pointers are copied as they are in both cases. Assigning a vector by copying either writes into the memory
it has or takes new memory and frees the old (the standard leaves the choice open: `realloc` in the operation); assigning
by moving frees its memory and takes over the other's.

The heap is a list of allocations. One allocation stands for the memory of all seven vectors of one object, which are
always allocated and freed together. A freed allocation has no cells, so every access to it is out of bounds and hence
undefined behaviour.
-/

namespace Qrl

/-- The heap memory of the vectors of an `XmssFast`, src/qrl/xmssFast.h:28-36 (the buffers of `bds_state`,
src/xmss-alt/algsxmss_fast.h:27-36). -/
structure Bufs where
  stack : List Cell
  stacklevels : List Nat
  auth : List Cell
  keep : List Cell
  treehash : List TreeInst
  retain : List Cell
  deriving DecidableEq, Repr

/-- Freed (or empty) memory.
What the vectors of src/qrl/xmssFast.h:28-36 leave behind. -/
def Bufs.freed : Bufs := ⟨[], [], [], [], [], []⟩

/-- The buffers of a traversal state.
The members of src/xmss-alt/algsxmss_fast.h:27-36. -/
def Bufs.of (s : BdsState) : Bufs := ⟨s.stack, s.stacklevels, s.auth, s.keep, s.treehash, s.retain⟩

/-- The traversal state made of buffers and the two integers of `bds_state`, src/xmss-alt/algsxmss_fast.h:27-36. -/
def Bufs.state (b : Bufs) (stackoffset nextLeaf : Nat) : BdsState :=
  { stack := b.stack, stackoffset := stackoffset, stacklevels := b.stacklevels, auth := b.auth, keep := b.keep
    treehash := b.treehash, retain := b.retain, nextLeaf := nextLeaf }

/-- An `XmssFast` in memory: the base members, the integers of `_state`, the allocation its vectors own (none if they
have been moved from) and the allocation the pointers of `_state` point into, src/qrl/xmssFast.h:26-36. -/
structure FastObj where
  base : XmssBase
  stackoffset : Nat
  nextLeaf : Nat
  own : Option Nat
  ptr : Nat
  deriving DecidableEq, Repr

/-- Memory: the objects ever made (`none` once destroyed) and the allocations ever made.
Of `XmssFast` objects, src/qrl/xmssFast.h:12-37. -/
structure FastMem where
  objs : List (Option FastObj)
  bufs : List Bufs
  deriving DecidableEq, Repr

/-- What a program can do with `XmssFast` objects; objects are named by the order of their construction.
src/qrl/xmssFast.h:12-37, implicit members included. -/
inductive FastOp where
  | create (seed : Bytes) (height : UInt8) (hashFunction addrFormat : Nat)
  | copy (a : Nat)
  | move (a : Nat)
  | destroy (a : Nat)
  /-- `dst = src` -/
  | assign (dst src : Nat) (realloc : Bool)
  /-- `dst = std::move(src)` -/
  | moveAssign (dst src : Nat)
  | call (a : Nat) (c : FullCall)
  deriving DecidableEq, Repr

/-- What an operation gives.
The results of src/qrl/xmssFast.cpp:7-95. -/
inductive OpReply where
  | made (a : Nat)
  | threw (e : Exc)
  | reply (r : FullReply)
  | done
  deriving DecidableEq, Repr

/-- The object as its member functions see it: base members, and the state through the pointers of `_state`.
`_state` is src/qrl/xmssFast.h:27. -/
def FastMem.view (m : FastMem) (o : FastObj) : XmssFast :=
  { o.base with state := (m.bufs.getD o.ptr Bufs.freed).state o.stackoffset o.nextLeaf }

/-- The vectors' memory goes away.
The vectors of src/qrl/xmssFast.h:29-36. -/
def freeOwn (bufs : List Bufs) : Option Nat → List Bufs
  | some b => bufs.set b Bufs.freed
  | none => bufs

/-- What the vectors hold.
The vectors of src/qrl/xmssFast.h:29-36. -/
def ownContent (bufs : List Bufs) : Option Nat → Bufs
  | some b => bufs.getD b Bufs.freed
  | none => Bufs.freed

/-- One operation; `none` is undefined behaviour (a use of freed memory, of a destroyed object, or inside the call).

* construction: src/qrl/xmssFast.cpp:7-20;
* copy and move: the implicit constructors of src/qrl/xmssFast.h:12-37 (the base is copied in both cases);
* assignment: the implicit operators of src/qrl/xmssFast.h:12-37 (the base is copied in both cases). Assigning an object to
  itself by copying changes nothing; by moving it leaves the vectors in an unspecified state, which counts as undefined here;
* destruction: the implicit destructor; it frees the memory the vectors own;
* `initialize_tree`: src/qrl/xmssFast.cpp:22-66; assigns new vectors, which frees the old memory, and points `_state` at
  the new memory; if it throws (:33-35) only `_sk` has been assigned;
* `sign` and `setIndex`: src/qrl/xmssFast.cpp:68-95. -/
def FastMem.step (S : Sha256) (m : FastMem) : FastOp → Option (OpReply × FastMem)
  | .create seed height hf af => match XmssFast.new S seed height hf af with
    | .ok o => some (.made m.objs.length,
        { objs := m.objs ++ [some ⟨o.toXmssBase, o.state.stackoffset, o.state.nextLeaf, some m.bufs.length, m.bufs.length⟩]
          bufs := m.bufs ++ [Bufs.of o.state] })
    | .throw e => some (.threw e, m)
    | .ub => none
  | .copy a => match m.objs[a]? with
    | some (some o) => some (.made m.objs.length,
        { objs := m.objs ++ [some { o with own := some m.bufs.length }]
          bufs := m.bufs ++ [ownContent m.bufs o.own] })
    | _ => none
  | .move a => match m.objs[a]? with
    | some (some o) => some (.made m.objs.length,
        { m with objs := m.objs.set a (some { o with own := none }) ++ [some o] })
    | _ => none
  | .destroy a => match m.objs[a]? with
    | some (some o) => some (.done, { objs := m.objs.set a none, bufs := freeOwn m.bufs o.own })
    | _ => none
  | .assign dst src realloc => match m.objs[dst]?, m.objs[src]? with
    | some (some d), some (some o) =>
      if dst = src then some (.done, m)
      else match d.own, realloc with
        | some k, false => some (.done,
            { objs := m.objs.set dst (some { o with own := some k })
              bufs := m.bufs.set k (ownContent m.bufs o.own) })
        | _, _ => some (.done,
            { objs := m.objs.set dst (some { o with own := some m.bufs.length })
              bufs := freeOwn m.bufs d.own ++ [ownContent m.bufs o.own] })
    | _, _ => none
  | .moveAssign dst src => match m.objs[dst]?, m.objs[src]? with
    | some (some d), some (some o) =>
      if dst = src then none
      else some (.done,
        { objs := (m.objs.set src (some { o with own := none })).set dst (some o)
          bufs := freeOwn m.bufs d.own })
    | _, _ => none
  | .call a (.basic c) => match m.objs[a]? with
    | some (some o) => match (m.view o).call S c with
      | some (r, o') => some (.reply (some r),
          { objs := m.objs.set a (some { o with
              base := o'.toXmssBase, stackoffset := o'.state.stackoffset, nextLeaf := o'.state.nextLeaf })
            bufs := m.bufs.set o.ptr (Bufs.of o'.state) })
      | none => none
    | _ => none
  | .call a (.initializeTree w) => match m.objs[a]? with
    | some (some o) => match (m.view o).initializeTree S w with
      | .ret () o' => some (.reply none,
          { objs := m.objs.set a (some ⟨o'.toXmssBase, o'.state.stackoffset, o'.state.nextLeaf, some m.bufs.length,
              m.bufs.length⟩)
            bufs := freeOwn m.bufs o.own ++ [Bufs.of o'.state] })
      | .raise e o' => some (.reply (some (.threw e)),
          { m with objs := m.objs.set a (some { o with base := o'.toXmssBase }) })
      | .ub => none
    | _ => none

/-- A program.
A sequence of uses of src/qrl/xmssFast.h:12-37. -/
def FastMem.run (S : Sha256) : FastMem → List FastOp → Option (List OpReply × FastMem)
  | m, [] => some ([], m)
  | m, op :: ops =>
    match m.step S op with
    | none => none
    | some (r, m') =>
      match m'.run S ops with
      | none => none
      | some (rs, m'') => some (r :: rs, m'')

/-- What `std::vector<XmssFast>` does to its elements when it grows beyond its capacity. The implicit move constructor of
`XmssFast` (src/qrl/xmssFast.h:12-37) copies the base (src/qrl/xmssBase.h:37 suppresses its move constructor), which can throw,
so it is not `noexcept`, and the standard's `move_if_noexcept` makes the vector copy the elements into the new memory and then
destroy the old ones. The elements are the objects `as`; their copies are the next objects made, in this order. -/
def growOps (as : List Nat) : List FastOp := as.map .copy ++ as.map .destroy

/-- `std::swap(a, b)`: move-construct a temporary (the object `t` made next), assign by moving twice, destroy the temporary.
Uses the implicit members of src/qrl/xmssFast.h:12-37. -/
def swapOps (a b t : Nat) : List FastOp := [.move a, .moveAssign a b, .moveAssign b t, .destroy t]

end Qrl
