import Verif.Model.Pool
/-!
# src/qrl/xmssPool.{h,cpp}: the end of a pool

`~XmssPool() = default` (xmssPool.h:33), and the unwinding of a constructor whose `fillCache` throws, both destroy the
members in the reverse order of their declaration. Background tasks go on meanwhile; each of them reads `_base_seed` and
`_height` of the pool (through `this`, xmssPool.cpp:24-26 and 74-91) at any time until it finishes, and nothing else of it.

A client must not destroy a pool during one of its calls; so the end starts in a state without calls in progress.
-/

namespace Qrl

/-- The data members, src/qrl/xmssPool.h:44-49. -/
inductive Member where
  | baseSeed | height | currentIndex | poolSize | cache | mutex
  deriving DecidableEq, Repr

/-- The members in the order of their declaration, src/qrl/xmssPool.h:44-49. -/
def members : List Member := [.baseSeed, .height, .currentIndex, .poolSize, .cache, .mutex]

/-- A pool that is being destroyed: the members that still exist, in the order in which they will be destroyed; the
futures still in the deque; all futures ever created; the temporary future of a `push_back` that threw, which is destroyed
before any member.
Members of src/qrl/xmssPool.h:44-49. -/
structure Dying where
  left : List Member
  cache : List Nat
  futs : List Fut
  temp : Option Nat
  deriving DecidableEq, Repr

/-- The destructor begins, src/qrl/xmssPool.h:32. -/
def Pool.destroy (s : Pool) : Dying := { left := members.reverse, cache := s.cache, futs := s.futs, temp := none }

/-- The constructor when `std::async` throws after `k` tasks were started, src/qrl/xmssPool.cpp:10-17 and 23-27: the
members, all of them constructed, are destroyed. -/
def poolNewFails (cfg : PoolCfg) (k : Nat) : Dying :=
  let (cache, futs) := fillAll k cfg.start.toNat [] []
  { left := members.reverse, cache := cache, futs := futs, temp := none }

/-- The constructor when `push_back` throws after `k` tasks were stored and one more was started, src/qrl/xmssPool.cpp:10-17 and
23-27: the temporary future is destroyed, then the members. -/
def poolNewDrops (cfg : PoolCfg) (k : Nat) : Dying :=
  let (cache, futs) := fillAll k cfg.start.toNat [] []
  { left := members.reverse, cache := cache,
    futs := futs ++ [{ idx := cfg.start.toNat + k, ready := false, taken := false }], temp := some futs.length }

/-- What a step of the end shows: a background task finished, and whether the two members it reads still existed.
`prepareTree` reads them at src/qrl/xmssPool.cpp:82 and 90. -/
inductive EndEv where
  | tau
  | ran (alive : Bool)
  deriving DecidableEq, Repr

/-- One step of the destructor or of a background task.
`~XmssPool`, src/qrl/xmssPool.h:32, against the tasks of src/qrl/xmssPool.cpp:24-26. -/
inductive EndStep : Dying → EndEv → Dying → Prop where
  /-- The temporary future is destroyed: its destructor waits for its task. -/
  | joinTemp {d : Dying} {f : Nat} {fu : Fut} (ht : d.temp = some f) (hf : d.futs[f]? = some fu) (hr : fu.ready = true) :
      EndStep d .tau { d with temp := none }
  /-- The deque destroys its first future: the destructor of a `std::async` future waits for its task. -/
  | join {d : Dying} {ms : List Member} {f : Nat} {rest : List Nat} {fu : Fut} (hl : d.left = .cache :: ms)
      (hc : d.cache = f :: rest) (hf : d.futs[f]? = some fu) (hr : fu.ready = true)
      (ht : d.temp = none) : EndStep d .tau { d with cache := rest }
  /-- The deque is empty and is freed. -/
  | freeCache {d : Dying} {ms : List Member} (hl : d.left = .cache :: ms) (hc : d.cache = []) (ht : d.temp = none) :
      EndStep d .tau { d with left := ms }
  /-- Another member is destroyed. -/
  | free {d : Dying} {m : Member} {ms : List Member} (hl : d.left = m :: ms) (hm : m ≠ .cache) (ht : d.temp = none) :
      EndStep d .tau { d with left := ms }
  /-- A background task finishes, src/qrl/xmssPool.cpp:24-26. -/
  | finish {d : Dying} {f : Nat} {fu : Fut} (hf : d.futs[f]? = some fu) (hr : fu.ready = false) :
      EndStep d (.ran (decide (Member.baseSeed ∈ d.left ∧ Member.height ∈ d.left)))
        { d with futs := d.futs.set f { fu with ready := true } }

/-- A schedule of the end.
Of `~XmssPool`, src/qrl/xmssPool.h:32. -/
inductive EndRun : Dying → List EndEv → Dying → Prop where
  | refl (d : Dying) : EndRun d [] d
  | step {d d' d'' : Dying} {tr : List EndEv} {e : EndEv} (h : EndRun d tr d') (hs : EndStep d' e d'') :
      EndRun d (tr ++ [e]) d''

end Qrl
