import Verif.Model.XmssApi
/-!
# src/qrl/xmssPool.{h,cpp}: the pool of pre-computed trees, with threads

The pool is a transition system. A state holds the members of the object (`_current_index`, `_cache`, the owner of
`_mutex`), all futures ever created, and the program counter of each client thread. One step is one action of one
client thread or the completion of one background task; a schedule is any sequence of steps. `_base_seed` and `_height`
never change after construction, so they are in the configuration.

Simplifications: `size_t` has 64 bits; construction, which no other thread can see (xmssPool.cpp:15), is done in one go,
with all background tasks still running at its end (a task that is already finished is one that finishes at once
afterwards); destroying the pool is in `Model/PoolEnd`; the body of `isAvailable` and
`getCurrentIndex` after locking, and the release of the lock, are one step (nobody else can touch the members meanwhile,
only a task can complete, which is before or after the one test of it); if a thread cannot be started, `std::async`
throws and the exception leaves `getNextTree`. Running out of memory (`std::bad_alloc`) is possible wherever a call or a
background task allocates: while a tree is built, in `std::async`, and in `push_back` of the deque. The exception of a
background task is kept in its future; whether it failed is decided when `get()` is called, which nobody can tell from
deciding it earlier.
-/

namespace Qrl

open Outcome

/-- The two members that never change, and the constructor arguments, src/qrl/xmssPool.h:44-47. -/
structure PoolCfg where
  S : Sha256
  baseSeed : Bytes
  height : UInt8
  start : UInt64
  poolSize : UInt64

/-- The bytes appended by the loop of `prepareTree`, src/qrl/xmssPool.cpp:84-88. -/
def indexBytes (idx : Nat) : Bytes :=
  if h : idx > 0 then UInt8.ofNat (idx &&& 0xFF) :: indexBytes (idx >>> 8) else []
termination_by idx
decreasing_by rw [Nat.shiftRight_eq_div_pow]; exact Nat.div_lt_self h (by omega)

/-- What `prepareTree` hashes, src/qrl/xmssPool.cpp:82-88 (`index + 1` in `size_t`). -/
def treeSeedInput (baseSeed : Bytes) (index : Nat) : Bytes := baseSeed ++ indexBytes ((index + 1) % 2 ^ 64)

/-- `XmssPool::prepareTree`, src/qrl/xmssPool.cpp:74-91, with the default arguments SHAKE_128 and SHA256_2X of the
`XmssFast` constructor (src/qrl/xmssFast.h:15-18). -/
def prepareTree (cfg : PoolCfg) (index : Nat) : Outcome XmssFast :=
  XmssFast.new cfg.S (shake256 48 (treeSeedInput cfg.baseSeed index)) cfg.height 1 addrFormatSHA256_2X

/-- A `std::future` of a background `prepareTree(idx)`: has the task finished, has `get()` been called.
An element of `_cache`, src/qrl/xmssPool.h:48. -/
structure Fut where
  idx : Nat
  ready : Bool
  taken : Bool
  deriving DecidableEq, Repr

/-- Where a client thread is. `ghost` is the index the thread has claimed; no code reads it.
The statements of `getNextTree`, `isAvailable` and `getCurrentIndex`, src/qrl/xmssPool.cpp:30-72 and src/qrl/xmssPool.h:38-41. -/
inductive Pc where
  /-- Not in a call. -/
  | idle
  /-- `getNextTree`, waiting for the lock (xmssPool.cpp:36). -/
  | lockNext
  /-- `getNextTree`, lock taken (xmssPool.cpp:38). -/
  | inNext
  /-- `getNextTree`, in `fillCache` (xmssPool.cpp:51 and 23-27) with `pending = f`, loop variable `i`, bound `e`. -/
  | fill (f i e ghost : Nat)
  /-- `getNextTree`, about to release the lock after a hit (xmssPool.cpp:53). -/
  | unlockHit (f ghost : Nat)
  /-- `getNextTree`, about to release the lock after a miss (xmssPool.cpp:53). -/
  | unlockMiss (index : Nat)
  /-- `getNextTree`, building inline (xmssPool.cpp:55-57). -/
  | build (index : Nat)
  /-- `getNextTree`, in `pending.get()` (xmssPool.cpp:59). -/
  | wait (f ghost : Nat)
  /-- `push_back` threw in `fillCache` (xmssPool.cpp:24): the lock is still held, and the destructor of the temporary
  future `n` waits for the task that has just been started. -/
  | drop (f n ghost : Nat)
  /-- `std::async` or `push_back` threw: unwinding, the destructor of `pending` waits for its task. -/
  | unwind (f ghost : Nat)
  /-- `isAvailable`, before and after locking (xmssPool.cpp:63). -/
  | lockAvail
  | inAvail
  /-- `getCurrentIndex`, before and after locking (xmssPool.h:39). -/
  | lockIndex
  | inIndex
  deriving DecidableEq, Repr

/-- The state of a pool and its client threads. `cache` has the identifiers of the futures in the deque.
Its members are src/qrl/xmssPool.h:43-49. -/
structure Pool where
  current : Nat
  cache : List Nat
  futs : List Fut
  lock : Option Nat
  pcs : List Pc
  deriving DecidableEq, Repr

/-- What a step shows. `tree`, `threw` (by `fillCache`), `noMemory` (`bad_alloc` of building the tree), `available`, `index` are returns of calls; `claim` is internal (the index an
ongoing `getNextTree` takes while it has the lock); `broken` is a second `get()` on one future; `tau` the rest.
src/qrl/xmssPool.cpp:30-72. -/
inductive Ev where
  | tau
  | call (t : Nat)
  | claim (t index : Nat)
  | tree (t : Nat) (r : Outcome XmssFast)
  | threw (t : Nat)
  | noMemory (t : Nat)
  | available (t : Nat) (b : Bool)
  | index (t n : Nat)
  | broken

/-- The members after the loop of `fillCache` (xmssPool.cpp:23-27), `m` iterations from `i`. -/
def fillAll : Nat → Nat → List Nat → List Fut → List Nat × List Fut
  | 0, _, cache, futs => (cache, futs)
  | m + 1, i, cache, futs =>
    fillAll m (i + 1) (cache ++ [futs.length]) (futs ++ [{ idx := i, ready := false, taken := false }])

/-- `XmssPool::XmssPool`, src/qrl/xmssPool.cpp:10-17, when every thread could be started; `n` client threads. The loop
runs from `start` to `end = start + pool_size` in `size_t`. -/
def poolNew (cfg : PoolCfg) (n : Nat) : Pool :=
  let e := (cfg.start.toNat + cfg.poolSize.toNat) % 2 ^ 64
  let (cache, futs) := fillAll (e - cfg.start.toNat) cfg.start.toNat [] []
  { current := cfg.start.toNat, cache := cache, futs := futs, lock := none, pcs := List.replicate n .idle }

/-- One step of thread `t` or of a background task.
src/qrl/xmssPool.cpp:19-72. -/
inductive PoolStep (cfg : PoolCfg) : Pool → Ev → Pool → Prop where
  /-- A call of `getNextTree`. -/
  | callNext {s : Pool} {t : Nat} (h : s.pcs[t]? = some .idle) :
      PoolStep cfg s (.call t) { s with pcs := s.pcs.set t .lockNext }
  /-- A call of `isAvailable`. -/
  | callAvail {s : Pool} {t : Nat} (h : s.pcs[t]? = some .idle) :
      PoolStep cfg s (.call t) { s with pcs := s.pcs.set t .lockAvail }
  /-- A call of `getCurrentIndex`. -/
  | callIndex {s : Pool} {t : Nat} (h : s.pcs[t]? = some .idle) :
      PoolStep cfg s (.call t) { s with pcs := s.pcs.set t .lockIndex }
  /-- `lock_guard`, xmssPool.cpp:36. -/
  | lockNext {s : Pool} {t : Nat} (h : s.pcs[t]? = some .lockNext) (hl : s.lock = none) :
      PoolStep cfg s .tau { s with lock := some t, pcs := s.pcs.set t .inNext }
  /-- `lock_guard`, xmssPool.cpp:63. -/
  | lockAvail {s : Pool} {t : Nat} (h : s.pcs[t]? = some .lockAvail) (hl : s.lock = none) :
      PoolStep cfg s .tau { s with lock := some t, pcs := s.pcs.set t .inAvail }
  /-- `lock_guard`, xmssPool.h:39. -/
  | lockIndex {s : Pool} {t : Nat} (h : s.pcs[t]? = some .lockIndex) (hl : s.lock = none) :
      PoolStep cfg s .tau { s with lock := some t, pcs := s.pcs.set t .inIndex }
  /-- The cache is empty: xmssPool.cpp:38-41. -/
  | miss {s : Pool} {t : Nat} (h : s.pcs[t]? = some .inNext) (hc : s.cache = []) :
      PoolStep cfg s (.claim t s.current)
        { s with current := (s.current + 1) % 2 ^ 64, pcs := s.pcs.set t (.unlockMiss s.current) }
  /-- The cache has a front: xmssPool.cpp:47-51 and the bounds of the loop of `fillCache`, 20-21. -/
  | hit {s : Pool} {t f : Nat} {rest : List Nat} (h : s.pcs[t]? = some .inNext) (hc : s.cache = f :: rest) :
      PoolStep cfg s (.claim t s.current)
        { s with current := (s.current + 1) % 2 ^ 64, cache := rest, pcs := s.pcs.set t (.fill f (((s.current + 1) % 2 ^ 64 + rest.length) % 2 ^ 64) (((s.current + 1) % 2 ^ 64 + cfg.poolSize.toNat) % 2 ^ 64) s.current) }
  /-- One iteration of `fillCache`: xmssPool.cpp:23-27. -/
  | fillPush {s : Pool} {t f i e g : Nat} (h : s.pcs[t]? = some (.fill f i e g)) (hi : i < e) :
      PoolStep cfg s .tau
        { s with cache := s.cache ++ [s.futs.length], futs := s.futs ++ [{ idx := i, ready := false, taken := false }], pcs := s.pcs.set t (.fill f (i + 1) e g) }
  /-- `std::async` throws in an iteration of `fillCache`; the lock is released on the way out. -/
  | fillFail {s : Pool} {t f i e g : Nat} (h : s.pcs[t]? = some (.fill f i e g)) (hi : i < e) :
      PoolStep cfg s .tau { s with lock := none, pcs := s.pcs.set t (.unwind f g) }
  /-- `push_back` throws in an iteration of `fillCache`, after the task was started: xmssPool.cpp:24. The deque is unchanged. -/
  | pushFail {s : Pool} {t f i e g : Nat} (h : s.pcs[t]? = some (.fill f i e g)) (hi : i < e) :
      PoolStep cfg s .tau
        { s with futs := s.futs ++ [{ idx := i, ready := false, taken := false }], pcs := s.pcs.set t (.drop f s.futs.length g) }
  /-- The task of the temporary future is finished; the lock is released on the way out: xmssPool.cpp:24 and 53. -/
  | dropped {s : Pool} {t f n g : Nat} (h : s.pcs[t]? = some (.drop f n g))
      (hr : ∀ fu, s.futs[n]? = some fu → fu.ready = true) :
      PoolStep cfg s .tau { s with lock := none, pcs := s.pcs.set t (.unwind f g) }
  /-- The loop of `fillCache` ends: xmssPool.cpp:23. -/
  | fillDone {s : Pool} {t f i e g : Nat} (h : s.pcs[t]? = some (.fill f i e g)) (hi : ¬ i < e) :
      PoolStep cfg s .tau { s with pcs := s.pcs.set t (.unlockHit f g) }
  /-- The lock is released after a hit: xmssPool.cpp:53. -/
  | unlockHit {s : Pool} {t f g : Nat} (h : s.pcs[t]? = some (.unlockHit f g)) :
      PoolStep cfg s .tau { s with lock := none, pcs := s.pcs.set t (.wait f g) }
  /-- The lock is released after a miss: xmssPool.cpp:53. -/
  | unlockMiss {s : Pool} {t i : Nat} (h : s.pcs[t]? = some (.unlockMiss i)) :
      PoolStep cfg s .tau { s with lock := none, pcs := s.pcs.set t (.build i) }
  /-- The tree is built inline and returned, or its exception thrown: xmssPool.cpp:55-57. -/
  | build {s : Pool} {t i : Nat} (h : s.pcs[t]? = some (.build i)) :
      PoolStep cfg s (.tree t (prepareTree cfg i)) { s with pcs := s.pcs.set t .idle }
  /-- There is not enough memory to build the tree inline: xmssPool.cpp:55-57. -/
  | buildFail {s : Pool} {t i : Nat} (h : s.pcs[t]? = some (.build i)) :
      PoolStep cfg s (.noMemory t) { s with pcs := s.pcs.set t .idle }
  /-- `pending.get()` on a finished task returns its tree or rethrows its exception: xmssPool.cpp:59. -/
  | get {s : Pool} {t f g : Nat} {fu : Fut} (h : s.pcs[t]? = some (.wait f g)) (hf : s.futs[f]? = some fu)
      (hr : fu.ready = true) (ht : fu.taken = false) :
      PoolStep cfg s (.tree t (prepareTree cfg fu.idx))
        { s with futs := s.futs.set f { fu with taken := true }, pcs := s.pcs.set t .idle }
  /-- `pending.get()` on a task that ran out of memory rethrows: xmssPool.cpp:59. -/
  | getFail {s : Pool} {t f g : Nat} {fu : Fut} (h : s.pcs[t]? = some (.wait f g)) (hf : s.futs[f]? = some fu)
      (hr : fu.ready = true) (ht : fu.taken = false) :
      PoolStep cfg s (.noMemory t) { s with futs := s.futs.set f { fu with taken := true }, pcs := s.pcs.set t .idle }
  /-- `pending.get()` on a future that has no state any more, or was never created. -/
  | getBroken {s : Pool} {t f g : Nat} (h : s.pcs[t]? = some (.wait f g))
      (hf : ∀ fu, s.futs[f]? = some fu → fu.taken = true) :
      PoolStep cfg s .broken { s with pcs := s.pcs.set t .idle }
  /-- The exception of `std::async` leaves `getNextTree` once the task of `pending` has finished. -/
  | unwound {s : Pool} {t f g : Nat} {fu : Fut} (h : s.pcs[t]? = some (.unwind f g)) (hf : s.futs[f]? = some fu)
      (hr : fu.ready = true) :
      PoolStep cfg s (.threw t) { s with pcs := s.pcs.set t .idle }
  /-- `isAvailable` on an empty cache: xmssPool.cpp:67-69. -/
  | availEmpty {s : Pool} {t : Nat} (h : s.pcs[t]? = some .inAvail) (hc : s.cache = []) :
      PoolStep cfg s (.available t false) { s with lock := none, pcs := s.pcs.set t .idle }
  /-- `isAvailable` on a non-empty cache: xmssPool.cpp:71. -/
  | availFront {s : Pool} {t f : Nat} {rest : List Nat} {fu : Fut} (h : s.pcs[t]? = some .inAvail)
      (hc : s.cache = f :: rest) (hf : s.futs[f]? = some fu) :
      PoolStep cfg s (.available t fu.ready) { s with lock := none, pcs := s.pcs.set t .idle }
  /-- `getCurrentIndex`: xmssPool.h:38-41. -/
  | index {s : Pool} {t : Nat} (h : s.pcs[t]? = some .inIndex) :
      PoolStep cfg s (.index t s.current) { s with lock := none, pcs := s.pcs.set t .idle }
  /-- A background task finishes: xmssPool.cpp:24-26. -/
  | finish {s : Pool} {f : Nat} {fu : Fut} (hf : s.futs[f]? = some fu) (hr : fu.ready = false) :
      PoolStep cfg s .tau { s with futs := s.futs.set f { fu with ready := true } }

/-- A schedule: any sequence of steps, with what it shows.
Threads running src/qrl/xmssPool.cpp:19-72. -/
inductive PoolRun (cfg : PoolCfg) : Pool → List Ev → Pool → Prop where
  | refl (s : Pool) : PoolRun cfg s [] s
  | step {s s' s'' : Pool} {tr : List Ev} {e : Ev} (h : PoolRun cfg s tr s') (hs : PoolStep cfg s' e s'') :
      PoolRun cfg s (tr ++ [e]) s''

end Qrl
