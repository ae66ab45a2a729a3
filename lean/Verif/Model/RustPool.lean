import Verif.Model.RustMisc
/-!
# src/rust_wrapper/qrl/xmss_pool.rs

`ThreadPool::install` runs its closure on a worker thread and waits for it (a panic of the closure is passed on), so when
`fill_cache` returns every channel of the cache holds its message. All methods take `&mut self` or have no effect: calls
are sequential. Building the thread pool itself is assumed to succeed.
-/

namespace Qrl.Rs

open Res

/-- The mathematical result `x` of a `usize` addition.
For instance src/rust_wrapper/qrl/xmss_pool.rs:57-58. -/
def usize (b : Build) (x : Nat) : Res Nat :=
  if x < 2 ^ 64 then ok x
  else match b with
    | .debug => panic
    | .release => ok (x % 2 ^ 64)

/-- `XMSSPool`, src/rust_wrapper/qrl/xmss_pool.rs:10-17; `cache` holds, for each receiver, the message waiting in its channel. -/
structure XMSSPool where
  baseSeed : Bytes
  height : UInt8
  currentIndex : Nat
  maxCacheSize : Nat
  cache : List (Except Err XMSSFast)

/-- `usize::to_string`, used in src/rust_wrapper/qrl/xmss_pool.rs:50. -/
def decimal (n : Nat) : Str := Nat.toDigits 10 n

/-- `prepare_tree`, src/rust_wrapper/qrl/xmss_pool.rs:39-54. The defaults of `XMSSFast::new` are SHAKE128 and w = 16
(src/rust_wrapper/qrl/xmss_fast.rs:81 and 18). -/
def XMSSPool.prepareTree (b : Build) (S : Sha256) (p : XMSSPool) (index : Nat) : Res XMSSFast := do
  let next ← usize b (index + 1)
  let seedStr := bin2hstr p.baseSeed 0 ++ decimal next
  let stakeSeed := sha2_256 S (str2bin seedStr)
  let head ← slice stakeSeed 0 16
  XMSSFast.new b S (stakeSeed ++ head) p.height .shake_128 16

/-- The loop of `fill_cache` over `start..end`, `k` iterations from `i`: src/rust_wrapper/qrl/xmss_pool.rs:59-65. -/
def XMSSPool.fillLoop (b : Build) (S : Sha256) (p : XMSSPool) (i : Nat) : Nat → Res XMSSPool
  | 0 => ok p
  | k + 1 =>
    match p.prepareTree b S i with
    | .ok t => fillLoop b S { p with cache := p.cache ++ [.ok t] } (i + 1) k
    | .err e => fillLoop b S { p with cache := p.cache ++ [.error e] } (i + 1) k
    | .panic => panic

/-- `fill_cache`, src/rust_wrapper/qrl/xmss_pool.rs:56-66 (an empty range if `end <= start`). -/
def XMSSPool.fillCache (b : Build) (S : Sha256) (p : XMSSPool) : Res XMSSPool := do
  let start ← usize b (p.currentIndex + p.cache.length)
  let stop ← usize b (p.currentIndex + p.maxCacheSize)
  p.fillLoop b S start (stop - start)

/-- `XMSSPool::new`, src/rust_wrapper/qrl/xmss_pool.rs:20-37. -/
def XMSSPool.new (b : Build) (S : Sha256) (baseSeed : Bytes) (height : UInt8) (startingIndex maxCacheSize : Nat) :
    Res XMSSPool :=
  XMSSPool.fillCache b S
    { baseSeed := baseSeed, height := height, currentIndex := startingIndex, maxCacheSize := maxCacheSize, cache := [] }

/-- `get_next_tree`, src/rust_wrapper/qrl/xmss_pool.rs:68-86. `recv` finds its message at once, so its `Err` arm is dead;
`r?` returns early, without `fill_cache`. -/
def XMSSPool.getNextTree (b : Build) (S : Sha256) (p : XMSSPool) : Step XMSSPool XMSSFast :=
  match p.cache with
  | [] =>
    match p.prepareTree b S p.currentIndex with
    | .panic => .panic
    | answer =>
      match (do let i ← usize b (p.currentIndex + 1); XMSSPool.fillCache b S { p with currentIndex := i }) with
      | .ok p' =>
        match answer with
        | .ok t => .ret t p'
        | .err e => .fail e p'
        | .panic => .panic
      | .err e => .fail e p
      | .panic => .panic
  | r :: rest =>
    match usize b (p.currentIndex + 1) with
    | .ok i =>
      match r with
      | .error e => .fail e { p with currentIndex := i, cache := rest }
      | .ok t =>
        match XMSSPool.fillCache b S { p with currentIndex := i, cache := rest } with
        | .ok p' => .ret t p'
        | .err e => .fail e p
        | .panic => .panic
    | .err e => .fail e p
    | .panic => .panic

/-- `is_available`, src/rust_wrapper/qrl/xmss_pool.rs:88-93: the channel in front is full. -/
def XMSSPool.isAvailable (p : XMSSPool) : Bool := !p.cache.isEmpty

/-- `get_current_index`, src/rust_wrapper/qrl/xmss_pool.rs:95-97. -/
def XMSSPool.getCurrentIndex (p : XMSSPool) : Nat := p.currentIndex

end Qrl.Rs
