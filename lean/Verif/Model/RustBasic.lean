import Verif.Model.Keccak
/-!
# Conventions for the Rust port (src/rust_wrapper)

The Rust port is a second implementation of the library (src/lib.rs). Its model lives in the namespace `Qrl.Rs`.
A call returns a value, returns `Err`, or panics. `usize` has 64 bits. Arithmetic on `u32` that overflows panics in a
build with overflow checks and wraps in one without (Cargo.toml sets no profile, so `cargo build` checks and
`cargo build --release` does not); the places where this can happen take the build as an argument.
-/

namespace Qrl.Rs

/-- `QRLError`, src/rust_wrapper/errors.rs:1-5, without the message text. -/
inductive Err where
  | invalidArgument
  | failedConversion
  deriving DecidableEq, Repr

/-- Result of a call: `Ok` or plain return, `Err`, or a panic.
Errors are src/rust_wrapper/errors.rs:1-5; a panic is for instance the `unwrap` at src/rust_wrapper/xmss_alt/wots.rs:68. -/
inductive Res (α : Type) where
  | ok (a : α)
  | err (e : Err)
  | panic
  deriving DecidableEq, Repr

namespace Res

/-- Sequencing of calls: `Err` (the `?` operator, for instance src/rust_wrapper/qrl/xmss_pool.rs:53) or a panic ends
the sequence. -/
def bind {α β : Type} (x : Res α) (f : α → Res β) : Res β :=
  match x with
  | ok a => f a
  | err e => err e
  | panic => panic

instance : Monad Res where
  pure := ok
  bind := Res.bind

@[simp] theorem pure_eq {α : Type} (a : α) : (pure a : Res α) = ok a := rfl
@[simp] theorem ok_bind {α β : Type} (a : α) (f : α → Res β) : (ok a >>= f) = f a := rfl
@[simp] theorem err_bind {α β : Type} (e : Err) (f : α → Res β) : ((err e : Res α) >>= f) = err e := rfl
@[simp] theorem panic_bind {α β : Type} (f : α → Res β) : ((panic : Res α) >>= f) = panic := rfl
@[simp] theorem map_ok {α β : Type} (f : α → β) (a : α) : (f <$> (ok a : Res α)) = ok (f a) := rfl

theorem bind_eq_ok {α β : Type} {x : Res α} {f : α → Res β} {b : β} :
    (x >>= f) = ok b ↔ ∃ a, x = ok a ∧ f a = ok b := by
  cases x <;> simp

end Res

open Res

/-- Overflow checks on (`debug`) or off (`release`).
Language rule; the arithmetic it governs is for instance src/rust_wrapper/xmss_alt/algsxmss.rs:105. -/
inductive Build where
  | debug
  | release
  deriving DecidableEq, Repr

/-- The mathematical result `x` of a `u32` addition or multiplication.
For instance `index + (1 << height)`, src/rust_wrapper/xmss_alt/algsxmss.rs:105. -/
def u32 (b : Build) (x : Nat) : Res Nat :=
  if x < 2 ^ 32 then ok x
  else match b with
    | .debug => panic
    | .release => ok (x % 2 ^ 32)

/-- `1 << h` as `u32`: a shift by 32 or more panics in a checked build, otherwise the amount is taken modulo 32.
For instance src/rust_wrapper/xmss_alt/algsxmss.rs:105. -/
def shl1 (b : Build) (h : Nat) : Res Nat :=
  if h < 32 then ok (2 ^ h)
  else match b with
    | .debug => panic
    | .release => ok (2 ^ (h % 32))

/-- `x >> s` on `u32`, same rule for the amount.
For instance `idx >> (level + 1)`, src/rust_wrapper/xmss_alt/algsxmss_fast.rs:223. -/
def shr (b : Build) (x s : Nat) : Res Nat :=
  if s < 32 then ok (x >>> s)
  else match b with
    | .debug => panic
    | .release => ok (x >>> (s % 32))

/-- `x - y` on `u32`.
For instance src/rust_wrapper/qrl/xmss_base.rs:329. -/
def u32sub (b : Build) (x y : Nat) : Res Nat :=
  if y ≤ x then ok (x - y)
  else match b with
    | .debug => panic
    | .release => ok ((x + 2 ^ 32 - y % 2 ^ 32) % 2 ^ 32)

/-- Indexing `l[i]`: panics out of range.
For instance src/rust_wrapper/xmss_alt/xmss_common.rs:185-188. -/
def rd {α : Type} (l : List α) (i : Nat) : Res α :=
  match l[i]? with
  | some a => ok a
  | none => panic

/-- Assignment `l[i] = x`: panics out of range.
For instance src/rust_wrapper/xmss_alt/algsxmss.rs:384-387. -/
def wr {α : Type} (l : List α) (i : Nat) (x : α) : Res (List α) :=
  if i < l.length then ok (l.set i x) else panic

/-- `l[off..off + len]`, or `l.get(off..off + len).unwrap()`: panics out of range.
For instance src/rust_wrapper/xmss_alt/algsxmss_fast.rs:928. -/
def slice (l : Bytes) (off len : Nat) : Res Bytes :=
  if off + len ≤ l.length then ok ((l.drop off).take len) else panic

/-- Slot `i` of a `Vec<u8>` seen as a list of 32-byte slots; `none` is a slot that still holds the zeros of `vec![0; …]`.
For instance src/rust_wrapper/xmss_alt/algsxmss.rs:101. -/
def rdNode (l : List Cell) (i : Nat) : Res Bytes :=
  match l[i]? with
  | some (some x) => ok x
  | some none => ok (List.replicate 32 0)
  | none => panic

end Qrl.Rs
