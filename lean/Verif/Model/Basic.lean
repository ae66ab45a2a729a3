/-!
# Outcomes, bytes and checked memory accesses

Conventions shared by the whole model of theQRL/qrllib.
-/

namespace Qrl

/-- `std::vector<uint8_t>` / `unsigned char[]` contents.
As in `TSEED`, `TKEY`, `TMESSAGE`, src/qrl/xmssBase.h:30-49. -/
abbrev Bytes := List UInt8

/-- C++ exceptions thrown by the library
(`std::invalid_argument`, `std::runtime_error`; see e.g. src/qrl/misc.cpp:51,142). -/
inductive Exc where
  | invalidArgument
  | runtimeError
  deriving DecidableEq, Repr

/-- Result of a call: normal return, C++ exception, or undefined behaviour
(out-of-bounds access, use of never-written memory, negative shift, division by zero …).
Vocabulary of the model, no code of its own; an exception is for instance src/qrl/misc.cpp:51, undefined behaviour for instance the use of an out-of-range enumerator at src/xmss-alt/hash.c:84. -/
inductive Outcome (α : Type) where
  | ok (a : α)
  | throw (e : Exc)
  | ub
  deriving DecidableEq, Repr

namespace Outcome

/-- Sequencing of calls: an exception or undefined behaviour ends the sequence. Vocabulary of the model; for instance
the statements of src/qrl/xmssBase.cpp:230-258. -/
def bind {α β : Type} (x : Outcome α) (f : α → Outcome β) : Outcome β :=
  match x with
  | ok a => f a
  | throw e => throw e
  | ub => ub

instance : Monad Outcome where
  pure := ok
  bind := Outcome.bind

@[simp] theorem pure_eq {α : Type} (a : α) : (pure a : Outcome α) = ok a := rfl
@[simp] theorem ok_bind {α β : Type} (a : α) (f : α → Outcome β) : (ok a >>= f) = f a := rfl
@[simp] theorem throw_bind {α β : Type} (e : Exc) (f : α → Outcome β) :
    ((throw e : Outcome α) >>= f) = throw e := rfl
@[simp] theorem ub_bind {α β : Type} (f : α → Outcome β) :
    ((ub : Outcome α) >>= f) = ub := rfl
@[simp] theorem map_ok {α β : Type} (f : α → β) (a : α) : (f <$> (ok a : Outcome α)) = ok (f a) := rfl

theorem bind_eq_ok {α β : Type} {x : Outcome α} {f : α → Outcome β} {b : β} :
    (x >>= f) = ok b ↔ ∃ a, x = ok a ∧ f a = ok b := by
  cases x <;> simp

/-- `try { body } catch (std::invalid_argument&) { return d; }`.
src/qrl/xmssBase.cpp:255. -/
def catchInvalid {α : Type} (x : Outcome α) (d : α) : Outcome α :=
  match x with
  | throw .invalidArgument => ok d
  | y => y

/-- A `nullopt`-free read: `none` (no such element / never written) is undefined behaviour.
For instance reading the variable-length array at src/xmss-alt/algsxmss.c:85. -/
def ofOption {α : Type} : Option α → Outcome α
  | some a => ok a
  | none => ub

@[simp] theorem ofOption_some {α : Type} (a : α) : ofOption (some a) = ok a := rfl

end Outcome

open Outcome

/-- Checked array read `l[i]`: out of bounds is undefined behaviour.
For instance src/xmss-alt/xmss_common.c:166-169. -/
def rd {α : Type} (l : List α) (i : Nat) : Outcome α := ofOption l[i]?

/-- Checked array write `l[i] = x`: out of bounds is undefined behaviour.
For instance src/xmss-alt/algsxmss.c:245-248. -/
def wr {α : Type} (l : List α) (i : Nat) (x : α) : Outcome (List α) :=
  if i < l.length then ok (l.set i x) else ub

/-- A 32-byte node slot of a buffer; `none` means its bytes were never written
(contents of a fresh variable-length array). Copying such a slot is allowed, using it is `ub`.
For instance src/xmss-alt/algsxmss.c:85. -/
abbrev Cell := Option Bytes

/-- Read the bytes of a slot for *use* (hashing, output): indeterminate contents are `ub`.
For instance the input of `hash_h` at src/xmss-alt/algsxmss.c:97-104. -/
def rdUse {α : Type} (l : List (Option α)) (i : Nat) : Outcome α := do
  let c ← rd l i
  ofOption c

/-- Checked read of `len` bytes at offset `off` of a byte buffer (`memcpy` source).
For instance src/xmss-alt/algsxmss_fast.c:683. -/
def slice (l : Bytes) (off len : Nat) : Outcome Bytes :=
  if off + len ≤ l.length then ok ((l.drop off).take len) else ub

/-- `to_byte(out, in, bytes)`: big-endian encoding on `bytes` bytes, higher bits dropped.
src/xmss-alt/xmss_common.c:18-24 (the loop runs from the last byte to the first). -/
def toByte (v : Nat) : Nat → Bytes
  | 0 => []
  | k + 1 => toByte (v / 256) k ++ [UInt8.ofNat (v % 256)]

/-- SHA-256 as provided by the absent dependency PicoSHA2 (`picosha2::hash256`,
used in src/shasha/shasha.cpp:6-11, src/qrl/hashing.cpp:24-28, src/qrl/qrlHelper.h:29,33,56).
The model is parametric in it: any function with 32-byte results. -/
structure Sha256 where
  hash : Bytes → Bytes
  length_hash : ∀ m, (hash m).length = 32

end Qrl
