import Verif.Model.Keccak
/-!
# src/qrl/hashing.cpp

`shake128`/`shake256` of hashing.cpp:12-22 are in `Verif.Model.Keccak`.
-/

namespace Qrl

open Outcome

/-- `sha2_256`, src/qrl/hashing.cpp:24-28. -/
def sha2_256 (S : Sha256) (input : Bytes) : Bytes := S.hash input

/-- The loop `for (i = 1; i < count; i++) hash256(out, out)` of src/qrl/hashing.cpp:38-40,
with `k = count - i` iterations left. -/
def sha2Loop (S : Sha256) : Nat → Bytes → Bytes
  | 0, out => out
  | k + 1, out => sha2Loop S k (S.hash out)

/-- `sha2_256_n`, src/qrl/hashing.cpp:30-43. -/
def sha2_256_n (S : Sha256) (input : Bytes) (count : Nat) : Outcome Bytes :=
  if count = 0 then throw .invalidArgument
  else ok (sha2Loop S (count - 1) (S.hash input))

end Qrl
