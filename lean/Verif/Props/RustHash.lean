import Verif.Proof.RustKeccak
import Verif.Props.Fips202
import Verif.Props.Hashing
/-!
# C50: the hash functions of the Rust port (src/rust_wrapper/qrl/hashing.rs)
-/

namespace Qrl.Props

open Qrl.Spec.Fips202

/-- C50. On a message shorter than one block, `shake128` returns the FIPS 202 value. -/
theorem C50_shake128_short (n : Nat) (m : Bytes) (h : m.length < 168) :
    ∃ out, Rs.shake128 n m = .ok out ∧ out.length = n ∧ bits out = SHAKE128 (bits m) (8 * n) :=
  ⟨shake128 n m, Rs.fipsShake128_short n m h, length_shake128 n m, C32_shake128 n m⟩

/-- C50. On a message shorter than one block, `shake256` returns the FIPS 202 value. -/
theorem C50_shake256_short (n : Nat) (m : Bytes) (h : m.length < 136) :
    ∃ out, Rs.shake256 n m = .ok out ∧ out.length = n ∧ bits out = SHAKE256 (bits m) (8 * n) :=
  ⟨shake256 n m, Rs.fipsShake256_short n m h, length_shake256 n m, C32_shake256 n m⟩

/-- C50. On a message of at least one and less than two blocks, `shake128` returns the FIPS 202 value of another string:
the first block followed by the beginning of the message once more. -/
theorem C50_shake128_second_block (n : Nat) (m : Bytes) (h1 : 168 ≤ m.length) (h2 : m.length < 336) :
    ∃ out, Rs.shake128 n m = .ok out ∧
      bits out = SHAKE128 (bits (m.take 168 ++ m.take (m.length - 168))) (8 * n) := by
  refine ⟨_, ?_, C32_shake128 n _⟩
  rw [Rs.shake128, Rs.fipsShake128_eq, Spec.rustAbsorbed, if_neg (by omega), if_pos h2]

/-- C50. On a message of at least one and less than two blocks, `shake256` returns the FIPS 202 value of another string:
the first block followed by the beginning of the message once more. -/
theorem C50_shake256_second_block (n : Nat) (m : Bytes) (h1 : 136 ≤ m.length) (h2 : m.length < 272) :
    ∃ out, Rs.shake256 n m = .ok out ∧
      bits out = SHAKE256 (bits (m.take 136 ++ m.take (m.length - 136))) (8 * n) := by
  refine ⟨_, ?_, C32_shake256 n _⟩
  rw [Rs.shake256, Rs.fipsShake256_eq, Spec.rustAbsorbed, if_neg (by omega), if_pos h2]

/-- C50. `shake128` panics exactly on messages of two blocks and more, whatever the output length. -/
theorem C50_shake128_panics (n : Nat) (m : Bytes) : Rs.shake128 n m = .panic ↔ 336 ≤ m.length := by
  rw [Rs.shake128, Rs.fipsShake128_eq, Spec.rustAbsorbed]
  by_cases h1 : m.length < 168
  · rw [if_pos h1]; simp; omega
  · rw [if_neg h1]
    by_cases h2 : m.length < 336
    · rw [if_pos h2]; simp; omega
    · rw [if_neg h2]; simp; omega

/-- C50. `shake256` panics exactly on messages of two blocks and more, whatever the output length. -/
theorem C50_shake256_panics (n : Nat) (m : Bytes) : Rs.shake256 n m = .panic ↔ 272 ≤ m.length := by
  rw [Rs.shake256, Rs.fipsShake256_eq, Spec.rustAbsorbed]
  by_cases h1 : m.length < 136
  · rw [if_pos h1]; simp; omega
  · rw [if_neg h1]
    by_cases h2 : m.length < 272
    · rw [if_pos h2]; simp; omega
    · rw [if_neg h2]; simp; omega

theorem take_take_eq {m m' : Bytes} {r k : Nat} (hk : k ≤ r) (h : m.take r = m'.take r) : m.take k = m'.take k := by
  have := congrArg (List.take k) h
  rwa [List.take_take, List.take_take, Nat.min_eq_left hk] at this

/-- C50. Collision resistance is lost: two messages of the same length below two blocks with the same first block have the
same hash, for every output length. -/
theorem C50_shake128_collisions (n : Nat) (m m' : Bytes) (hl : m.length = m'.length) (h2 : m.length < 336)
    (hp : m.take 168 = m'.take 168) : Rs.shake128 n m = Rs.shake128 n m' := by
  by_cases h1 : m.length < 168
  · rw [List.take_of_length_le (by omega), List.take_of_length_le (by omega)] at hp
    rw [hp]
  · simp only [Rs.shake128, Rs.fipsShake128_eq, Spec.rustAbsorbed]
    rw [if_neg h1, if_pos h2, if_neg (by omega), if_pos (by omega), hp, ← hl, take_take_eq (by omega) hp]

/-- C50. Collision resistance is lost: two messages of the same length below two blocks with the same first block have the
same hash, for every output length. -/
theorem C50_shake256_collisions (n : Nat) (m m' : Bytes) (hl : m.length = m'.length) (h2 : m.length < 272)
    (hp : m.take 136 = m'.take 136) : Rs.shake256 n m = Rs.shake256 n m' := by
  by_cases h1 : m.length < 136
  · rw [List.take_of_length_le (by omega), List.take_of_length_le (by omega)] at hp
    rw [hp]
  · simp only [Rs.shake256, Rs.fipsShake256_eq, Spec.rustAbsorbed]
    rw [if_neg h1, if_pos h2, if_neg (by omega), if_pos (by omega), hp, ← hl, take_take_eq (by omega) hp]

/-- A message of one block and one byte whose last byte is not its first. -/
def tailed (r : Nat) : Bytes := List.replicate r 0 ++ [1]

/-- C50. FIPS 202 refuted: the port returns a wrong SHAKE128 value (and does not panic) for a message of 169 bytes. -/
theorem C50_shake128_fips_refuted :
    ∃ m out, m.length = 169 ∧ Rs.shake128 4 m = .ok out ∧ bits out ≠ SHAKE128 (bits m) (8 * 4) := by
  have e : Rs.shake128 4 (tailed 168) = .ok (shake128 4 (List.replicate 169 0)) := by
    rw [Rs.shake128, Rs.fipsShake128_eq,
      show Spec.rustAbsorbed 168 (tailed 168) = some (List.replicate 169 0) by decide +kernel]
  refine ⟨tailed 168, _, rfl, e, ?_⟩
  rw [← C32_shake128]
  intro h
  have := C32_bits_injective _ _ h
  revert this
  decide +kernel

/-- C50. FIPS 202 refuted: the port returns a wrong SHAKE256 value (and does not panic) for a message of 137 bytes. -/
theorem C50_shake256_fips_refuted :
    ∃ m out, m.length = 137 ∧ Rs.shake256 4 m = .ok out ∧ bits out ≠ SHAKE256 (bits m) (8 * 4) := by
  have e : Rs.shake256 4 (tailed 136) = .ok (shake256 4 (List.replicate 137 0)) := by
    rw [Rs.shake256, Rs.fipsShake256_eq,
      show Spec.rustAbsorbed 136 (tailed 136) = some (List.replicate 137 0) by decide +kernel]
  refine ⟨tailed 136, _, rfl, e, ?_⟩
  rw [← C32_shake256]
  intro h
  have := C32_bits_injective _ _ h
  revert this
  decide +kernel

/-- C50. The port and the C++ library agree on messages shorter than one block. -/
theorem C50_shake_agrees (n : Nat) (m : Bytes) :
    (m.length < 168 → Rs.shake128 n m = .ok (shake128 n m)) ∧ (m.length < 136 → Rs.shake256 n m = .ok (shake256 n m)) :=
  ⟨Rs.fipsShake128_short n m, Rs.fipsShake256_short n m⟩

/-- C50. `sha2_256_n` fails exactly for count 0 and is otherwise `count`-fold SHA-256: as in C++. -/
theorem C50_sha2_n (S : Sha256) (x : Bytes) (c : Nat) :
    Rs.sha2_256_n S x 0 = .err .invalidArgument ∧ (0 < c → Rs.sha2_256_n S x c = .ok (times (sha2_256 S) c x)) := by
  refine ⟨rfl, fun h => ?_⟩
  have e : ∀ k y, Rs.sha2Loop S k y = times S.hash k y := by
    intro k
    induction k with
    | zero => intro y; rfl
    | succ k ih => intro y; rw [Rs.sha2Loop, ih, Rs.sha2_256, times_shift]
  obtain ⟨c, rfl⟩ : ∃ d, c = d + 1 := ⟨c - 1, by omega⟩
  simp only [Rs.sha2_256_n, Nat.add_one_sub_one, e, Rs.sha2_256, times_shift]
  simp only [Nat.add_one_ne_zero, if_false]
  rfl

example : ([1, 2, 3] : Bytes).length < 136 := by decide
example : 168 ≤ (tailed 168).length ∧ (tailed 168).length < 336 ∧ tailed 168 ≠ List.replicate 169 0 ∧
    (tailed 168).take 168 = (List.replicate 169 0 : Bytes).take 168 := by decide +kernel
example : 136 ≤ (tailed 136).length ∧ (tailed 136).length < 272 ∧ (tailed 136).take 136 = (List.replicate 137 0 : Bytes).take 136 := by
  decide +kernel
example : 336 ≤ (tailed 400).length := by decide +kernel

end Qrl.Props
