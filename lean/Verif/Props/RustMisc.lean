import Verif.Proof.RustMisc
import Verif.Props.RustHash
import Verif.Props.Hashing
/-!
# C58 and C59: hash-chain seeds and random seeds of the Rust port
-/

namespace Qrl.Props

open Qrl.Spec

theorem rs_hashChainLoop {seed tail : Bytes} {f : Nat → Bytes} (k : Nat) : ∀ (i : Nat) (z : Bytes), z.length = 4 →
    (∀ j, i ≤ j → j < i + k → Rs.shake256 32 (seed ++ tail ++ LE32 j) = .ok (f j)) →
    Rs.hashChainLoop (seed ++ tail ++ z) (seed.length + tail.length) i k = .ok ((List.range' i k).map f) := by
  induction k with
  | zero => intro i z _ _; rfl
  | succ k ih =>
    intro i z hz hf
    rw [Rs.hashChainLoop]
    have e1 : (seed ++ tail ++ z).take (seed.length + tail.length) = seed ++ tail := by
      rw [show seed.length + tail.length = (seed ++ tail).length by simp, List.take_left]
    have e2 : (seed ++ tail ++ z).drop (seed.length + tail.length + 4) = [] := by
      apply List.drop_eq_nil_of_le; simp only [List.length_append, hz]; omega
    rw [e1, e2, List.append_nil, show Rs.le32 i = LE32 i from le32_eq i, hf i (by omega) (by omega), Rs.Res.ok_bind,
      ih (i + 1) (LE32 i) rfl (fun j h1 h2 => hf j (by omega) (by omega))]
    rfl

/-- C58. The result is a list of `count` SHAKE256 values, one per position, as far as these are defined. -/
theorem C58_chain (seed : Bytes) (shift count : Nat) (f : Nat → Bytes)
    (hf : ∀ i < count, Rs.shake256 32 (seed ++ LE32 shift ++ LE32 i) = .ok (f i)) :
    Rs.getHashChainSeed seed shift count = .ok ((List.range count).map f) := by
  rw [Rs.getHashChainSeed]
  have h1 : (seed ++ List.replicate 8 (0 : UInt8)).take seed.length = seed := List.take_left
  have h2 : (seed ++ List.replicate 8 (0 : UInt8)).drop (seed.length + 4) = List.replicate 4 0 := by
    rw [List.drop_append, List.drop_eq_nil_of_le (by omega)]; simp
  rw [h1, h2, show Rs.le32 shift = LE32 shift from le32_eq shift]
  have := rs_hashChainLoop (seed := seed) (tail := LE32 shift) (f := f) count 0 (List.replicate 4 0) (by simp)
    (fun j _ h => hf j (by omega))
  rw [show seed.length + 4 = seed.length + (LE32 shift).length from rfl, this, List.range_eq_range']

theorem len_chain (seed : Bytes) (s i : Nat) : (seed ++ LE32 s ++ LE32 i).length = seed.length + 8 := by
  rw [List.length_append, List.length_append]; rfl

/-- C58. For seeds of up to 128 bytes the result is that of C++ (C35). -/
theorem C58_short (seed : Bytes) (shift count : Nat) (h : seed.length ≤ 128) :
    Rs.getHashChainSeed seed shift count = .ok (getHashChainSeed seed shift count) := by
  rw [C35_hash_chain]
  apply C58_chain
  intro i _
  by_cases h1 : seed.length < 128
  · exact (C50_shake_agrees 32 _).2 (by rw [len_chain]; omega)
  · have hl := len_chain seed shift i
    rw [Rs.shake256, Rs.fipsShake256_eq, rustAbsorbed, if_neg (by omega), if_pos (by omega),
      List.take_of_length_le (l := seed ++ LE32 shift ++ LE32 i) (by omega), show (seed ++ LE32 shift ++ LE32 i).length - 136 = 0 by omega,
      List.take_zero, List.append_nil]

/-- What the first block holds of seed, shift and position. -/
theorem chain_take (seed : Bytes) (s i s' i' : Nat)
    (h : (LE32 s ++ LE32 i).take (136 - seed.length) = (LE32 s' ++ LE32 i').take (136 - seed.length)) :
    (seed ++ LE32 s ++ LE32 i).take 136 = (seed ++ LE32 s' ++ LE32 i').take 136 := by
  rw [List.append_assoc, List.append_assoc, List.take_append (l₁ := seed) (l₂ := LE32 s ++ LE32 i),
    List.take_append (l₁ := seed) (l₂ := LE32 s' ++ LE32 i'), h]

/-- C58. For seeds of 129 to 263 bytes the entry at a position depends only on the part of shift and position that falls
into the first 136 bytes: two calls that agree there give the same entry. -/
theorem C58_truncated (seed : Bytes) (s i s' i' : Nat) (h2 : seed.length < 264)
    (h : (LE32 s ++ LE32 i).take (136 - seed.length) = (LE32 s' ++ LE32 i').take (136 - seed.length)) :
    Rs.shake256 32 (seed ++ LE32 s ++ LE32 i) = Rs.shake256 32 (seed ++ LE32 s' ++ LE32 i') :=
  C50_shake256_collisions 32 _ _ (by rw [len_chain, len_chain]) (by rw [len_chain]; omega) (chain_take seed s i s' i' h)

/-- C58. **Not a chain of different seeds**: for seeds of 132 to 263 bytes all entries are equal, and from 136 bytes on they
do not depend on the shift either. -/
theorem C58_identical_refuted (seed : Bytes) (h1 : 132 ≤ seed.length) (h2 : seed.length < 264) (shift : Nat) :
    ∃ x : Bytes, x.length = 32 ∧ (∀ count, Rs.getHashChainSeed seed shift count = .ok (List.replicate count x)) ∧
      (136 ≤ seed.length → ∀ shift' count, Rs.getHashChainSeed seed shift' count = .ok (List.replicate count x)) := by
  have hl := len_chain seed shift 0
  have e : ∃ x, Rs.shake256 32 (seed ++ LE32 shift ++ LE32 0) = .ok x ∧ x.length = 32 := by
    rw [Rs.shake256, Rs.fipsShake256_eq, rustAbsorbed, if_neg (by omega), if_pos (by omega)]
    exact ⟨_, rfl, length_shake256 _ _⟩
  obtain ⟨x, hx, hxl⟩ := e
  have const : ∀ n : Nat, (List.range n).map (fun _ => x) = List.replicate n x := by
    intro n; rw [List.map_const', List.length_range]
  refine ⟨x, hxl, ?_, ?_⟩
  · intro count
    rw [← const]
    apply C58_chain seed shift count (fun _ => x)
    intro i _
    rw [← hx]
    apply C58_truncated seed _ _ _ _ h2
    rw [List.take_append, List.take_append, show 136 - seed.length - (LE32 shift).length = 0 by
      show 136 - seed.length - 4 = 0; omega, List.take_zero, List.take_zero]
  · intro h3 shift' count
    rw [← const]
    apply C58_chain seed shift' count (fun _ => x)
    intro i _
    rw [← hx]
    apply C58_truncated seed _ _ _ _ h2
    rw [show 136 - seed.length = 0 by omega, List.take_zero, List.take_zero]

/-- C58. From 264 bytes on every call for at least one entry panics. -/
theorem C58_panics (seed : Bytes) (shift count : Nat) (h : 264 ≤ seed.length) (hc : 0 < count) :
    Rs.getHashChainSeed seed shift count = .panic := by
  obtain ⟨k, rfl⟩ : ∃ k, count = k + 1 := ⟨count - 1, by omega⟩
  rw [Rs.getHashChainSeed, Rs.hashChainLoop]
  rw [(C50_shake256_panics 32 _).mpr]
  · rfl
  · have l1 : (Rs.le32 shift).length = 4 := rfl
    have l2 : (Rs.le32 0).length = 4 := rfl
    simp only [List.length_append, List.length_take, List.length_drop, List.length_replicate, l1, l2]
    omega

/-- C59. `get_random_seed` returns as many bytes as asked, or panics; it panics exactly when the generator does or when seed
size and entropy together reach 272 bytes. -/
theorem C59_random (os : Nat → Option Bytes) (hos : ∀ n b, os n = some b → b.length = n) (n : Nat) (entropy : List Char) :
    (Rs.getRandomSeed os n entropy = .panic ↔ os n = none ∨ 272 ≤ n + (utf8 entropy).length) ∧
    (∀ e, Rs.getRandomSeed os n entropy ≠ .err e) ∧
    (∀ out, Rs.getRandomSeed os n entropy = .ok out → out.length = n) := by
  rw [Rs.getRandomSeed]
  cases h : os n with
  | none => simp
  | some b =>
    have hb := hos n b h
    dsimp only
    have hl : (b ++ Rs.str2bin entropy).length = n + (utf8 entropy).length := by rw [List.length_append, hb]; rfl
    refine ⟨?_, ?_, ?_⟩
    · rw [C50_shake256_panics, hl]; simp
    · intro e
      rw [Rs.shake256, Rs.fipsShake256_eq]
      cases rustAbsorbed 136 (b ++ Rs.str2bin entropy) <;> simp
    · intro out
      rw [Rs.shake256, Rs.fipsShake256_eq]
      cases rustAbsorbed 136 (b ++ Rs.str2bin entropy) with
      | none => intro h; cases h
      | some m => intro h; cases h; exact length_shake256 _ _

/-- C59. If seed size and entropy together stay below 136 bytes, the result is the C++ result for the same system bytes. -/
theorem C59_random_same (os : Nat → Option Bytes) (n : Nat) (b : Bytes) (entropy : List Char) (h : os n = some b)
    (hb : b.length = n) (hs : n + (utf8 entropy).length < 136) :
    ∃ out, Rs.getRandomSeed os n entropy = .ok out ∧ getRandomSeed (.stream b) n (utf8 entropy) = .ok out := by
  refine ⟨shake256 n (b ++ utf8 entropy), ?_, ?_⟩
  · rw [Rs.getRandomSeed, h]
    exact (C50_shake_agrees n _).2 (by rw [List.length_append, hb]; exact hs)
  · rw [getRandomSeed, if_neg (by omega), List.take_of_length_le (by omega)]

/-- C59. **Entropy is thrown away**: only the part of the caller's entropy within the first 136 bytes counts. Two entropy
texts of the same byte length that agree on the first `136 - n` bytes give the same seed from the same system bytes. -/
theorem C59_entropy_refuted (os : Nat → Option Bytes) (hos : ∀ n b, os n = some b → b.length = n) (n : Nat)
    (e e' : List Char) (hl : (utf8 e).length = (utf8 e').length) (h2 : n + (utf8 e).length < 272)
    (hp : (utf8 e).take (136 - n) = (utf8 e').take (136 - n)) :
    Rs.getRandomSeed os n e = Rs.getRandomSeed os n e' := by
  rw [Rs.getRandomSeed, Rs.getRandomSeed]
  cases h : os n with
  | none => rfl
  | some b =>
    have hb := hos n b h
    apply C50_shake256_collisions
    · simp only [List.length_append]
      rw [show (Rs.str2bin e).length = (Rs.str2bin e').length from hl]
    · rw [List.length_append, hb]; exact h2
    · rw [List.take_append, List.take_append, hb]
      rw [show (Rs.str2bin e).take (136 - n) = (Rs.str2bin e').take (136 - n) from hp]

/-- A seed of 140 bytes: every entry of the chain is the same. -/
example : ∃ x : Bytes, Rs.getHashChainSeed (List.replicate 140 7) 0 3 = .ok [x, x, x] := by
  obtain ⟨x, _, h, _⟩ := C58_identical_refuted (List.replicate 140 7) (by simp) (by simp) 0
  exact ⟨x, h 3⟩

example : Rs.getHashChainSeed (List.replicate 48 7) 1 4 = .ok (getHashChainSeed (List.replicate 48 7) 1 4) :=
  C58_short _ _ _ (by simp)

/-- A 48-byte seed request whose entropy text has 100 characters, differing in the last one. -/
example : Rs.getRandomSeed (fun n => some (List.replicate n 5)) 48 (List.replicate 99 'x' ++ ['y']) =
    Rs.getRandomSeed (fun n => some (List.replicate n 5)) 48 (List.replicate 99 'x' ++ ['z']) :=
  C59_entropy_refuted _ (by intro n b h; cases h; simp) 48 _ _ (by decide +kernel) (by decide +kernel) (by decide +kernel)

end Qrl.Props
