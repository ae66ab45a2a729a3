import Verif.Proof.Shake
import Verif.Model.Misc
/-!
# C33, C34, C35, C42: hashing helpers
-/

namespace Qrl.Props

open Outcome

/-- C33. Outputs have the requested length, and a shorter output is a prefix of a longer one. -/
theorem C33_shake_prefix (n n' : Nat) (m : Bytes) (h : n ≤ n') :
    (shake128 n m).length = n ∧ (shake256 n m).length = n ∧
    shake128 n m <+: shake128 n' m ∧ shake256 n m <+: shake256 n' m := by
  refine ⟨length_shake128 n m, length_shake256 n m, ?_, ?_⟩
  · unfold shake128
    rw [shake_prefix 168 n n' m (by decide) (by decide) (by decide) h]
    exact List.take_prefix n _
  · unfold shake256
    rw [shake_prefix 136 n n' m (by decide) (by decide) (by decide) h]
    exact List.take_prefix n _

/-- `f` applied `n` times. -/
def times {α : Type} (f : α → α) : Nat → α → α
  | 0, x => x
  | n + 1, x => f (times f n x)

theorem times_shift {α : Type} (f : α → α) (n : Nat) : ∀ x, times f n (f x) = times f (n + 1) x := by
  induction n with
  | zero => intro x; rfl
  | succ n ih => intro x; simp only [times] at ih ⊢; rw [ih]

theorem times_add {α : Type} (f : α → α) (a b : Nat) (x : α) : times f b (times f a x) = times f (a + b) x := by
  induction b with
  | zero => rfl
  | succ b ih => simp only [times]; rw [ih]; rfl

theorem sha2Loop_times (S : Sha256) (k : Nat) : ∀ out, sha2Loop S k out = times S.hash k out := by
  induction k with
  | zero => intro out; rfl
  | succ k ih => intro out; rw [sha2Loop, ih, times_shift]

/-- C34. `sha2_256_n` throws exactly for count 0 and otherwise is `count`-fold SHA-256, with 32 bytes. -/
theorem C34_sha2_n (S : Sha256) (x : Bytes) (c : Nat) :
    (sha2_256_n S x 0 = .throw .invalidArgument) ∧
    (0 < c → sha2_256_n S x c = ok (times (sha2_256 S) c x) ∧ (times (sha2_256 S) c x).length = 32) := by
  refine ⟨rfl, fun h => ?_⟩
  obtain ⟨c, rfl⟩ : ∃ d, c = d + 1 := ⟨c - 1, by omega⟩
  constructor
  · simp only [sha2_256_n, Nat.add_one_sub_one, sha2Loop_times, times_shift]
    simp only [Nat.add_one_ne_zero, if_false]
    rfl
  · simp [times, sha2_256, S.length_hash]

/-- C34. Iterations compose. -/
theorem C34_sha2_n_add (S : Sha256) (x : Bytes) (a b : Nat) (ha : 0 < a) (hb : 0 < b) :
    (do let y ← sha2_256_n S x a; sha2_256_n S y b) = sha2_256_n S x (a + b) := by
  rw [((C34_sha2_n S x a).2 ha).1, ok_bind, ((C34_sha2_n S _ b).2 hb).1,
    ((C34_sha2_n S x (a + b)).2 (by omega)).1, times_add]

/-- A number on four bytes, least significant first. -/
def LE32 (v : Nat) : Bytes :=
  [UInt8.ofNat (v % 256), UInt8.ofNat (v / 256 % 256), UInt8.ofNat (v / 65536 % 256), UInt8.ofNat (v / 16777216 % 256)]

theorem u8_ofNat_mod (v : Nat) : UInt8.ofNat (v % 256) = UInt8.ofNat v := by
  apply UInt8.toNat_inj.mp; simp

theorem le32_eq (v : Nat) : le32 v = LE32 v := by
  simp only [le32, LE32, Nat.shiftRight_eq_div_pow]
  simp only [u8_ofNat_mod]

theorem LE32_inj (v w : Nat) (hv : v < 2 ^ 32) (hw : w < 2 ^ 32) (h : LE32 v = LE32 w) : v = w := by
  simp only [LE32, List.cons.injEq, and_true] at h
  obtain ⟨h0, h1, h2, h3⟩ := h
  have h0 := congrArg UInt8.toNat h0
  have h1 := congrArg UInt8.toNat h1
  have h2 := congrArg UInt8.toNat h2
  have h3 := congrArg UInt8.toNat h3
  simp only [UInt8.toNat_ofNat'] at h0 h1 h2 h3
  omega

theorem chain_buf (seed a b c : Bytes) (hb : b.length = 4) :
    (seed ++ a ++ b).take (seed.length + a.length) ++ c ++ (seed ++ a ++ b).drop (seed.length + a.length + 4)
      = seed ++ a ++ c := by
  have h1 : (seed ++ a ++ b).take (seed.length + a.length) = seed ++ a := by
    rw [← List.length_append, List.take_left]
  have h2 : (seed ++ a ++ b).drop (seed.length + a.length + 4) = [] := by
    apply List.drop_eq_nil_of_le; simp [hb]; omega
  rw [h1, h2, List.append_nil]

theorem hashChainLoop_eq (seed a : Bytes) (k : Nat) : ∀ (i : Nat) (b : Bytes), b.length = 4 →
    hashChainLoop (seed ++ a ++ b) (seed.length + a.length) i k =
      (List.range' i k).map fun j => shake256 32 (seed ++ a ++ LE32 j) := by
  induction k with
  | zero => intro i b hb; rfl
  | succ k ih =>
    intro i b hb
    rw [hashChainLoop]
    simp only [chain_buf seed a b (le32 i) hb]
    rw [ih (i + 1) (le32 i) rfl]
    simp [List.range'_succ, le32_eq]

/-- C35. Entry `i` of the result is SHAKE256 (32 bytes) of seed, shift and `i`; there are `count` entries. -/
theorem C35_hash_chain (seed : Bytes) (shift count : Nat) :
    getHashChainSeed seed shift count =
      (List.range count).map fun i => shake256 32 (seed ++ LE32 shift ++ LE32 i) := by
  simp only [getHashChainSeed]
  have h1 : (seed ++ List.replicate 8 (0 : UInt8)).take seed.length = seed := List.take_left
  have h2 : (seed ++ List.replicate 8 (0 : UInt8)).drop (seed.length + 4) = List.replicate 4 0 := by
    rw [List.drop_append, List.drop_eq_nil_of_le (by omega)]; simp
  rw [h1, h2, le32_eq]
  have := hashChainLoop_eq seed (LE32 shift) count 0 (List.replicate 4 0) (by simp)
  rw [show seed.length + 4 = seed.length + (LE32 shift).length from rfl, this, List.range_eq_range']

/-- C35. Asking for more entries does not change the earlier ones; entries have 32 bytes. -/
theorem C35_hash_chain_stable (seed : Bytes) (shift count count' : Nat) (h : count ≤ count') :
    (getHashChainSeed seed shift count').take count = getHashChainSeed seed shift count ∧
    (getHashChainSeed seed shift count).length = count ∧
    ∀ e ∈ getHashChainSeed seed shift count, e.length = 32 := by
  rw [C35_hash_chain, C35_hash_chain]
  refine ⟨?_, by simp, ?_⟩
  · rw [← List.map_take, List.take_range, Nat.min_eq_left h]
  · intro e he
    obtain ⟨i, _, rfl⟩ := List.mem_map.mp he
    exact length_shake256 32 _

/-- C35. Different (shift, position) pairs hash different inputs (32-bit values). -/
theorem C35_hash_chain_inputs (seed : Bytes) (s i s' i' : Nat) (hs : s < 2 ^ 32) (hi : i < 2 ^ 32)
    (hs' : s' < 2 ^ 32) (hi' : i' < 2 ^ 32)
    (h : seed ++ LE32 s ++ LE32 i = seed ++ LE32 s' ++ LE32 i') : s = s' ∧ i = i' := by
  rw [List.append_assoc, List.append_assoc, List.append_cancel_left_eq] at h
  obtain ⟨h1, h2⟩ := List.append_inj h rfl
  exact ⟨LE32_inj _ _ hs hs' h1, LE32_inj _ _ hi hi' h2⟩

/-- C42. `getRandomSeed` fails (with `runtime_error`) exactly when the source cannot be opened or delivers
fewer bytes than asked; otherwise it returns the requested number of bytes, computed from the first
`n` bytes delivered and the caller's entropy string only. -/
theorem C42_random_seed (n : Nat) (entropy : Bytes) :
    getRandomSeed .openFailed n entropy = .throw .runtimeError ∧
    (∀ avail : Bytes, avail.length < n → getRandomSeed (.stream avail) n entropy = .throw .runtimeError) ∧
    (∀ avail : Bytes, n ≤ avail.length →
      ∃ out, getRandomSeed (.stream avail) n entropy = ok out ∧ out.length = n ∧
        out = shake256 n (avail.take n ++ entropy)) := by
  refine ⟨rfl, ?_, ?_⟩
  · intro avail h; simp [getRandomSeed, h]
  · intro avail h
    have : ¬ avail.length < n := by omega
    exact ⟨_, by simp [getRandomSeed, this], length_shake256 _ _, rfl⟩

example : ∃ out, getRandomSeed (.stream (List.replicate 64 3)) 48 [1, 2] = ok out ∧ out.length = 48 := by
  obtain ⟨out, h1, h2, _⟩ := (C42_random_seed 48 [1, 2]).2.2 (List.replicate 64 3) (by simp)
  exact ⟨out, h1, h2⟩

end Qrl.Props
