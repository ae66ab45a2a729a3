import Verif.Proof.Sponge
import Batteries.Data.Nat.Lemmas
/-!
# C32: SHAKE128 and SHAKE256 as in FIPS 202

The specification (`Spec.Fips202`) works on strings of bits and state arrays `A[x, y, z]`; the code on bytes and 64-bit
lanes, two unrolled rounds at a time.
-/

namespace Qrl.Props

open Qrl.Spec.Fips202

/-- C32. For every message and output length. -/
theorem C32_shake128 (n : Nat) (m : Bytes) : bits (shake128 n m) = SHAKE128 (bits m) (8 * n) :=
  shake_bits 168 rfl (by omega) (by omega) n m

/-- C32. For every message and output length. -/
theorem C32_shake256 (n : Nat) (m : Bytes) : bits (shake256 n m) = SHAKE256 (bits m) (8 * n) :=
  shake_bits 136 rfl (by omega) (by omega) n m

/-- C32. The permutation of the code is Keccak-f[1600], on all 2^1600 states. -/
theorem C32_permutation (s : KState) : stateBits (keccakF s) = Spec.Fips202.keccakF (stateBits s) :=
  keccakF_bits s

/-- C32. The bits determine the bytes, so the two theorems determine the output. -/
theorem C32_bits_injective : ∀ (a b : Bytes), bits a = bits b → a = b
  | [], [], _ => rfl
  | [], b :: l, h => by
    have := congrArg List.length h
    rw [length_bits, length_bits] at this
    simp at this
  | a :: l, [], h => by
    have := congrArg List.length h
    rw [length_bits, length_bits] at this
    simp at this
  | a :: l, b :: l', h => by
    rw [bits_cons, bits_cons] at h
    obtain ⟨h1, h2⟩ := List.append_inj h (by simp)
    rw [C32_bits_injective l l' h2]
    have : a = b := by
      apply UInt8.toNat_inj.mp
      apply Nat.eq_of_testBit_eq
      intro i
      by_cases hi : i < 8
      · have := congrArg (·[i]?) h1
        simpa [hi] using this
      · have lt : ∀ c : UInt8, c.toNat.testBit i = false := fun c =>
          Nat.testBit_lt_two_pow (Nat.lt_of_lt_of_le c.toNat_lt (Nat.pow_le_pow_right (by omega) (by omega)))
        rw [lt, lt]
    rw [this]

/-- The states of the code are all strings of 1600 bits. -/
theorem C32_states (S : List Bool) (h : S.length = 1600) : ∃ s : KState, stateBits s = S := by
  let B : Nat → UInt8 := fun j => UInt8.ofNat (Nat.ofBits fun i : Fin 8 => S.getD (8 * j + i.val) false)
  have hB : ∀ j i, i < 8 → (B j).toNat.testBit i = S.getD (8 * j + i) false := by
    intro j i hi
    have : (B j).toNat = Nat.ofBits fun i : Fin 8 => S.getD (8 * j + i.val) false := by
      simp only [B]
      rw [UInt8.toNat_ofNat', Nat.mod_eq_of_lt]
      exact Nat.ofBits_lt_two_pow _
    rw [this, Nat.testBit_ofBits_lt _ _ hi]
  let m : Bytes := (List.range 200).map B
  have hm : m.length = 200 := by simp [m]
  refine ⟨xorBlock (Vector.replicate 25 0) 200 m, ?_⟩
  have hz : ∀ (k : Nat) (l : List Bool), l.length = k → xorBits (List.replicate k false) l = l := by
    intro k
    induction k with
    | zero => intro l hl; rw [List.length_eq_zero_iff.mp hl]; rfl
    | succ k ih =>
      intro l hl
      cases l with
      | nil => simp at hl
      | cons a l => rw [List.replicate_succ, xorBits, List.zipWith_cons_cons, ← xorBits, ih l (by simpa using hl)]; simp
  have e0 : List.replicate (1600 - 8 * 200) false = [] := rfl
  rw [xorBlock_bits _ _ _ rfl (by omega) hm, stateBits_zero, e0, List.append_nil, hz _ _ (by rw [length_bits, hm])]
  apply ext_getD (by rw [length_bits, hm, h])
  rw [length_bits, hm]
  intro n hn
  rw [getD_bits]
  have hg : m.getD (n / 8) 0 = B (n / 8) := by
    rw [List.getD_eq_getElem _ _ (by rw [hm]; omega)]
    simp [m]
  rw [hg, hB _ _ (by omega), show 8 * (n / 8) + n % 8 = n by omega]

/-- A published value (first bytes of SHAKE128 of the empty string), computed by the kernel: the specification is not
off. -/
example : SHAKE128 [] 32 = bits [0x7f, 0x9c, 0x2b, 0xa4] := by
  have h : shake128 4 [] = [0x7f, 0x9c, 0x2b, 0xa4] := by decide +kernel
  rw [← h, C32_shake128]
  rfl

end Qrl.Props
