import Verif.Model.Misc
import Verif.Model.Hashing
import Verif.Model.Hash

namespace Qrl

theorem length_store64 (k : Nat) : ∀ u, (store64 k u).length = k := by
  induction k with
  | zero => intro u; rfl
  | succ k ih => intro u; simp [store64, ih]

theorem length_flatMap_store (l : List UInt64) : (l.flatMap (store64 8)).length = 8 * l.length := by
  induction l with
  | nil => rfl
  | cons a l ih => simp only [List.flatMap_cons, List.length_append, ih, length_store64, List.length_cons]; omega

theorem length_stateBytes (s : KState) (r : Nat) (h8 : r % 8 = 0) (hr : r ≤ 200) :
    (stateBytes s r).length = r := by
  simp only [stateBytes, length_flatMap_store, List.length_take, Vector.length_toList]
  omega

theorem length_squeeze (n : Nat) (r : Nat) (h8 : r % 8 = 0) (hr : r ≤ 200) :
    ∀ s, (keccakSqueezeBlocks n s r).1.length = n * r := by
  induction n with
  | zero => intro s; simp [keccakSqueezeBlocks]
  | succ n ih =>
    intro s
    simp only [keccakSqueezeBlocks, List.length_append, length_stateBytes _ r h8 hr, ih]
    rw [Nat.succ_mul]; omega

/-- One more block at the end. -/
theorem squeeze_succ (n r : Nat) : ∀ s, keccakSqueezeBlocks (n + 1) s r =
    ((keccakSqueezeBlocks n s r).1 ++ stateBytes (keccakF (keccakSqueezeBlocks n s r).2) r,
      keccakF (keccakSqueezeBlocks n s r).2) := by
  induction n with
  | zero => intro s; simp [keccakSqueezeBlocks]
  | succ n ih =>
    intro s
    rw [keccakSqueezeBlocks, ih]
    simp [keccakSqueezeBlocks]

/-- The output is a prefix of the block stream. -/
theorem shake_eq_take (r n : Nat) (m : Bytes) (h8 : r % 8 = 0) (hr : r ≤ 200) (hpos : 0 < r) (k : Nat)
    (hk : n ≤ k * r) :
    shake r n m = (keccakSqueezeBlocks k (keccakAbsorb (Vector.replicate 25 0) r m 0x1F) r).1.take n := by
  have base : shake r n m =
      (keccakSqueezeBlocks (n / r + 1) (keccakAbsorb (Vector.replicate 25 0) r m 0x1F) r).1.take n := by
    generalize hs : keccakAbsorb (Vector.replicate 25 0) r m 0x1F = s
    simp only [shake, hs]
    have hl := length_squeeze (n / r) r h8 hr s
    have hdm := Nat.div_add_mod n r
    rw [squeeze_succ (n / r) r s]
    generalize keccakSqueezeBlocks (n / r) s r = q at hl ⊢
    obtain ⟨out, s'⟩ := q
    simp only at hl ⊢
    have hmul : r * (n / r) = n / r * r := Nat.mul_comm ..
    split
    · rw [List.take_append, List.take_of_length_le (l := out) (by omega)]
      congr 1
      simp only [keccakSqueezeBlocks, List.append_nil]
      congr 1; omega
    · rw [List.take_append_of_le_length (by omega), List.take_of_length_le (by omega)]
  rw [base]
  generalize keccakAbsorb (Vector.replicate 25 0) r m 0x1F = s
  have mono : ∀ a d, n ≤ a * r → (keccakSqueezeBlocks (a + d) s r).1.take n = (keccakSqueezeBlocks a s r).1.take n := by
    intro a d ha
    induction d with
    | zero => rfl
    | succ d ih =>
      rw [← Nat.add_assoc, squeeze_succ]
      simp only
      rw [List.take_append_of_le_length, ih]
      rw [length_squeeze _ _ h8 hr, Nat.add_mul]; omega
  have h1 : n ≤ (n / r + 1) * r := by
    rw [Nat.succ_mul]
    have := Nat.div_add_mod n r
    have := Nat.mod_lt n hpos
    have hmul : r * (n / r) = n / r * r := Nat.mul_comm ..
    omega
  rcases Nat.le_total (n / r + 1) k with h | h
  · obtain ⟨d, rfl⟩ := Nat.le.dest h
    rw [mono _ d h1]
  · obtain ⟨d, hd⟩ := Nat.le.dest h
    rw [← hd, mono _ d hk]

theorem length_shake (r n : Nat) (m : Bytes) (h8 : r % 8 = 0) (hr : r ≤ 200) (hpos : 0 < r) :
    (shake r n m).length = n := by
  have hk : n ≤ n * r := Nat.le_mul_of_pos_right n hpos
  rw [shake_eq_take r n m h8 hr hpos n hk, List.length_take, length_squeeze _ _ h8 hr]
  omega

theorem shake_prefix (r n n' : Nat) (m : Bytes) (h8 : r % 8 = 0) (hr : r ≤ 200) (hpos : 0 < r)
    (h : n ≤ n') : shake r n m = (shake r n' m).take n := by
  have hk : n' ≤ n' * r := Nat.le_mul_of_pos_right n' hpos
  rw [shake_eq_take r n m h8 hr hpos n' (by omega), shake_eq_take r n' m h8 hr hpos n' hk, List.take_take]
  congr 1; omega

@[simp] theorem length_shake128 (n : Nat) (m : Bytes) : (shake128 n m).length = n :=
  length_shake 168 n m (by decide) (by decide) (by decide)
@[simp] theorem length_shake256 (n : Nat) (m : Bytes) : (shake256 n m).length = n :=
  length_shake 136 n m (by decide) (by decide) (by decide)

@[simp] theorem length_prim (S : Sha256) (hf : HashFn) (m : Bytes) : (hf.prim S m).length = 32 := by
  cases hf <;> simp [HashFn.prim, S.length_hash]

@[simp] theorem length_toByte (v k : Nat) : (toByte v k).length = k := by
  induction k generalizing v with
  | zero => rfl
  | succ k ih => simp [toByte, ih]

end Qrl
