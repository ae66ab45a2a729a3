import Verif.Model.RustBds
import Verif.Proof.Verify
import Verif.Spec.Rust
/-!
# The Rust sponge against the C one
-/

namespace Qrl.Rs
open Res
theorem twoRounds_eq : twoRounds = Qrl.twoRounds := rfl
theorem roundConstants_eq : roundConstants = Qrl.roundConstants := rfl
theorem roundLoop_eq : ∀ (l : List UInt64) (s : Lanes), roundLoop l s = Qrl.roundLoop l s
  | [], _ => rfl
  | [_], _ => rfl
  | a :: b :: l, s => roundLoop_eq l (Qrl.twoRounds a b s)
theorem keccakF_eq (s : KState) : keccakF s = Qrl.keccakF s := by
  unfold keccakF Qrl.keccakF
  simp only [roundLoop_eq, roundConstants_eq]
theorem load64_eq : load64 = Qrl.load64 := by
  funext l; induction l with
  | nil => rfl
  | cons b l ih => rw [load64, Qrl.load64, ih]
theorem store64_eq : store64 = Qrl.store64 := by
  funext k; induction k with
  | zero => rfl
  | succ k ih => funext u; rw [store64, Qrl.store64, ih]
theorem stateBytes_eq (s : KState) (r : Nat) : stateBytes s r = Qrl.stateBytes s r := by
  rw [stateBytes, Qrl.stateBytes, store64_eq]
theorem squeeze_eq : ∀ (k : Nat) (s : KState) (r : Nat), keccakSqueezeBlocks k s r = Qrl.keccakSqueezeBlocks k s r
  | 0, _, _ => rfl
  | k + 1, s, r => by
    rw [keccakSqueezeBlocks, Qrl.keccakSqueezeBlocks, keccakF_eq, stateBytes_eq, squeeze_eq]

theorem xorBlock_congr (s : KState) (r : Nat) (a b : Bytes) (h : a.take r = b.take r) :
    Qrl.xorBlock s r a = Qrl.xorBlock s r b := by
  unfold Qrl.xorBlock
  congr 1
  funext i
  split
  · next hi =>
    have hl : 8 * i.val + 8 ≤ r := by omega
    have key : ∀ c : Bytes, (c.drop (8 * i.val)).take 8 = ((c.take r).drop (8 * i.val)).take 8 := by
      intro c
      rw [List.drop_take, List.take_take, Nat.min_eq_left (by omega)]
    rw [key a, key b, h]
  · rfl

theorem xorBlock_eq (s : KState) (r : Nat) (mm : Bytes) :
    xorBlock s r mm = if mm.length < 8 * (r / 8) then panic else ok (Qrl.xorBlock s r mm) := by
  rw [xorBlock, load64_eq]; rfl

/-- The last block: the announced `k` bytes from the beginning of the message. -/
theorem padded_eq (s : KState) (r : Nat) (m : Bytes) (p : UInt8) (h8 : r % 8 = 0) (hr2 : r ≤ 200) (k : Nat)
    (hk : k < r) (hm : k ≤ m.length) :
    (do
      let head ← slice m 0 k
      let t : Bytes := head ++ List.replicate (200 - k) 0
      let t ← wr t k p
      let last ← rd t (r - 1)
      let t ← wr t (r - 1) (last ||| 128)
      xorBlock s r t) = ok (Qrl.xorBlock s r (padBlock r (m.take k) p)) := by
  have hl : (m.take k).length = k := by rw [List.length_take]; omega
  rw [slice, if_pos (by omega)]
  simp only [ok_bind, List.drop_zero]
  rw [wr, if_pos (by rw [List.length_append, List.length_replicate]; omega)]
  simp only [ok_bind]
  rw [rd, List.getElem?_eq_getElem (by simp; omega)]
  simp only [ok_bind]
  rw [wr, if_pos (by simp; omega)]
  simp only [ok_bind]
  rw [xorBlock_eq, if_neg (by simp; omega)]
  refine congrArg ok (xorBlock_congr s r _ _ ?_)
  unfold padBlock
  simp only [hl]
  apply List.ext_getElem?
  intro j
  by_cases hj : j < r
  · rw [List.getElem?_take_of_lt hj, List.getElem?_take_of_lt hj]
    have e : ∀ i, i < r → (m.take k ++ List.replicate (200 - k) (0 : UInt8))[i]? = (m.take k ++ (List.replicate r (0 : UInt8)).drop k)[i]? := by
      intro i hi
      by_cases h1 : i < k
      · rw [List.getElem?_append_left (by omega), List.getElem?_append_left (by omega)]
      · rw [List.getElem?_append_right (by omega), List.getElem?_append_right (by omega), List.getElem?_drop, hl,
          List.getElem?_replicate, List.getElem?_replicate, if_pos (by omega), if_pos (by omega)]
    have e2 : ∀ i, i < r → ((m.take k ++ List.replicate (200 - k) (0 : UInt8)).set k p)[i]? = ((m.take k ++ (List.replicate r (0 : UInt8)).drop k).set k p)[i]? := by
      intro i hi
      rw [List.getElem?_set, List.getElem?_set, e i hi]
      simp only [List.length_append, hl, List.length_replicate, List.length_drop]
      by_cases h1 : k = i
      · rw [if_pos h1, if_pos h1, if_pos (by omega), if_pos (by omega)]
      · rw [if_neg h1, if_neg h1]
    rw [List.getElem?_set (i := r - 1), List.getElem?_set (i := r - 1), e2 j hj]
    have e3 : ((m.take k ++ List.replicate (200 - k) (0 : UInt8)).set k p)[r - 1]'(by simp; omega) =
        ((m.take k ++ (List.replicate r (0 : UInt8)).drop k).set k p).getD (r - 1) 0 := by
      rw [List.getD_eq_getElem?_getD, ← e2 (r - 1) (by omega), List.getElem?_eq_getElem (by simp; omega)]
      rfl
    simp only [List.length_set, List.length_append, hl, List.length_replicate, List.length_drop]
    by_cases h1 : r - 1 = j
    · rw [if_pos h1, if_pos h1, if_pos (by omega), if_pos (by omega), e3]
    · rw [if_neg h1, if_neg h1]
  · rw [List.getElem?_take_eq_none (by omega), List.getElem?_take_eq_none (by omega)]

theorem absorb_short (s : KState) (r : Nat) (m : Bytes) (p : UInt8) (h8 : r % 8 = 0) (hr2 : r ≤ 200)
    (h : m.length < r) : keccakAbsorb s r m m.length p = ok (Qrl.keccakAbsorb s r m p) := by
  rw [keccakAbsorb, absorbLoop, dif_neg (by omega), Qrl.keccakAbsorb, dif_neg (by omega)]
  simp only [ok_bind]
  rw [padded_eq s r m p h8 hr2 m.length h (Nat.le_refl _), List.take_length]

theorem absorb_mid (s : KState) (r : Nat) (m : Bytes) (p : UInt8) (h8 : r % 8 = 0) (hr2 : r ≤ 200)
    (h0 : 0 < r) (h1 : r ≤ m.length) (h2 : m.length < 2 * r) :
    keccakAbsorb s r m m.length p = ok (Qrl.keccakAbsorb s r (m.take r ++ m.take (m.length - r)) p) := by
  have l1 : (m.take r).length = r := by rw [List.length_take]; omega
  rw [keccakAbsorb, absorbLoop, dif_pos ⟨h0, h1⟩, xorBlock_eq, if_neg (by omega)]
  simp only [ok_bind]
  rw [if_pos ⟨Nat.le_refl _, h1⟩, absorbLoop, dif_neg (by omega), keccakF_eq]
  simp only [ok_bind]
  rw [padded_eq _ r m p h8 hr2 (m.length - r) (by omega) (by omega)]
  rw [Qrl.keccakAbsorb, dif_pos ⟨h0, by rw [List.length_append, l1]; omega⟩, List.take_left' l1, List.drop_left' l1,
    Qrl.keccakAbsorb, dif_neg (by rw [List.length_take]; omega), xorBlock_congr s r (m.take r) m (by rw [List.take_take, Nat.min_self])]

theorem absorb_long (s : KState) (r : Nat) (m : Bytes) (p : UInt8) (h0 : 0 < r) (h2 : 2 * r ≤ m.length) :
    keccakAbsorb s r m m.length p = panic := by
  have l1 : ((m.take m.length).drop r).length = m.length - r := by rw [List.take_length, List.length_drop]
  rw [keccakAbsorb, absorbLoop, dif_pos ⟨h0, by omega⟩, xorBlock_eq, if_neg (by omega)]
  simp only [ok_bind]
  rw [if_pos ⟨Nat.le_refl _, by omega⟩, absorbLoop, dif_pos ⟨h0, by omega⟩, xorBlock_eq, if_neg (by omega)]
  simp only [ok_bind]
  rw [if_neg (by omega)]
  rfl

theorem fipsShake128_eq (n : Nat) (m : Bytes) : fipsShake128 n m m.length =
    match Spec.rustAbsorbed 168 m with
    | some m' => ok (Qrl.shake128 n m')
    | none => panic := by
  have fin : ∀ s : KState, (let (out, s) := keccakSqueezeBlocks (n / 168) s 168
      if n % 168 > 0 then
        let (d, _) := keccakSqueezeBlocks 1 s 168
        ok (out ++ d.take (n % 168))
      else ok out) = ok (let (out, s) := Qrl.keccakSqueezeBlocks (n / 168) s 168
      if n % 168 ≠ 0 then
        let (d, _) := Qrl.keccakSqueezeBlocks 1 s 168
        out ++ d.take (n % 168)
      else out) := by
    intro s
    simp only [squeeze_eq]
    by_cases h : n % 168 = 0
    · simp [h]
    · rw [if_pos (by omega), if_pos h]
  unfold Spec.rustAbsorbed
  by_cases h1 : m.length < 168
  · rw [if_pos h1, fipsShake128, absorb_short _ 168 m _ rfl (by omega) h1]
    exact fin _
  · rw [if_neg h1]
    by_cases h2 : m.length < 2 * 168
    · rw [if_pos h2, fipsShake128, absorb_mid _ 168 m _ rfl (by omega) (by omega) (by omega) h2]
      exact fin _
    · rw [if_neg h2, fipsShake128, absorb_long _ 168 m _ (by omega) (by omega)]
      rfl

theorem fipsShake256_eq (n : Nat) (m : Bytes) : fipsShake256 n m m.length =
    match Spec.rustAbsorbed 136 m with
    | some m' => ok (Qrl.shake256 n m')
    | none => panic := by
  have fin : ∀ s : KState, (let (out, s) := keccakSqueezeBlocks (n / 136) s 136
      if n % 136 > 0 then
        let (d, _) := keccakSqueezeBlocks 1 s 136
        ok (out ++ d.take (n % 136))
      else ok out) = ok (let (out, s) := Qrl.keccakSqueezeBlocks (n / 136) s 136
      if n % 136 ≠ 0 then
        let (d, _) := Qrl.keccakSqueezeBlocks 1 s 136
        out ++ d.take (n % 136)
      else out) := by
    intro s
    simp only [squeeze_eq]
    by_cases h : n % 136 = 0
    · simp [h]
    · rw [if_pos (by omega), if_pos h]
  unfold Spec.rustAbsorbed
  by_cases h1 : m.length < 136
  · rw [if_pos h1, fipsShake256, absorb_short _ 136 m _ rfl (by omega) h1]
    exact fin _
  · rw [if_neg h1]
    by_cases h2 : m.length < 2 * 136
    · rw [if_pos h2, fipsShake256, absorb_mid _ 136 m _ rfl (by omega) (by omega) (by omega) h2]
      exact fin _
    · rw [if_neg h2, fipsShake256, absorb_long _ 136 m _ (by omega) (by omega)]
      rfl

theorem fipsShake128_short (n : Nat) (m : Bytes) (h : m.length < 168) :
    fipsShake128 n m m.length = ok (Qrl.shake128 n m) := by
  rw [fipsShake128_eq, Spec.rustAbsorbed, if_pos h]

theorem fipsShake256_short (n : Nat) (m : Bytes) (h : m.length < 136) :
    fipsShake256 n m m.length = ok (Qrl.shake256 n m) := by
  rw [fipsShake256_eq, Spec.rustAbsorbed, if_pos h]

theorem toByte_rs (v : Nat) : ∀ k, toByte v k = Qrl.toByte v k := by
  intro k
  induction k generalizing v with
  | zero => rfl
  | succ k ih => rw [toByte, Qrl.toByte, ih]

/-- A `core_hash` call whose buffer fits one block. -/
theorem coreHash_short (S : Sha256) (hf : HashFn) (type : Nat) (key : Bytes) (k : Nat) (inp : Bytes)
    (hk : k ≤ key.length) (h : inp.length + 32 + k < 136) :
    coreHash S hf type key k inp inp.length = ok (Qrl.coreHash S hf type (key.take k) inp) := by
  rw [coreHash, if_neg (by omega), slice, if_pos (by omega)]
  simp only [ok_bind, List.drop_zero]
  rw [slice, if_pos (by omega)]
  simp only [ok_bind, List.drop_zero, List.take_length, toByte_rs]
  have hl : (Qrl.toByte type 32 ++ key.take k ++ inp).length = inp.length + k + 32 := by
    rw [List.length_append, List.length_append, toByte_eq_be, length_be, List.length_take]; omega
  cases hf
  · rfl
  · simp only [← hl]; rw [fipsShake128_short _ _ (by rw [hl]; omega)]; rfl
  · simp only [← hl]; rw [fipsShake256_short _ _ (by rw [hl]; omega)]; rfl

/-- Bytes of the first block left for the message by `h_msg`. -/
def room : HashFn → Nat
  | .sha2_256 => 0
  | .shake_128 => 40
  | .shake_256 => 8

/-- The message really hashed by the Rust `h_msg`. -/
def seen (hf : HashFn) (key m : Bytes) : Option Bytes :=
  match hf with
  | .sha2_256 => some m
  | _ => Spec.rustSeen (room hf) key m

theorem absorbed_seen (room : Nat) (key m : Bytes) (hk : key.length = 96) :
    Spec.rustAbsorbed (room + 128) (Spec.be 32 2 ++ key ++ m) =
      (Spec.rustSeen room key m).map fun m' => Spec.be 32 2 ++ key ++ m' := by
  have hl : (Spec.be 32 2 ++ key).length = 128 := by rw [List.length_append, length_be, hk]
  have hl2 : (Spec.be 32 2 ++ key ++ m).length = 128 + m.length := by rw [List.length_append, hl]
  unfold Spec.rustAbsorbed Spec.rustSeen
  rw [hl2]
  by_cases h1 : m.length < room
  · rw [if_pos (by omega), if_pos h1]; rfl
  · rw [if_neg (by omega), if_neg h1]
    by_cases h2 : m.length < 2 * room + 128
    · rw [if_pos (by omega), if_pos h2]
      simp only [Option.map_some, Option.some.injEq]
      have e : (Spec.be 32 2 ++ key ++ m).take (room + 128) = Spec.be 32 2 ++ key ++ m.take room := by
        rw [List.take_append, hl, List.take_of_length_le (by omega), show room + 128 - 128 = room from by omega]
      have e2 : (Spec.be 32 2 ++ key ++ m).take (128 + m.length - (room + 128)) =
          (Spec.be 32 2 ++ key ++ m.take room).take (m.length - room) := by
        rw [← e, List.take_take, Nat.min_eq_left (by omega), show 128 + m.length - (room + 128) = m.length - room from by omega]
      rw [e, e2, List.append_assoc]
    · rw [if_neg (by omega), if_neg h2]; rfl

theorem hMsg_eq_seen (S : Sha256) (hf : HashFn) (m key : Bytes) (hk : key.length = 96) (hm : m.length + 128 < 2 ^ 32) :
    hMsg S hf m key =
      match seen hf key m with
      | some m' => ok (Qrl.hMsg S hf m' key)
      | none => panic := by
  rw [hMsg, if_neg (by omega), coreHash, if_neg (by omega), slice, if_pos (by omega)]
  simp only [ok_bind, List.drop_zero]
  rw [slice, if_pos (by omega)]
  simp only [ok_bind, List.drop_zero, List.take_length, toByte_rs, toByte_eq_be]
  have e96 : key.take 96 = key := by rw [← hk, List.take_length]
  rw [e96]
  have hl : (Spec.be 32 2 ++ key ++ m).length = m.length + 96 + 32 := by
    rw [List.length_append, List.length_append, length_be, hk]; omega
  cases hf
  · simp only [seen, Qrl.hMsg, Qrl.coreHash, HashFn.prim, sha2_256, toByte_eq_be]
  · simp only [← hl]
    rw [fipsShake128_eq, absorbed_seen 40 key m hk]
    simp only [seen, room]
    cases Spec.rustSeen 40 key m with
    | none => rfl
    | some m' => simp only [Option.map_some, Qrl.hMsg, Qrl.coreHash, HashFn.prim, toByte_eq_be]
  · simp only [← hl]
    rw [fipsShake256_eq, absorbed_seen 8 key m hk]
    simp only [seen, room]
    cases Spec.rustSeen 8 key m with
    | none => rfl
    | some m' => simp only [Option.map_some, Qrl.hMsg, Qrl.coreHash, HashFn.prim, toByte_eq_be]

end Qrl.Rs
