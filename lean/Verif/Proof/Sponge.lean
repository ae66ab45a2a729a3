import Verif.Proof.Keccak
import Mathlib.Data.List.GetD
/-!
# The sponge of the code is the sponge of FIPS 202
-/

namespace Qrl

open Spec.Fips202

def laneBits (u : UInt64) : List Bool := (List.finRange 64).map (bit u)

theorem replicate_add' (a b : Nat) (x : Bool) : List.replicate (a + b) x = List.replicate a x ++ List.replicate b x := by
  rw [List.replicate_append_replicate]

/-- A sponge state as a string of 1600 bits. -/
def stateBits (s : KState) : List Bool := s.toList.flatMap laneBits

theorem length_laneBits (u : UInt64) : (laneBits u).length = 64 := by simp [laneBits]

theorem length_flatLanes (l : List UInt64) : (l.flatMap laneBits).length = 64 * l.length := by
  induction l with
  | nil => rfl
  | cons a l ih => rw [List.flatMap_cons, List.length_append, ih, length_laneBits, List.length_cons]; omega

theorem length_stateBits (s : KState) : (stateBits s).length = 1600 := by
  rw [stateBits, length_flatLanes]; simp

theorem getD_laneBits (u : UInt64) (z : Nat) (h : z < 64) : (laneBits u).getD z false = u.toNat.testBit z := by
  rw [List.getD_eq_getElem _ _ (by rw [length_laneBits]; exact h)]
  simp [laneBits, bit]

theorem getD_append_lt {l l' : List Bool} {n : Nat} (h : n < l.length) : (l ++ l').getD n false = l.getD n false := by
  simp [List.getD_eq_getElem?_getD, List.getElem?_append_left h]

theorem getD_append_ge {l l' : List Bool} {n : Nat} (h : l.length ≤ n) :
    (l ++ l').getD n false = l'.getD (n - l.length) false := by
  simp [List.getD_eq_getElem?_getD, List.getElem?_append_right h]

theorem getD_flatLanes (l : List UInt64) : ∀ (i : Nat) (z : Nat), z < 64 →
    (l.flatMap laneBits).getD (64 * i + z) false = (l.getD i 0).toNat.testBit z := by
  induction l with
  | nil => intro i z h; simp
  | cons a l ih =>
    intro i z h
    rw [List.flatMap_cons]
    cases i with
    | zero =>
      rw [getD_append_lt (by rw [length_laneBits]; omega), Nat.mul_zero, Nat.zero_add, getD_laneBits _ _ h]
      rfl
    | succ i =>
      rw [getD_append_ge (by rw [length_laneBits]; omega), length_laneBits,
        show 64 * (i + 1) + z - 64 = 64 * i + z by omega, ih _ _ h]
      rfl

/-- Copying the state into the 25 lane variables. -/
def toLanes (s : KState) : Lanes :=
  ⟨s[0], s[1], s[2], s[3], s[4], s[5], s[6], s[7], s[8], s[9], s[10], s[11], s[12],
     s[13], s[14], s[15], s[16], s[17], s[18], s[19], s[20], s[21], s[22], s[23], s[24]⟩

theorem lane_toLanes (s : KState) (x y : Fin 5) : (toLanes s).lane x y = s.toList.getD (5 * y.val + x.val) 0 := by
  have h : 5 * y.val + x.val < 25 := by omega
  rw [List.getD_eq_getElem _ _ (by simpa using h), Vector.getElem_toList]
  match x, y with
  | 0, 0 => rfl
  | 1, 0 => rfl
  | 2, 0 => rfl
  | 3, 0 => rfl
  | 4, 0 => rfl
  | 0, 1 => rfl
  | 1, 1 => rfl
  | 2, 1 => rfl
  | 3, 1 => rfl
  | 4, 1 => rfl
  | 0, 2 => rfl
  | 1, 2 => rfl
  | 2, 2 => rfl
  | 3, 2 => rfl
  | 4, 2 => rfl
  | 0, 3 => rfl
  | 1, 3 => rfl
  | 2, 3 => rfl
  | 3, 3 => rfl
  | 4, 3 => rfl
  | 0, 4 => rfl
  | 1, 4 => rfl
  | 2, 4 => rfl
  | 3, 4 => rfl
  | 4, 4 => rfl

theorem toArray_stateBits (s : KState) : toArray (stateBits s) = (toLanes s).arr := by
  funext x y z
  rw [toArray, stateBits, getD_flatLanes _ _ _ z.isLt, Lanes.arr, lane_toLanes]
  rfl

def ofLanes (a : Lanes) : KState :=
  #v[a.Aba, a.Abe, a.Abi, a.Abo, a.Abu, a.Aga, a.Age, a.Agi, a.Ago, a.Agu,
     a.Aka, a.Ake, a.Aki, a.Ako, a.Aku, a.Ama, a.Ame, a.Ami, a.Amo, a.Amu,
     a.Asa, a.Ase, a.Asi, a.Aso, a.Asu]

theorem toString_arr (a : Lanes) : Spec.Fips202.toString a.arr = stateBits (ofLanes a) := by
  have h5 : List.finRange 5 = [0, 1, 2, 3, 4] := rfl
  simp only [Spec.Fips202.toString, h5, List.flatMap_cons, List.flatMap_nil, List.append_nil, stateBits, ofLanes,
    List.append_assoc]
  rfl

theorem keccakF_bits (s : KState) : stateBits (keccakF s) = Spec.Fips202.keccakF (stateBits s) := by
  rw [Spec.Fips202.keccakF, toArray_stateBits, ← roundLoop_arr, toString_arr]
  rfl

/-! ### Bytes and bits -/

theorem length_bits (m : Bytes) : (bits m).length = 8 * m.length := by
  induction m with
  | nil => rfl
  | cons a l ih => rw [bits, List.flatMap_cons, List.length_append, ← bits, ih]; simp; omega

theorem bits_append (a b : Bytes) : bits (a ++ b) = bits a ++ bits b := by simp [bits]

theorem bits_cons (a : UInt8) (b : Bytes) : bits (a :: b) = (List.range 8).map a.toNat.testBit ++ bits b := by
  simp [bits]

theorem getD_bits (m : Bytes) : ∀ n, (bits m).getD n false = (m.getD (n / 8) 0).toNat.testBit (n % 8) := by
  induction m with
  | nil => intro n; simp [bits]
  | cons a m ih =>
    intro n
    rw [bits_cons]
    by_cases h : n < 8
    · rw [getD_append_lt (by simpa using h), Nat.div_eq_of_lt h, Nat.mod_eq_of_lt h,
        List.getD_eq_getElem _ _ (by simpa using h)]
      simp
    · rw [getD_append_ge (by simpa using h), ih]
      have e : n / 8 = (n - 8) / 8 + 1 := by omega
      have e2 : n % 8 = (n - 8) % 8 := by omega
      rw [e, e2]
      simp

theorem testBit_load64 (bs : Bytes) : ∀ z, bs.length ≤ 8 → z < 64 →
    (load64 bs).toNat.testBit z = (bs.getD (z / 8) 0).toNat.testBit (z % 8) := by
  induction bs with
  | nil => intro z _ _; simp [load64]
  | cons b bs ih =>
    intro z hl hz
    have h8 : (8 : UInt64).toNat % 64 = 8 := rfl
    rw [load64, UInt64.toNat_or, UInt64.toNat_shiftLeft, Nat.testBit_or, h8, Nat.testBit_mod_two_pow,
      Nat.testBit_shiftLeft]
    have hb : (b.toUInt64).toNat = b.toNat := by simp
    rw [hb]
    by_cases h : z < 8
    · rw [Nat.div_eq_of_lt h, Nat.mod_eq_of_lt h]
      have : ¬ 8 ≤ z := by omega
      simp [this]
    · have hbz : b.toNat.testBit z = false :=
        Nat.testBit_lt_two_pow (Nat.lt_of_lt_of_le b.toNat_lt (Nat.pow_le_pow_right (by omega) (by omega)))
      have e : z / 8 = (z - 8) / 8 + 1 := by omega
      have e2 : z % 8 = (z - 8) % 8 := by omega
      rw [hbz, ih (z - 8) (by simp at hl; omega) (by omega), e, e2]
      simp [hz]
      omega

theorem bits_store64 (k : Nat) : ∀ u : UInt64, k ≤ 8 → bits (store64 k u) = (List.range (8 * k)).map u.toNat.testBit := by
  induction k with
  | zero => intro u _; rfl
  | succ k ih =>
    intro u hk
    rw [store64, bits_cons, ih _ (by omega), show 8 * (k + 1) = 8 + 8 * k by omega, List.range_add, List.map_append,
      List.map_map]
    congr 1
    · apply List.map_congr_left
      intro i hi
      have hi := List.mem_range.mp hi
      have : (u.toUInt8).toNat = u.toNat % 2 ^ 8 := by simp
      rw [this, Nat.testBit_mod_two_pow]
      simp [hi]
    · apply List.map_congr_left
      intro i hi
      have h8 : (8 : UInt64).toNat % 64 = 8 := rfl
      rw [UInt64.toNat_shiftRight, h8, Nat.testBit_shiftRight]
      rfl

theorem bits_store (u : UInt64) : bits (store64 8 u) = laneBits u := by
  rw [bits_store64 8 u (by omega)]
  have : List.range 64 = (List.finRange 64).map Fin.val := rfl
  rw [show 8 * 8 = 64 from rfl, this, List.map_map]
  rfl

theorem bits_flatStore (l : List UInt64) : bits (l.flatMap (store64 8)) = l.flatMap laneBits := by
  induction l with
  | nil => rfl
  | cons a l ih => rw [List.flatMap_cons, List.flatMap_cons, bits_append, ih, bits_store]

theorem take_flatLanes (l : List UInt64) : ∀ k, (l.take k).flatMap laneBits = (l.flatMap laneBits).take (64 * k) := by
  induction l with
  | nil => intro k; simp
  | cons a l ih =>
    intro k
    cases k with
    | zero => simp
    | succ k =>
      rw [List.take_succ_cons, List.flatMap_cons, List.flatMap_cons, ih, List.take_append, length_laneBits,
        show 64 * (k + 1) - 64 = 64 * k by omega, List.take_of_length_le (l := laneBits a) (by rw [length_laneBits]; omega)]

theorem bits_stateBytes (s : KState) (r : Nat) (h8 : r % 8 = 0) : bits (stateBytes s r) = (stateBits s).take (8 * r) := by
  rw [stateBytes, bits_flatStore, take_flatLanes, stateBits, show 64 * (r / 8) = 8 * r by omega]

theorem ext_getD {l l' : List Bool} (hl : l.length = l'.length) (h : ∀ n, n < l.length → l.getD n false = l'.getD n false) :
    l = l' := by
  apply List.ext_getElem hl
  intro n h1 h2
  have := h n h1
  rwa [List.getD_eq_getElem _ _ h1, List.getD_eq_getElem _ _ h2] at this

theorem xorBlock_bits (s : KState) (r : Nat) (m : Bytes) (h8 : r % 8 = 0) (hr : r ≤ 200) (hm : m.length = r) :
    stateBits (xorBlock s r m) = xorBits (stateBits s) (bits m ++ List.replicate (1600 - 8 * r) false) := by
  have hl : (xorBits (stateBits s) (bits m ++ List.replicate (1600 - 8 * r) false)).length = 1600 := by
    rw [xorBits, List.length_zipWith, length_stateBits, List.length_append, length_bits, List.length_replicate]
    omega
  apply ext_getD (by rw [hl, length_stateBits])
  rw [length_stateBits]
  intro n hn
  obtain ⟨i, z, hz, rfl⟩ : ∃ i z, z < 64 ∧ n = 64 * i + z := ⟨n / 64, n % 64, by omega, by omega⟩
  have hi : i < 25 := by omega
  have hR : (xorBits (stateBits s) (bits m ++ List.replicate (1600 - 8 * r) false)).getD (64 * i + z) false =
      ((stateBits s).getD (64 * i + z) false ^^ (bits m).getD (64 * i + z) false) := by
    generalize 64 * i + z = n at hn
    have hb : (bits m ++ List.replicate (1600 - 8 * r) false).getD n false = (bits m).getD n false := by
      by_cases h : n < (bits m).length
      · exact getD_append_lt h
      · rw [getD_append_ge (by omega), List.getD_eq_default _ _ (n := n) (by omega)]
        simp only [List.getD_eq_getElem?_getD, List.getElem?_replicate]
        split <;> rfl
    rw [← hb, List.getD_eq_getElem _ _ (by rw [hl]; exact hn), List.getD_eq_getElem _ _ (by rw [length_stateBits]; exact hn),
      List.getD_eq_getElem _ _ (by rw [List.length_append, length_bits, List.length_replicate]; omega)]
    simp [xorBits]
  have hx : (xorBlock s r m).toList.getD i 0 = if i < r / 8 then s.toList.getD i 0 ^^^
      load64 ((m.drop (8 * i)).take 8) else s.toList.getD i 0 := by
    rw [List.getD_eq_getElem _ _ (by simpa using hi), List.getD_eq_getElem _ _ (by simpa using hi), Vector.getElem_toList,
      Vector.getElem_toList]
    simp [xorBlock]
  rw [hR, getD_bits, stateBits, stateBits, getD_flatLanes _ _ _ hz, getD_flatLanes _ _ _ hz, hx]
  by_cases h : i < r / 8
  · rw [if_pos h, UInt64.toNat_xor, Nat.testBit_xor, testBit_load64 _ _ (by rw [List.length_take]; omega) hz]
    have h1 : (64 * i + z) % 8 = z % 8 := by omega
    have h2 : z / 8 < 8 := by omega
    have h3 : (64 * i + z) / 8 = 8 * i + z / 8 := by omega
    have h4 : ((m.drop (8 * i)).take 8).getD (z / 8) 0 = m.getD (8 * i + z / 8) 0 := by
      simp only [List.getD_eq_getElem?_getD, List.getElem?_take, h2, if_true, List.getElem?_drop]
    rw [h1, h3, h4]
  · rw [if_neg h, List.getD_eq_default m 0 (n := (64 * i + z) / 8) (by omega)]
    simp

/-! ### Padding -/

theorem bits_zeros (k : Nat) : bits (List.replicate k 0) = List.replicate (8 * k) false := by
  induction k with
  | zero => rfl
  | succ k ih =>
    rw [List.replicate_succ, bits_cons, ih, show 8 * (k + 1) = 8 + 8 * k by omega, replicate_add']
    congr 1

theorem padBlock_eq (r : Nat) (m : Bytes) (p : UInt8) (h : m.length < r) : padBlock r m p =
    if m.length = r - 1 then m ++ [p ||| 128] else m ++ p :: (List.replicate (r - m.length - 2) 0 ++ [128]) := by
  have e1 : m ++ (List.replicate r (0 : UInt8)).drop m.length = m ++ 0 :: List.replicate (r - m.length - 1) 0 := by
    rw [List.drop_replicate, ← List.replicate_succ]
    congr 2; omega
  simp only [padBlock]
  rw [e1, List.set_append_right _ _ (Nat.le_refl _), Nat.sub_self, List.set_cons_zero]
  split
  · rename_i hr
    rw [← hr, List.set_append_right _ _ (Nat.le_refl _), Nat.sub_self, List.set_cons_zero]
    rw [show r - m.length - 1 = 0 by omega]
    simp
  · rename_i hr
    rw [List.set_append_right _ _ (by omega)]
    have e : r - m.length - 1 = r - m.length - 2 + 1 := by omega
    rw [show r - 1 - m.length = r - m.length - 2 + 1 by omega, List.set_cons_succ, e, List.replicate_succ',
      List.set_append_right _ _ (by simp)]
    simp only [List.length_replicate, Nat.sub_self, List.set_cons_zero]
    congr 4
    rw [List.getD_eq_getElem?_getD, List.getElem?_append_right (by omega),
      show r - 1 - m.length = r - m.length - 2 + 1 by omega, List.getElem?_cons_succ,
      List.getElem?_append_right (by simp)]
    simp

theorem pad_zeros (r k : Nat) (h : k < r) : ((-((8 * k + 4 : Nat) : Int) - 2) % ((8 * r : Nat) : Int)).toNat = 8 * r - 8 * k - 6 := by
  have : (-((8 * k + 4 : Nat) : Int) - 2) % ((8 * r : Nat) : Int) = ((8 * r - 8 * k - 6 : Nat) : Int) := by
    rw [← Int.add_emod_right, Int.emod_eq_of_lt (by omega) (by omega)]
    omega
  rw [this]; rfl

theorem pad_add (x m : Nat) : pad101 x (m + x) = pad101 x m := by
  have : (-((m + x : Nat) : Int) - 2) % (x : Int) = (-(m : Int) - 2) % (x : Int) := by
    rw [← Int.add_emod_right]
    congr 1
    push_cast
    omega
  rw [pad101, this, pad101]

theorem padBlock_bits (r : Nat) (m : Bytes) (h : m.length < r) :
    bits (padBlock r m 0x1F) = bits m ++ [true, true, true, true] ++ pad101 (8 * r) (8 * m.length + 4) := by
  rw [padBlock_eq r m _ h, pad101, pad_zeros r _ h, List.append_assoc]
  split
  · rename_i hr
    rw [bits_append, show 8 * r - 8 * m.length - 6 = 2 by omega]
    rfl
  · rename_i hr
    rw [bits_append, bits_cons, bits_append, bits_zeros]
    have e : 8 * r - 8 * m.length - 6 = 3 + (8 * (r - m.length - 2) + 7) := by omega
    rw [e, replicate_add', replicate_add']
    have e7 : bits [128] = List.replicate 7 false ++ [true] := rfl
    rw [e7]
    congr 1
    have e8 : (List.range 8).map ((0x1F : UInt8).toNat.testBit) = [true, true, true, true] ++ (true :: List.replicate 3 false) := rfl
    rw [e8]
    simp

/-! ### The sponge -/

/-- The absorbing loop on a padded string. -/
def absorbBits (f : List Bool → List Bool) (b r : Nat) (P S : List Bool) : List Bool :=
  (List.range (P.length / r)).foldl
    (fun S i => f (xorBits S ((P.drop (r * i)).take r ++ List.replicate (b - r) false))) S

theorem absorbBits_cons (f : List Bool → List Bool) (b r : Nat) (hr : 0 < r) (B P S : List Bool) (hB : B.length = r) :
    absorbBits f b r (B ++ P) S = absorbBits f b r P (f (xorBits S (B ++ List.replicate (b - r) false))) := by
  have hn : (B ++ P).length / r = P.length / r + 1 := by
    rw [List.length_append, hB, Nat.add_div_left _ hr]
  rw [absorbBits, hn, List.range_succ_eq_map, List.foldl_cons, List.foldl_map, absorbBits]
  have h0 : (List.drop (r * 0) (B ++ P)).take r = B := by
    rw [Nat.mul_zero, List.drop_zero, List.take_append_of_le_length (by omega), List.take_of_length_le (by omega)]
  rw [h0]
  have hs : ∀ i, (B ++ P).drop (r * (i + 1)) = P.drop (r * i) := by
    intro i
    rw [Nat.mul_succ, List.drop_append]
    rw [List.drop_of_length_le (by omega), List.nil_append]
    congr 1; omega
  simp only [hs, Nat.succ_eq_add_one]

theorem absorb_bits (r : Nat) (h8 : r % 8 = 0) (hr : r ≤ 200) (hpos : 0 < r) (n : Nat) : ∀ (m : Bytes), m.length = n →
    ∀ s : KState, Spec.Fips202.keccakF (stateBits (keccakAbsorb s r m 0x1F)) =
      absorbBits Spec.Fips202.keccakF 1600 (8 * r)
        (bits m ++ [true, true, true, true] ++ pad101 (8 * r) (8 * m.length + 4)) (stateBits s) := by
  induction n using Nat.strongRecOn with
  | _ n ih =>
    intro m hm s
    rw [keccakAbsorb]
    by_cases hl : r ≤ m.length
    · rw [dif_pos ⟨hpos, hl⟩, ih (m.drop r).length (by rw [List.length_drop]; omega) _ rfl, keccakF_bits,
        xorBlock_bits _ _ _ h8 hr (by rw [List.length_take]; omega)]
      have e : bits m = bits (m.take r) ++ bits (m.drop r) := by rw [← bits_append, List.take_append_drop]
      have e2 : pad101 (8 * r) (8 * m.length + 4) = pad101 (8 * r) (8 * (m.drop r).length + 4) := by
        rw [← pad_add (8 * r) (8 * (m.drop r).length + 4), List.length_drop]
        congr 1; omega
      rw [e, e2]
      have := absorbBits_cons Spec.Fips202.keccakF 1600 (8 * r) (by omega) (bits (m.take r))
        (bits (m.drop r) ++ [true, true, true, true] ++ pad101 (8 * r) (8 * (m.drop r).length + 4)) (stateBits s)
        (by rw [length_bits, List.length_take]; omega)
      rw [← this]
      simp only [List.append_assoc]
    · rw [dif_neg (by omega), xorBlock_bits _ _ _ h8 hr, padBlock_bits _ _ (by omega)]
      · have := absorbBits_cons Spec.Fips202.keccakF 1600 (8 * r) (by omega)
          (bits m ++ [true, true, true, true] ++ pad101 (8 * r) (8 * m.length + 4)) [] (stateBits s)
          (by rw [← padBlock_bits _ _ (by omega), length_bits, padBlock_eq _ _ _ (by omega)]
              split <;> simp <;> omega)
        rw [List.append_nil] at this
        rw [this]
        simp [absorbBits]
      · rw [padBlock_eq _ _ _ (by omega)]
        split <;> simp <;> omega

theorem squeeze_bits (r : Nat) (h8 : r % 8 = 0) (hr : r ≤ 200) (hpos : 0 < r) (k : Nat) : ∀ (n : Nat) (s : KState), n ≤ k * r →
    squeeze Spec.Fips202.keccakF (8 * r) (Spec.Fips202.keccakF (stateBits s)) (8 * n) =
      (bits (keccakSqueezeBlocks k s r).1).take (8 * n) := by
  induction k with
  | zero =>
    intro n s hn
    have : n = 0 := by omega
    subst this
    rw [squeeze, dif_neg (by omega)]
    simp
  | succ k ih =>
    intro n s hn
    rw [keccakSqueezeBlocks, bits_append, bits_stateBytes _ _ h8, ← keccakF_bits, squeeze]
    have hl : ((stateBits (keccakF s)).take (8 * r)).length = 8 * r := by rw [List.length_take, length_stateBits]; omega
    by_cases h : r < n
    · rw [dif_pos (by omega), ← Nat.mul_sub, ih _ _ (by rw [Nat.succ_mul] at hn; omega), List.take_append, hl,
        List.take_of_length_le (i := 8 * n) (by omega), ← Nat.mul_sub]
    · rw [dif_neg (by omega), List.take_append_of_le_length (by omega), List.take_take, Nat.min_eq_left (by omega)]

theorem stateBits_zero : stateBits (Vector.replicate 25 0) = List.replicate 1600 false := by
  apply ext_getD (by rw [length_stateBits, List.length_replicate])
  rw [length_stateBits]
  intro n hn
  have e : n = 64 * (n / 64) + n % 64 := by omega
  rw [e, stateBits, getD_flatLanes _ _ _ (by omega)]
  simp only [Vector.toList_replicate, List.getD_eq_getElem?_getD, List.getElem?_replicate]
  split <;> split <;> simp

theorem shake_bits (r : Nat) (h8 : r % 8 = 0) (hr : r ≤ 200) (hpos : 0 < r) (n : Nat) (m : Bytes) :
    bits (shake r n m) = sponge Spec.Fips202.keccakF pad101 1600 (8 * r) (bits m ++ [true, true, true, true]) (8 * n) := by
  have hk : n ≤ n * r := Nat.le_mul_of_pos_right n hpos
  rw [shake_eq_take r n m h8 hr hpos n hk]
  have ht : ∀ (l : Bytes), bits (l.take n) = (bits l).take (8 * n) := by
    intro l
    by_cases h : n ≤ l.length
    · have : bits l = bits (l.take n) ++ bits (l.drop n) := by rw [← bits_append, List.take_append_drop]
      rw [this, List.take_append_of_le_length (by rw [length_bits, List.length_take]; omega),
        List.take_of_length_le (l := bits (l.take n)) (by rw [length_bits, List.length_take]; omega)]
    · rw [List.take_of_length_le (by omega), List.take_of_length_le (by rw [length_bits]; omega)]
  rw [ht, ← squeeze_bits r h8 hr hpos n n _ hk, absorb_bits r h8 hr hpos _ m rfl, stateBits_zero]
  simp only [sponge]
  rw [List.length_append, length_bits]
  rfl

end Qrl
