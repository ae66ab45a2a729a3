import Verif.Proof.Hex
import Verif.Model.Descriptor
/-!
# C07, C08, C10, C11: descriptors and addresses
-/

namespace Qrl.Props

open Outcome

/-- A 3-byte descriptor written out by hand: low nibble of byte 0 the hash function, high nibble of byte 0
the signature type, low nibble of byte 1 half the height, high nibble of byte 1 the address format. -/
def descriptorBytes (hash sigType halfHeight fmt : Nat) : Bytes :=
  [UInt8.ofNat (16 * sigType + hash), UInt8.ofNat (16 * fmt + halfHeight), 0]

theorem nib_or (a b : Nat) (hb : b < 16) : a <<< 4 ||| b = 16 * a + b := by
  rw [Nat.shiftLeft_eq, Nat.mul_comm, show (2 : Nat) ^ 4 = 16 from rfl]
  exact (Nat.two_pow_add_eq_or_of_lt (i := 4) hb a).symm

theorem getBytes_eq (d : Descriptor) :
    d.getBytes = descriptorBytes (d.hashFunction % 16) d.signatureType (d.height.toNat / 2 % 16) d.addrFormat := by
  have e1 : d.hashFunction &&& 0x0F = d.hashFunction % 16 := Nat.and_two_pow_sub_one_eq_mod _ 4
  have e2 : (d.height.toNat >>> 1) &&& 0x0F = d.height.toNat / 2 % 16 := by
    rw [Nat.shiftRight_eq_div_pow]; exact Nat.and_two_pow_sub_one_eq_mod _ 4
  simp only [Descriptor.getBytes, descriptorBytes, e1, e2]
  rw [nib_or _ _ (Nat.mod_lt _ (by omega)), nib_or _ _ (Nat.mod_lt _ (by omega))]

theorem low_nibble : ∀ b : UInt8, (b &&& 0x0F).toNat = b.toNat % 16 := by apply u8_forall; decide +kernel
theorem sig_nibble : ∀ b : UInt8, ((b >>> 4) &&& 0xF0).toNat = 0 := by apply u8_forall; decide +kernel
theorem height_nibble : ∀ b : UInt8, ((b &&& 0x0F) <<< 1) = UInt8.ofNat (2 * (b.toNat % 16)) := by
  apply u8_forall; decide +kernel
theorem high_nibble : ∀ b : UInt8, ((b &&& 0xF0) >>> 4).toNat = b.toNat / 16 := by apply u8_forall; decide +kernel

/-- What `fromBytes` reads out of three bytes. -/
theorem fromBytes_three (b0 b1 b2 : UInt8) : Descriptor.fromBytes [b0, b1, b2] =
    ok { hashFunction := b0.toNat % 16, signatureType := 0, height := UInt8.ofNat (2 * (b1.toNat % 16)),
         addrFormat := b1.toNat / 16 } := by
  simp only [Descriptor.fromBytes, low_nibble, sig_nibble, height_nibble, high_nibble]

/-- C07. Decoding what a descriptor was encoded to gives the descriptor back, for every hash value
0..15, signature type XMSS (0), even height at most 30 and address format 0..15. -/
theorem C07_descriptor_roundtrip (d : Descriptor) (hh : d.hashFunction < 16) (hs : d.signatureType = 0)
    (heven : d.height.toNat % 2 = 0) (hle : d.height.toNat ≤ 30) (hf : d.addrFormat < 16) :
    Descriptor.fromBytes d.getBytes = ok d := by
  rw [getBytes_eq, descriptorBytes, fromBytes_three]
  obtain ⟨hash, st, ht, fmt⟩ := d
  simp only at *
  subst hs
  simp only [UInt8.toNat_ofNat', Outcome.ok.injEq, Descriptor.mk.injEq, true_and]
  refine ⟨by omega, ?_, by omega⟩
  apply UInt8.toNat_inj.mp
  simp only [UInt8.toNat_ofNat']
  omega

/-- C07. In particular two different descriptors in that range have different encodings. -/
theorem C07_descriptor_injective (d d' : Descriptor)
    (hh : d.hashFunction < 16) (hs : d.signatureType = 0)
    (heven : d.height.toNat % 2 = 0) (hle : d.height.toNat ≤ 30) (hf : d.addrFormat < 16)
    (hh' : d'.hashFunction < 16) (hs' : d'.signatureType = 0)
    (heven' : d'.height.toNat % 2 = 0) (hle' : d'.height.toNat ≤ 30) (hf' : d'.addrFormat < 16)
    (h : d.getBytes = d'.getBytes) : d = d' := by
  have h1 := C07_descriptor_roundtrip d hh hs heven hle hf
  have h2 := C07_descriptor_roundtrip d' hh' hs' heven' hle' hf'
  rw [h, h2] at h1
  cases h1; rfl

/-- C07. The encoding has three bytes in the documented layout; heights are reduced modulo 32 and odd
heights lose their last bit, so height 32 is encoded like height 0. -/
theorem C07_descriptor_layout (d : Descriptor) :
    d.getBytes = descriptorBytes (d.hashFunction % 16) d.signatureType (d.height.toNat / 2 % 16) d.addrFormat ∧
    d.getBytes.length = 3 :=
  ⟨getBytes_eq d, by simp [Descriptor.getBytes]⟩

/-- C07. Decoding throws exactly when the input does not have 3 bytes. -/
theorem C07_descriptor_throws (b : Bytes) :
    (Descriptor.fromBytes b = .throw .invalidArgument ↔ b.length ≠ 3) ∧
    ((∃ d, Descriptor.fromBytes b = ok d) ↔ b.length = 3) := by
  match b with
  | [] => simp [Descriptor.fromBytes]
  | [_] => simp [Descriptor.fromBytes]
  | [_, _] => simp [Descriptor.fromBytes]
  | [a, b, c] => simp [Descriptor.fromBytes]
  | _ :: _ :: _ :: _ :: l => simp [Descriptor.fromBytes]

/-- C07. Decoding then encoding keeps the low nibble of byte 0 and byte 1; the signature-type nibble and
the third byte are replaced by zero. -/
theorem C07_descriptor_normalise (b0 b1 b2 : UInt8) (d : Descriptor)
    (h : Descriptor.fromBytes [b0, b1, b2] = ok d) : d.getBytes = [UInt8.ofNat (b0.toNat % 16), b1, 0] := by
  rw [fromBytes_three] at h
  cases h
  rw [getBytes_eq, descriptorBytes]
  simp only [UInt8.toNat_ofNat', List.cons.injEq, and_true]
  constructor
  · apply UInt8.toNat_inj.mp; simp only [UInt8.toNat_ofNat']; omega
  · apply UInt8.toNat_inj.mp; simp only [UInt8.toNat_ofNat']
    have := b1.toNat_lt
    omega

example : Descriptor.fromBytes (Descriptor.mk 1 0 10 0).getBytes = ok ⟨1, 0, 10, 0⟩ :=
  C07_descriptor_roundtrip ⟨1, 0, 10, 0⟩ (by decide) rfl (by decide) (by decide) (by decide)

/-- C08 (what the code does). The signature-type nibble is never honoured: every three-byte descriptor is
read as type XMSS, whatever the high nibble of its first byte says. -/
theorem C08_sigtype_ignored (b : Bytes) (d : Descriptor) (h : Descriptor.fromBytes b = ok d) :
    d.signatureType = 0 := by
  match b, h with
  | [b0, b1, b2], h => rw [fromBytes_three] at h; cases h; rfl

/-- C08. Two descriptors that differ only in the signature-type nibble (or the third byte) are read
identically. -/
theorem C08_sigtype_indistinguishable (b0 b0' b1 b2 b2' : UInt8) (h : b0.toNat % 16 = b0'.toNat % 16) :
    Descriptor.fromBytes [b0, b1, b2] = Descriptor.fromBytes [b0', b1, b2'] := by
  rw [fromBytes_three, fromBytes_three, h]

/-- C10. The address of a 67-byte key with address format 0: canonical descriptor, SHA-256 of the key,
and the last four bytes of SHA-256 of those 35 bytes. -/
theorem C10_address_value (S : Sha256) (epk : Bytes) (d : Descriptor) (hl : epk.length = 67)
    (hd : Descriptor.fromBytes (epk.take 3) = ok d) (hf : d.addrFormat = 0) :
    getAddress S epk = ok (d.getBytes ++ S.hash epk ++ (S.hash (d.getBytes ++ S.hash epk)).drop 28) := by
  have : Descriptor.fromExtendedPK epk = ok d := by
    simp [Descriptor.fromExtendedPK, hl, descriptorSize, hd]
  simp [getAddress, this, hf, addrFormatSHA256_2X, S.length_hash]

theorem rd_at {α : Type} (l : List α) (i : Nat) (h : i < l.length) : rd l i = ok l[i] := by
  simp [rd, List.getElem?_eq_getElem h]

theorem list4 {α : Type} (l : List α) (h : l.length = 4) (d : α) :
    l = [l.getD 0 d, l.getD 1 d, l.getD 2 d, l.getD 3 d] := by
  match l, h with
  | [a, b, c, e], _ => rfl

theorem take3_of {b : Bytes} (h : 3 ≤ b.length) : ∃ b0 b1 b2, b.take 3 = [b0, b1, b2] := by
  match b, h with
  | b0 :: b1 :: b2 :: _, _ => exact ⟨b0, b1, b2, rfl⟩

/-- C11. `addressIsValid` always returns, and returns true exactly for 39 bytes of address format 0 (high
nibble of the second byte) whose last 4 bytes are the last 4 bytes of SHA-256 of the first 35. -/
theorem C11_address_valid (S : Sha256) (a : Bytes) :
    ∃ r, addressIsValid S a = ok r ∧
      (r = true ↔ a.length = 39 ∧ (∃ b, a[1]? = some b ∧ b.toNat / 16 = 0) ∧
        a.drop 35 = (S.hash (a.take 35)).drop 28) := by
  unfold addressIsValid
  by_cases hl : a.length = 39
  · simp only [hl, descriptorSize]
    obtain ⟨b0, b1, b2, hb⟩ := take3_of (b := a) (by omega)
    have h1 : a[1]? = some b1 := by
      have := congrArg (fun l => l[1]?) hb
      simpa using this
    simp only [hb, fromBytes_three, h1]
    have hH := S.length_hash (a.take 35)
    by_cases hf : b1.toNat / 16 = 0
    · have hk : ∀ i j, i < 39 → j < 32 → (do
            let x ← rd a i
            let y ← rd (S.hash (a.take (3 + 32))) j
            ok (x == y)) = ok (a.getD i 0 == (S.hash (a.take 35)).getD j 0) := by
        intro i j hi hj
        have hi' : i < a.length := by omega
        have hj' : j < (S.hash (a.take (3 + 32))).length := by simp [S.length_hash]; omega
        rw [rd_at a i hi', rd_at _ j hj']
        simp [List.getD_eq_getElem?_getD, List.getElem?_eq_getElem hi',
          List.getElem?_eq_getElem hj']
      simp only [ne_eq, not_true_eq_false, if_false, ok_bind, hf, addrFormatSHA256_2X,
        hk 35 28 (by omega) (by omega), hk 36 29 (by omega) (by omega),
        hk 37 30 (by omega) (by omega), hk 38 31 (by omega) (by omega)]
      have key : a.drop 35 = (S.hash (a.take 35)).drop 28 ↔
          (a.getD 35 0 = (S.hash (a.take 35)).getD 28 0 ∧ a.getD 36 0 = (S.hash (a.take 35)).getD 29 0 ∧
           a.getD 37 0 = (S.hash (a.take 35)).getD 30 0 ∧ a.getD 38 0 = (S.hash (a.take 35)).getD 31 0) := by
        rw [list4 (a.drop 35) (by simp [hl]) 0, list4 ((S.hash (a.take 35)).drop 28) (by simp [hH]) 0]
        simp [List.getD_eq_getElem?_getD]
      rw [key]
      generalize (S.hash (a.take 35)).getD 28 0 = y0
      generalize (S.hash (a.take 35)).getD 29 0 = y1
      generalize (S.hash (a.take 35)).getD 30 0 = y2
      generalize (S.hash (a.take 35)).getD 31 0 = y3
      generalize a.getD 35 0 = x0
      generalize a.getD 36 0 = x1
      generalize a.getD 37 0 = x2
      generalize a.getD 38 0 = x3
      refine ⟨x0 == y0 && x1 == y1 && x2 == y2 && x3 == y3, ?_, ?_⟩
      · by_cases c0 : x0 = y0 <;> by_cases c1 : x1 = y1 <;> by_cases c2 : x2 = y2 <;>
          simp [c0, c1, c2, Outcome.catchAll]
      · have : ∃ b, some b1 = some b ∧ b.toNat / 16 = 0 := ⟨b1, rfl, hf⟩
        simp only [this, true_and]
        simp [and_assoc]
    · simp only [ne_eq, not_true_eq_false, if_false, ok_bind, addrFormatSHA256_2X, hf]
      refine ⟨false, rfl, ?_⟩
      constructor
      · intro h; cases h
      · rintro ⟨_, ⟨b, hb', hz⟩, _⟩
        cases hb'; exact absurd hz hf
  · simp only [descriptorSize]
    have : a.length ≠ 3 + 32 + 4 := by omega
    simp only [this, ne_eq, not_false_eq_true, if_true]
    exact ⟨false, rfl, by simp⟩

/-- C11. So a prefix of 35 bytes has at most one accepted completion: any change confined to the checksum of
a valid address makes it invalid. -/
theorem C11_checksum_unique (S : Sha256) (pre c c' : Bytes) (hp : pre.length = 35)
    (h : addressIsValid S (pre ++ c) = ok true) (h' : addressIsValid S (pre ++ c') = ok true) : c = c' := by
  obtain ⟨r, hr, hiff⟩ := C11_address_valid S (pre ++ c)
  obtain ⟨r', hr', hiff'⟩ := C11_address_valid S (pre ++ c')
  rw [h] at hr; cases hr
  rw [h'] at hr'; cases hr'
  have e := (hiff.mp rfl).2.2
  have e' := (hiff'.mp rfl).2.2
  simp only [← hp, List.drop_left, List.take_left] at e e'
  rw [e, e']

/-- C10. For every byte vector: `getAddress` returns an address exactly when the key has 67 bytes and
address format 0 (high nibble of its second byte), and throws `invalid_argument` otherwise. -/
theorem C10_address_throws (S : Sha256) (epk : Bytes) :
    ((∃ a, getAddress S epk = ok a) ↔ epk.length = 67 ∧ ∃ b, epk[1]? = some b ∧ b.toNat / 16 = 0) ∧
    ((∃ a, getAddress S epk = ok a) ∨ getAddress S epk = .throw .invalidArgument) := by
  by_cases hl : epk.length = 67
  · obtain ⟨b0, b1, b2, hb⟩ := take3_of (b := epk) (by omega)
    have h1 : epk[1]? = some b1 := by
      have := congrArg (fun l => l[1]?) hb
      simpa using this
    have hpk : Descriptor.fromExtendedPK epk =
        ok { hashFunction := b0.toNat % 16, signatureType := 0,
             height := UInt8.ofNat (2 * (b1.toNat % 16)), addrFormat := b1.toNat / 16 } := by
      rw [Descriptor.fromExtendedPK, descriptorSize, hb, fromBytes_three]; simp [hl]
    by_cases hf : b1.toNat / 16 = 0
    · simp only [getAddress, hpk, hf, addrFormatSHA256_2X, hl, h1, ok_bind]
      exact ⟨⟨fun _ => ⟨trivial, b1, rfl, hf⟩, fun _ => ⟨_, rfl⟩⟩, Or.inl ⟨_, rfl⟩⟩
    · have ht : getAddress S epk = .throw .invalidArgument := by
        simp only [getAddress, hpk, addrFormatSHA256_2X, ok_bind]
        exact if_pos hf
      rw [ht, h1]
      refine ⟨⟨?_, ?_⟩, Or.inr rfl⟩
      · rintro ⟨a, ha⟩; cases ha
      · rintro ⟨_, b, hb', hz⟩; cases hb'; exact absurd hz hf
  · simp [getAddress, Descriptor.fromExtendedPK, hl]

/-- C10. Every derived address has 39 bytes and is valid. -/
theorem C10_address_valid (S : Sha256) (epk a : Bytes) (h : getAddress S epk = ok a) :
    a.length = 39 ∧ addressIsValid S a = ok true := by
  obtain ⟨hl, b1', hb, hbf⟩ := (C10_address_throws S epk).1.mp ⟨a, h⟩
  obtain ⟨b0, b1, b2, hb3⟩ := take3_of (b := epk) (by omega)
  have h1 : epk[1]? = some b1 := by
    have := congrArg (fun l => l[1]?) hb3
    simpa using this
  rw [h1] at hb
  injection hb with hb
  subst hb
  have hval := C10_address_value S epk _ hl (by rw [hb3]; exact fromBytes_three b0 b1 b2) hbf
  rw [h] at hval
  have hn := C07_descriptor_normalise b0 b1 b2 _ (fromBytes_three b0 b1 b2)
  rw [hn] at hval
  have ha : a = ([UInt8.ofNat (b0.toNat % 16), b1, 0] ++ S.hash epk) ++
      (S.hash ([UInt8.ofNat (b0.toNat % 16), b1, 0] ++ S.hash epk)).drop 28 := by injection hval
  have hpre : ([UInt8.ofNat (b0.toNat % 16), b1, 0] ++ S.hash epk).length = 35 := by simp [S.length_hash]
  have hlen : a.length = 39 := by rw [ha, List.length_append, hpre]; simp [S.length_hash]
  refine ⟨hlen, ?_⟩
  obtain ⟨r, hr, hiff⟩ := C11_address_valid S a
  have : r = true := by
    rw [hiff]
    refine ⟨hlen, ⟨b1, by rw [ha]; rfl, hbf⟩, ?_⟩
    rw [ha, ← hpre, List.drop_left, List.take_left]
  rw [hr, this]

/-- A hash function with 32-byte results, for the examples. -/
def toySha : Sha256 := ⟨fun m => List.replicate 31 7 ++ [UInt8.ofNat m.length], by intro m; simp⟩

example : ∃ a, getAddress toySha (1 :: 5 :: List.replicate 65 9) = ok a :=
  (C10_address_throws _ _).1.mpr ⟨by simp, 5, rfl, by decide⟩

end Qrl.Props
