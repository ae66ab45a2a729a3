import Verif.Proof.RustVerify
import Verif.Props.Fast
/-!
# C51 and C54: keys, addresses and descriptors of the Rust port
-/

namespace Qrl.Props

/-- A Rust object and a C++ object (address format 0) with the same secret key, seed, height and hash function. -/
def SameKey (o : Rs.XMSSBase) (c : XmssBase) : Prop :=
  o.sk = c.sk ∧ o.seed = c.seed ∧ o.height = c.height ∧ o.hashFunction.toNat = c.hashFunction ∧ c.addrFormat = 0

theorem rs_getBytes (d : Rs.Descriptor) :
    d.getBytes = [UInt8.ofNat d.hashFunction.toNat, UInt8.ofNat (d.height.toNat / 2 % 16), 0] := by
  have e : ((0 : UInt8) <<< 4) ||| ((d.height >>> 1) &&& 0x0F) = UInt8.ofNat (d.height.toNat / 2 % 16) := by
    have : ∀ n : Fin 256, ((0 : UInt8) <<< 4) ||| (((UInt8.ofNat n.val) >>> 1) &&& 0x0F) = UInt8.ofNat (n.val / 2 % 16) := by
      decide +kernel
    have h := this ⟨d.height.toNat, d.height.toNat_lt⟩
    simpa using h
  have e0 : ((0 : UInt8) <<< 4) ||| (UInt8.ofNat d.hashFunction.toNat &&& 0x0F) = UInt8.ofNat d.hashFunction.toNat := by
    cases d.hashFunction <;> decide
  rw [Rs.Descriptor.getBytes, e, e0]

/-- C54. `from_bytes` gives, for three bytes: the hash function in the low half of the first byte, if it is 0, 1 or 2, the
height twice the low half of the second, if the address format in its high half is 0; anything else is an error. The
signature type in the high half of the first byte is not looked at, as in C++. -/
theorem C54_from_bytes (b : Bytes) (d : Rs.Descriptor) :
    Rs.Descriptor.fromBytes b = .ok d ↔
      ∃ b0 b1 b2, b = [b0, b1, b2] ∧ b0.toNat % 16 = d.hashFunction.toNat ∧ b1.toNat / 16 = 0 ∧
        d.height = UInt8.ofNat (2 * (b1.toNat % 16)) := by
  constructor
  · intro h
    match b, h with
    | [b0, b1, b2], h =>
      rw [Rs.rs_fromBytes] at h
      cases hf : HashFn.ofNat? (b0.toNat % 16) with
      | none => rw [hf] at h; cases h
      | some f =>
        rw [hf] at h
        dsimp only at h
        by_cases h1 : b1.toNat / 16 = 0
        · rw [if_pos h1] at h
          cases h
          refine ⟨b0, b1, b2, rfl, ?_, h1, rfl⟩
          have : ∀ k f, HashFn.ofNat? k = some f → k = f.toNat := by
            intro k f
            match k with
            | 0 => intro h; cases h; rfl
            | 1 => intro h; cases h; rfl
            | 2 => intro h; cases h; rfl
            | k + 3 => intro h; cases h
          exact this _ _ hf
        · rw [if_neg h1] at h; cases h
  · rintro ⟨b0, b1, b2, rfl, h0, h1, h2⟩
    rw [Rs.rs_fromBytes, h0, ofNat?_toNat]
    dsimp only
    rw [if_pos h1, ← h2]

/-- C54. Every other input is an `Err`, never a panic. -/
theorem C54_from_bytes_total (b : Bytes) : (∃ d, Rs.Descriptor.fromBytes b = .ok d) ∨ ∃ e, Rs.Descriptor.fromBytes b = .err e := by
  match b with
  | [] => exact Or.inr ⟨_, rfl⟩
  | [_] => exact Or.inr ⟨_, rfl⟩
  | [_, _] => exact Or.inr ⟨_, rfl⟩
  | _ :: _ :: _ :: _ :: _ => exact Or.inr ⟨_, rfl⟩
  | [b0, b1, b2] =>
    rw [Rs.rs_fromBytes]
    cases HashFn.ofNat? (b0.toNat % 16) with
    | none => exact Or.inr ⟨_, rfl⟩
    | some f =>
      dsimp only
      split
      · exact Or.inl ⟨_, rfl⟩
      · exact Or.inr ⟨_, rfl⟩

/-- C54. A descriptor of an even height below 32 survives `get_bytes` and `from_bytes`. -/
theorem C54_roundtrip (d : Rs.Descriptor) (he : d.height.toNat % 2 = 0) (hl : d.height.toNat < 32) :
    Rs.Descriptor.fromBytes d.getBytes = .ok d := by
  rw [C54_from_bytes]
  refine ⟨_, _, _, rs_getBytes d, ?_, ?_, ?_⟩
  · cases d.hashFunction <;> rfl
  · simp only [UInt8.toNat_ofNat']; omega
  · apply UInt8.toNat_inj.mp
    simp only [UInt8.toNat_ofNat']; omega

/-- C54. The bytes of a descriptor are those of the C++ descriptor with address format 0. -/
theorem C54_same_bytes (hf : HashFn) (height : UInt8) :
    Rs.Descriptor.getBytes ⟨hf, height⟩ = Descriptor.getBytes ⟨hf.toNat, 0, height, 0⟩ := by
  rw [rs_getBytes, getBytes_eq, descriptorBytes]
  have : hf.toNat % 16 = hf.toNat := by cases hf <;> rfl
  simp only [this, Nat.mul_zero, Nat.zero_add]

/-- C54. Where Rust reads a descriptor, C++ reads the same one; C++ also reads the ones Rust refuses (hash function 3 to
15, address format not 0). -/
theorem C54_cpp_accepts_more (b : Bytes) :
    (∀ d, Rs.Descriptor.fromBytes b = .ok d →
      Descriptor.fromBytes b = .ok ⟨d.hashFunction.toNat, 0, d.height, 0⟩) ∧
    (b.length = 3 → ∃ d, Descriptor.fromBytes b = .ok d) := by
  constructor
  · intro d h
    obtain ⟨b0, b1, b2, rfl, h0, h1, h2⟩ := (C54_from_bytes b d).mp h
    rw [fromBytes_three, h0, h1, h2]
  · intro h
    match b, h with
    | [b0, b1, b2], _ => exact ⟨_, fromBytes_three b0 b1 b2⟩

theorem rs_descBytes {o : Rs.XMSSBase} {c : XmssBase} (h : SameKey o c) : o.getDescriptorBytes = c.getDescriptorBytes := by
  obtain ⟨h1, h2, h3, h4, h5⟩ := h
  rw [Rs.XMSSBase.getDescriptorBytes, C54_same_bytes, XmssBase.getDescriptorBytes, XmssBase.getDescriptor, h3, h4, h5]
  rfl

/-- C51. The getters of the port give what the C++ getters give for the same key. -/
theorem C51_same_getters (o : Rs.XMSSBase) (c : XmssBase) (h : SameKey o c) (hl : c.sk.length = 132) :
    (∃ x, o.getSkSeed = .ok x ∧ c.getSKSeed = .ok x) ∧ (∃ x, o.getSkPrf = .ok x ∧ c.getSKPRF = .ok x) ∧
    (∃ x, o.getPkSeed = .ok x ∧ c.getPKSeed = .ok x) ∧ (∃ x, o.getRoot = .ok x ∧ c.getRoot = .ok x) ∧
    (∃ i, o.getIndex = .ok i ∧ c.getIndex = .ok i) ∧ (∃ pk, o.getPk = .ok pk ∧ c.getPK = .ok pk) ∧
    o.getExtendedSeed = c.getExtendedSeed := by
  have hd := rs_descBytes h
  obtain ⟨h1, h2, h3, h4, h5⟩ := h
  have sl : ∀ a, a + 32 ≤ 132 → Rs.slice o.sk a 32 = .ok ((c.sk.drop a).take 32) ∧ slice c.sk a 32 = .ok ((c.sk.drop a).take 32) := by
    intro a ha
    rw [Rs.slice, slice, h1, if_pos (by omega), if_pos (by omega)]
    exact ⟨rfl, rfl⟩
  refine ⟨⟨_, sl 4 (by omega)⟩, ⟨_, sl 36 (by omega)⟩, ⟨_, sl 68 (by omega)⟩, ⟨_, sl 100 (by omega)⟩, ?_, ?_, ?_⟩
  · match hsk : c.sk, hl with
    | b0 :: b1 :: b2 :: b3 :: rest, _ =>
      have g : ∃ i, c.getIndex = .ok i := by
        rw [XmssBase.getIndex, hsk]; exact ⟨_, rfl⟩
      obtain ⟨i, hi⟩ := g
      refine ⟨i, ?_, hi⟩
      have e := Rs.getIndex_sim o c.params i
      apply e
      rw [← hi]
      simp only [XmssBase.getIndex, Rs.XMSSBase.cpp, h1]
  · refine ⟨c.getDescriptorBytes ++ (c.sk.drop 100).take 32 ++ (c.sk.drop 68).take 32, ?_, ?_⟩
    · rw [Rs.XMSSBase.getPk, Rs.XMSSBase.getRoot, (sl 100 (by omega)).1, Rs.Res.ok_bind, Rs.XMSSBase.getPkSeed,
        (sl 68 (by omega)).1, Rs.Res.ok_bind, hd]
    · rw [XmssBase.getPK, XmssBase.getRoot, (sl 100 (by omega)).2, Outcome.ok_bind, XmssBase.getPKSeed,
        (sl 68 (by omega)).2, Outcome.ok_bind]
  · rw [Rs.XMSSBase.getExtendedSeed, XmssBase.getExtendedSeed, hd, h2]

/-- C51. `get_number_signatures` and `get_remaining_signatures` of the port. The number is the one C++ gives. The remaining
number is the C++ one while the index is at most `2^height` (always so for a fast signer); beyond it (`XMSSBasic` after
`set_index`) the C++ difference wraps around, and so does the port's in a build without overflow checks; with overflow
checks it panics. -/
theorem C51_counts (b : Rs.Build) (o : Rs.XMSSBase) (c : XmssBase) (h : SameKey o c) (hl : c.sk.length = 132)
    (h32 : c.height.toNat < 32) :
    ∃ i, c.getIndex = .ok i ∧ i < 2 ^ 32 ∧
      o.getNumberSignatures b = .ok (2 ^ c.height.toNat) ∧ c.getNumberSignatures = .ok (2 ^ c.height.toNat) ∧
      (i ≤ 2 ^ c.height.toNat →
        o.getRemainingSignatures b = .ok (2 ^ c.height.toNat - i) ∧ c.getRemainingSignatures = .ok (2 ^ c.height.toNat - i)) ∧
      (2 ^ c.height.toNat < i → c.getRemainingSignatures = .ok (2 ^ 32 + 2 ^ c.height.toNat - i) ∧
        (b = .debug → o.getRemainingSignatures b = .panic) ∧
        (b = .release → o.getRemainingSignatures b = .ok (2 ^ 32 + 2 ^ c.height.toNat - i))) := by
  obtain ⟨_, _, _, _, ⟨i, hi, hci⟩, _, _⟩ := C51_same_getters o c h hl
  have hlt : i < 2 ^ 32 := by
    match hsk : c.sk, hl with
    | b0 :: b1 :: b2 :: b3 :: rest, _ =>
      rw [XmssBase.getIndex, hsk] at hci
      have e : (b0.toNat <<< 24 + b1.toNat <<< 16 + b2.toNat <<< 8 + b3.toNat) % 2 ^ 32 = i := by injection hci
      rw [← e]
      exact Nat.mod_lt _ (by decide)
  have hn : o.getNumberSignatures b = .ok (2 ^ c.height.toNat) := by
    rw [Rs.XMSSBase.getNumberSignatures, Rs.shl1.eq_def, h.2.2.1, if_pos h32]
  have hcn : c.getNumberSignatures = .ok (2 ^ c.height.toNat) := by
    rw [XmssBase.getNumberSignatures, if_neg (by omega)]
  have hp : 2 ^ c.height.toNat ≤ 2 ^ 31 := Nat.pow_le_pow_right (by omega) (by omega)
  have hr : o.getRemainingSignatures b = Rs.u32sub b (2 ^ c.height.toNat) i := by
    rw [Rs.XMSSBase.getRemainingSignatures, hn, hi]; rfl
  have hcr : c.getRemainingSignatures = .ok (sub32 (2 ^ c.height.toNat) i) := by
    rw [XmssBase.getRemainingSignatures, hcn, hci]; rfl
  have hs : sub32 (2 ^ c.height.toNat) i = if i ≤ 2 ^ c.height.toNat then 2 ^ c.height.toNat - i else 2 ^ 32 + 2 ^ c.height.toNat - i := by
    rw [sub32, Nat.mod_eq_of_lt (a := i) hlt]
    split <;> omega
  refine ⟨i, hci, hlt, hn, hcn, fun hle => ?_, fun hgt => ?_⟩
  · rw [hr, hcr, hs, if_pos hle, Rs.u32sub.eq_def, if_pos hle]
    exact ⟨rfl, rfl⟩
  · have hng : ¬ i ≤ 2 ^ c.height.toNat := by omega
    rw [hr, hcr, hs, if_neg hng, Rs.u32sub.eq_def, if_neg hng]
    refine ⟨rfl, fun hb => by rw [hb], fun hb => ?_⟩
    rw [hb]
    simp only
    rw [Nat.mod_eq_of_lt (a := i) hlt, Nat.mod_eq_of_lt (by omega), Nat.add_comm (2 ^ c.height.toNat)]

/-- C51. `get_address` of the port succeeds exactly for 67-byte keys naming a supported hash function and address format 0. -/
theorem C51_address_defined (S : Sha256) (epk : Bytes) :
    (∃ a, Rs.getAddress S epk = .ok a) ↔ epk.length = 67 ∧ keyHash epk ≤ 2 ∧ (epk.getD 1 0).toNat / 16 = 0 := by
  have sl : ∀ x : Bytes, Rs.slice (Rs.sha2_256 S x) ((Rs.sha2_256 S x).length - 4) 4 = .ok ((S.hash x).drop 28) := by
    intro x
    have := S.length_hash x
    rw [Rs.slice, Rs.sha2_256, this, if_pos (by omega), List.take_of_length_le (by rw [List.length_drop]; omega)]
  by_cases hl : epk.length = 67
  · rw [Rs.getAddress, Rs.rs_fromExtendedPk epk hl]
    cases hf : HashFn.ofNat? (keyHash epk) with
    | none =>
      constructor
      · rintro ⟨a, h⟩; cases h
      · rintro ⟨_, h2, _⟩
        obtain ⟨f, hf1, _⟩ := ofNat?_of_le h2
        rw [hf] at hf1; cases hf1
    | some f =>
      dsimp only
      by_cases h1 : (epk.getD 1 0).toNat / 16 = 0
      · rw [if_pos h1]
        simp only [Rs.Res.ok_bind, sl]
        refine ⟨fun _ => ⟨hl, ?_, h1⟩, fun _ => ⟨_, rfl⟩⟩
        rcases Nat.lt_or_ge 2 (keyHash epk) with h3 | h3
        · exfalso
          generalize keyHash epk = k at *
          match k, h3, hf with
          | k + 3, _, hf => cases hf
        · exact h3
      · rw [if_neg h1]
        constructor
        · rintro ⟨a, h⟩; cases h
        · rintro ⟨_, _, h⟩; exact absurd h h1
  · rw [Rs.getAddress, Rs.Descriptor.fromExtendedPk, if_pos hl]
    constructor
    · rintro ⟨a, h⟩; cases h
    · rintro ⟨h, _⟩; exact absurd h hl

/-- C51. It never panics, and what it returns is the C++ address. -/
theorem C51_address_same (S : Sha256) (epk : Bytes) :
    Rs.getAddress S epk ≠ .panic ∧ ∀ a, Rs.getAddress S epk = .ok a → getAddress S epk = .ok a := by
  have sl : ∀ x : Bytes, Rs.slice (Rs.sha2_256 S x) ((Rs.sha2_256 S x).length - 4) 4 = .ok ((S.hash x).drop 28) := by
    intro x
    have := S.length_hash x
    rw [Rs.slice, Rs.sha2_256, this, if_pos (by omega), List.take_of_length_le (by rw [List.length_drop]; omega)]
  by_cases hl : epk.length = 67
  · rw [Rs.getAddress, Rs.rs_fromExtendedPk epk hl]
    cases hf : HashFn.ofNat? (keyHash epk) with
    | none => exact ⟨(fun h => by cases h), (fun a h => by cases h)⟩
    | some f =>
      dsimp only
      by_cases h1 : (epk.getD 1 0).toNat / 16 = 0
      · rw [if_pos h1]
        simp only [Rs.Res.ok_bind, sl]
        refine ⟨(fun h => by cases h), fun a h => ?_⟩
        cases h
        obtain ⟨b0, b1, b2, hb⟩ := take3_of (b := epk) (by omega)
        have hk : Descriptor.fromBytes (epk.take 3) = .ok ⟨f.toNat, 0, UInt8.ofNat (keyHeight epk), 0⟩ := by
          have e := Rs.rs_fromExtendedPk epk hl
          rw [hf] at e
          dsimp only at e
          rw [if_pos h1, Rs.Descriptor.fromExtendedPk, if_neg (not_not.mpr hl)] at e
          exact (C54_cpp_accepts_more _).1 _ e
        rw [C10_address_value S epk _ hl hk rfl, C54_same_bytes]
        rfl
      · rw [if_neg h1]; exact ⟨(fun h => by cases h), (fun a h => by cases h)⟩
  · rw [Rs.getAddress, Rs.Descriptor.fromExtendedPk, if_pos hl]
    exact ⟨(fun h => by cases h), (fun a h => by cases h)⟩

theorem rs_rd_eq {α : Type} (l : List α) (i : Nat) (a : α) (h : rd l i = .ok a) : Rs.rd l i = .ok a := by
  rw [rd] at h
  rw [Rs.rd]
  cases hx : l[i]? with
  | none => rw [hx] at h; cases h
  | some x => rw [hx] at h; cases h; rfl

/-- C51. `get_address` and `get_descriptor_bytes` on an object: the C++ address and descriptor of the same key. -/
theorem C51_object_address (S : Sha256) (o : Rs.XMSSBase) (c : XmssBase) (h : SameKey o c) (hl : c.sk.length = 132) :
    o.getDescriptorBytes = c.getDescriptorBytes ∧ ∃ a, o.getAddress S = .ok a ∧ c.getAddress S = .ok a := by
  have hd := rs_descBytes h
  refine ⟨hd, ?_⟩
  obtain ⟨_, _, ⟨ps, hps, _⟩, ⟨root, hroot, _⟩, _, ⟨pk, hpk, hcpk⟩, _⟩ := C51_same_getters o c h hl
  have hsl : ∀ a x, a + 32 ≤ 132 → Rs.slice o.sk a 32 = .ok x → x.length = 32 := by
    intro a x ha hx
    rw [Rs.slice, if_pos (by rw [h.1]; omega)] at hx
    cases hx
    rw [List.length_take, List.length_drop, h.1]; omega
  have hpk' := hpk
  rw [Rs.XMSSBase.getPk, hroot, Rs.Res.ok_bind, hps, Rs.Res.ok_bind, Rs.XMSSBase.getDescriptorBytes, rs_getBytes] at hpk'
  have e : [UInt8.ofNat o.hashFunction.toNat, UInt8.ofNat (o.height.toNat / 2 % 16), 0] ++ root ++ ps = pk := by injection hpk'
  have h1 := hsl 100 root (by omega) hroot
  have h2 := hsl 68 ps (by omega) hps
  obtain ⟨a, ha⟩ := (C51_address_defined S pk).mpr (by
    refine ⟨by rw [← e]; simp [h1, h2], ?_, ?_⟩
    · rw [← e]
      show (UInt8.ofNat o.hashFunction.toNat).toNat % 16 ≤ 2
      cases o.hashFunction <;> decide
    · rw [← e]
      show (UInt8.ofNat (o.height.toNat / 2 % 16)).toNat / 16 = 0
      rw [UInt8.toNat_ofNat']; omega)
  refine ⟨a, ?_, ?_⟩
  · rw [Rs.XMSSBase.getAddress, hpk]; exact ha
  · rw [XmssBase.getAddress, hcpk]; exact (C51_address_same S pk).2 a ha

/-- C51. `address_is_valid` never panics, and accepts exactly the addresses C++ accepts whose descriptor names a supported
hash function. -/
theorem C51_address_is_valid (S : Sha256) (a : Bytes) :
    ∃ r, Rs.addressIsValid S a = .ok r ∧
      (r = true ↔ addressIsValid S a = .ok true ∧ (a.getD 0 0).toNat % 16 ≤ 2) := by
  obtain ⟨rc, hc, hiff⟩ := C11_address_valid S a
  rw [Rs.addressIsValid]
  by_cases hl : a.length = 39
  swap
  · rw [if_pos (by omega)]
    refine ⟨false, rfl, ⟨(fun h => by cases h), fun h => ?_⟩⟩
    rw [hc] at h
    exact absurd (hiff.mp (Outcome.ok.inj h.1)).1 hl
  rw [if_neg (by omega)]
  obtain ⟨b0, b1, b2, hb⟩ := take3_of (b := a) (by omega)
  have g1 : a[1]? = some b1 := by
    have := congrArg (fun l => l[1]?) hb
    simpa using this
  have g0 : a.getD 0 0 = b0 := by
    have := congrArg (fun l => l[0]?) hb
    have h0 : a[0]? = some b0 := by simpa using this
    rw [List.getD_eq_getElem?_getD, h0]; rfl
  rw [hb, Rs.rs_fromBytes, g0]
  cases hf : HashFn.ofNat? (b0.toNat % 16) with
  | none =>
    refine ⟨false, rfl, ⟨(fun h => by cases h), fun h => ?_⟩⟩
    obtain ⟨f, hf1, _⟩ := ofNat?_of_le h.2
    rw [hf] at hf1; cases hf1
  | some f =>
    have h2 : b0.toNat % 16 ≤ 2 := by
      rcases Nat.lt_or_ge 2 (b0.toNat % 16) with h3 | h3
      · exfalso
        generalize b0.toNat % 16 = k at *
        match k, h3, hf with
        | k + 3, _, hf => cases hf
      · exact h3
    dsimp only
    by_cases h1 : b1.toNat / 16 = 0
    swap
    · rw [if_neg h1]
      refine ⟨false, rfl, ⟨(fun h => by cases h), fun h => ?_⟩⟩
      rw [hc] at h
      obtain ⟨b, hb1, hb2⟩ := (hiff.mp (Outcome.ok.inj h.1)).2.1
      rw [g1] at hb1
      cases hb1
      exact absurd hb2 h1
    rw [if_pos h1]
    dsimp only
    have R : ∀ i, (hi : i < 39) → Rs.rd a i = .ok (a[i]'(by omega)) := fun i hi =>
      rs_rd_eq _ _ _ (rd_at a i (by omega))
    have hh := S.length_hash (a.take 35)
    have Q : ∀ i, (hi : i < 32) → Rs.rd (Rs.sha2_256 S (a.take 35)) i = .ok ((S.hash (a.take 35))[i]'(by omega)) :=
      fun i hi => rs_rd_eq _ _ _ (rd_at _ i (by rw [Rs.sha2_256]; omega))
    simp only [show (3 + 32 : Nat) = 35 from rfl, R 35 (by omega), R 36 (by omega), R 37 (by omega), R 38 (by omega),
      Q 28 (by omega), Q 29 (by omega), Q 30 (by omega), Q 31 (by omega), Rs.Res.ok_bind]
    have hd : a.drop 35 = [a[35]'(by omega), a[36]'(by omega), a[37]'(by omega), a[38]'(by omega)] := by
      rw [List.drop_eq_getElem_cons (by omega), List.drop_eq_getElem_cons (by omega), List.drop_eq_getElem_cons (by omega),
        List.drop_eq_getElem_cons (by omega), List.drop_of_length_le (by omega)]
    have hd2 : (S.hash (a.take 35)).drop 28 = [(S.hash (a.take 35))[28]'(by omega), (S.hash (a.take 35))[29]'(by omega),
        (S.hash (a.take 35))[30]'(by omega), (S.hash (a.take 35))[31]'(by omega)] := by
      rw [List.drop_eq_getElem_cons (by omega), List.drop_eq_getElem_cons (by omega), List.drop_eq_getElem_cons (by omega),
        List.drop_eq_getElem_cons (by omega), List.drop_of_length_le (by omega)]
    have hval : (addressIsValid S a = .ok true) ↔ a.drop 35 = (S.hash (a.take 35)).drop 28 := by
      rw [hc]
      constructor
      · intro h; exact (hiff.mp (Outcome.ok.inj h)).2.2
      · intro h; rw [hiff.mpr ⟨hl, ⟨b1, g1, h1⟩, h⟩]
    rw [hval, hd, hd2]
    simp only [List.cons.injEq, and_true, h2, and_true]
    generalize a[35]'(by omega) = x0
    generalize a[36]'(by omega) = x1
    generalize a[37]'(by omega) = x2
    generalize a[38]'(by omega) = x3
    generalize (S.hash (a.take 35))[28]'(by omega) = y0
    generalize (S.hash (a.take 35))[29]'(by omega) = y1
    generalize (S.hash (a.take 35))[30]'(by omega) = y2
    generalize (S.hash (a.take 35))[31]'(by omega) = y3
    by_cases c0 : x0 = y0
    · by_cases c1 : x1 = y1
      · by_cases c2 : x2 = y2
        · refine ⟨x3 == y3, ?_, ?_⟩
          · simp [c0, c1, c2]
          · simp [c0, c1, c2]
        · exact ⟨false, by simp [c0, c1, c2], by simp [c2]⟩
      · exact ⟨false, by simp [c0, c1], by simp [c1]⟩
    · exact ⟨false, by simp [c0], by simp [c0]⟩

/-- C51. `XMSSFast::new` on a 48-byte seed and an even height 4..30 (with Winternitz parameter 16) builds the key the C++
constructor builds. -/
theorem C51_fast_same_key (b : Rs.Build) (S : Sha256) (seed : Bytes) (height : UInt8) (hf : HashFn)
    (hs : seed.length = 48) (hh : GoodHeight height) :
    ∃ o c, Rs.XMSSFast.new b S seed height hf 16 = .ok o ∧ XmssFast.new S seed height hf.toNat 0 = .ok c ∧
      SameKey o.toXMSSBase c.toXmssBase ∧ c.sk.length = 132 ∧ o.hashFunction = hf ∧ o.height = height ∧ o.seed = seed := by
  obtain ⟨p, k, q, o0, e1, e2, e3, e4, e5, H⟩ := Rs.fast_new_rs (S := S) b seed height hf (w := 16) (by omega) hs hh
  have hn2 : hf.toNat ≤ 2 := by cases hf <;> decide
  obtain ⟨c, hc⟩ := (C39_fast_succeeds S seed height hf.toNat 0).mpr ⟨hs, hh, hn2⟩
  obtain ⟨_, _, f, hf1, hf2, g1, g2, g3, g4, p', k', q', hp', g5, H'⟩ := fast_fresh hc
  rw [ofNat?_toNat] at hf2
  cases hf2
  have k1 : o0.sk = _ := H.hsk
  have k2 : c.sk = _ := H'.hsk
  have k3 : c.sk.length = 132 := by rw [k2, KeyParts.length_sk]
  refine ⟨o0, c, e1, hc, ⟨?_, ?_, ?_, ?_, ?_⟩, k3, e2, e3, e4⟩
  · rw [k1, k2]
  · rw [e4]; exact g4.symm
  · rw [e3]; exact g1.symm
  · rw [e2]; exact g2.symm
  · exact g3

/-- C51. `XMSSBasic::new` on a 48-byte seed and an even height 4..30 builds the key the C++ constructor builds, for the
four Winternitz parameters. -/
theorem C51_basic_same_key (b : Rs.Build) (S : Sha256) (seed : Bytes) (height : UInt8) (hf : HashFn) (w : Nat)
    (hw : w = 2 ∨ w = 4 ∨ w = 16 ∨ w = 256) (hs : seed.length = 48) (hh : GoodHeight height) :
    ∃ o c, Rs.XMSSBasic.new b S seed height hf w = .ok o ∧ XmssBasic.new S seed height hf.toNat 0 w = .ok c ∧
      SameKey o.toXMSSBase c ∧ c.sk.length = 132 ∧ o.hashFunction = hf ∧ o.height = height ∧ o.seed = seed := by
  obtain ⟨p, k, q, hp, h1, h2, e⟩ := basicNew_eq S seed height hf 0 w hw hs hh
  exact ⟨_, _, Rs.basic_new_rs b seed height hf hw hs hh, e, ⟨rfl, rfl, rfl, rfl, rfl⟩, KeyParts.length_sk _ _, rfl, rfl, rfl⟩

theorem initTree_bad (b : Rs.Build) (S : Sha256) (o : Rs.XMSSFast) (w : Nat)
    (hc : 2 ≥ o.height.toNat ∨ (o.height.toNat - 2) % 2 ≠ 0) : o.initializeTree b S w = .fail .invalidArgument o := by
  rw [Rs.XMSSFast.initializeTree, if_pos hc]

theorem initTree_tall (S : Sha256) (o : Rs.XMSSFast) (w : Nat) (hs : o.seed.length = 48) (h32 : 32 ≤ o.height.toNat)
    (he : o.height.toNat % 2 = 0) : o.initializeTree .debug S w = .panic := by
  have hc : ¬ (2 ≥ o.height.toNat ∨ (o.height.toNat - 2) % 2 ≠ 0) := by omega
  have hsh : Rs.shl1 .debug o.height.toNat = .panic := by rw [Rs.shl1.eq_def, if_neg (by omega)]
  have hk := Rs.fipsShake256_short 96 o.seed (by omega)
  rw [hs] at hk
  rw [Rs.XMSSFast.initializeTree, if_neg hc, Rs.xmssParams, if_neg hc]
  dsimp only
  rw [Rs.xmssFastGenKeypair, if_neg (by rw [Nat.and_one_is_mod]; simp only; omega), hk, Rs.Res.ok_bind]
  dsimp only
  rw [Rs.treehashSetup]
  dsimp only
  rw [hsh]
  rfl

/-- C51. A seed of another length, an odd height or a height below 4 is an `Err`. -/
theorem C51_new_refuses (b : Rs.Build) (S : Sha256) (seed : Bytes) (height : UInt8) (hf : HashFn) (w : Nat)
    (h : seed.length ≠ 48 ∨ height.toNat < 4 ∨ height.toNat % 2 = 1) :
    Rs.XMSSFast.new b S seed height hf w = .err .invalidArgument ∧
      Rs.XMSSBasic.new b S seed height hf w = .err .invalidArgument := by
  have hu := height.toNat_lt
  by_cases hs : seed.length = 48
  swap
  · rw [Rs.XMSSFast.new, Rs.XMSSBasic.new, if_pos hs, if_pos hs]; exact ⟨rfl, rfl⟩
  have hc : 2 ≥ height.toNat ∨ (height.toNat - 2) % 2 ≠ 0 := by
    rcases h with h | h
    · exact absurd hs h
    · omega
  rw [Rs.XMSSFast.new, Rs.XMSSBasic.new, if_neg (not_not.mpr hs), if_neg (not_not.mpr hs), if_pos hc]
  refine ⟨?_, rfl⟩
  rw [Rs.XMSSBase.new, if_neg (not_not.mpr hs)]
  by_cases h254 : height.toNat > 254
  · rw [if_pos h254]; rfl
  · rw [if_neg h254, Rs.Res.ok_bind, Rs.XMSSFast.build, initTree_bad b S _ w hc]

/-- C51. An even height from 32 on passes all checks; a build with overflow checks panics on it. -/
theorem C51_tall_panics (S : Sha256) (seed : Bytes) (height : UInt8) (hf : HashFn) (w : Nat) (hs : seed.length = 48)
    (h32 : 32 ≤ height.toNat) (he : height.toNat % 2 = 0) :
    Rs.XMSSFast.new .debug S seed height hf w = .panic ∧ Rs.XMSSBasic.new .debug S seed height hf w = .panic := by
  have hu := height.toNat_lt
  have hc : ¬ (2 ≥ height.toNat ∨ (height.toNat - 2) % 2 ≠ 0) := by omega
  have hsh : Rs.shl1 .debug height.toNat = .panic := by rw [Rs.shl1.eq_def, if_neg (by omega)]
  have hk := Rs.fipsShake256_short 96 seed (by omega)
  rw [hs] at hk
  rw [Rs.XMSSFast.new, Rs.XMSSBasic.new, if_neg (not_not.mpr hs), if_neg (not_not.mpr hs), if_neg hc, Rs.xmssParams, if_neg hc]
  constructor
  · rw [Rs.XMSSBase.new, if_neg (not_not.mpr hs), if_neg (by omega), Rs.Res.ok_bind, Rs.XMSSFast.build,
      initTree_tall S _ w hs h32 he]
  · rw [Rs.Res.ok_bind, Rs.xmssGenKeypair, hk, Rs.Res.ok_bind]
    dsimp only
    rw [Rs.treehash]
    dsimp only
    rw [hsh]
    rfl

/-- C51. `from_extended_seed` is `new` on the seed, height and hash function of the extended seed. -/
theorem C51_from_extended_seed (b : Rs.Build) (S : Sha256) (d : Rs.Descriptor) (desc seed : Bytes)
    (hd : Rs.Descriptor.fromBytes desc = .ok d) (hs : seed.length = 48) :
    Rs.XMSSFast.fromExtendedSeed b S (desc ++ seed) = Rs.XMSSFast.new b S seed d.height d.hashFunction 16 := by
  obtain ⟨b0, b1, b2, rfl, h0, h1, h2⟩ := (C54_from_bytes desc d).mp hd
  have hh : ¬ d.height.toNat > 254 := by rw [h2, UInt8.toNat_ofNat']; omega
  have hlen : ([b0, b1, b2] ++ seed).length = 51 := by simp [hs]
  rw [Rs.XMSSFast.fromExtendedSeed, Rs.XMSSBase.fromExtendedSeed, if_neg (by rw [hlen]; omega),
    Rs.Descriptor.fromExtendedSeed, if_neg (by rw [hlen]; omega)]
  have ht : ([b0, b1, b2] ++ seed).take 3 = [b0, b1, b2] := rfl
  rw [ht, hd, Rs.XMSSFast.new, if_neg (not_not.mpr hs), Rs.XMSSBase.new, if_neg (not_not.mpr hs), if_neg hh]
  rfl

/-- C51. The extended seed of a new object gives the object back. -/
theorem C51_extended_seed_roundtrip (b : Rs.Build) (S : Sha256) (seed : Bytes) (height : UInt8) (hf : HashFn)
    (hs : seed.length = 48) (hh : GoodHeight height) (o : Rs.XMSSFast)
    (h : Rs.XMSSFast.new b S seed height hf 16 = .ok o) :
    Rs.XMSSFast.fromExtendedSeed b S o.getExtendedSeed = .ok o := by
  obtain ⟨o', c, h1, _, _, _, e1, e2, e3⟩ := C51_fast_same_key b S seed height hf hs hh
  obtain rfl : o = o' := by rw [h1] at h; exact (Rs.Res.ok.inj h).symm
  rw [Rs.XMSSBase.getExtendedSeed, Rs.XMSSBase.getDescriptorBytes,
    C51_from_extended_seed b S ⟨o.hashFunction, o.height⟩ _ _ (C54_roundtrip _ (by rw [e2]; exact hh.2.2)
      (by rw [e2]; exact Nat.lt_succ_of_le (Nat.le_succ_of_le hh.2.1))) (by rw [e3]; exact hs)]
  simp only
  rw [e1, e2, e3, h1]

example : ∃ o, Rs.XMSSFast.new .release toySha zeroSeed 4 .shake_128 16 = .ok o := by
  obtain ⟨o, c, h, _⟩ := C51_fast_same_key .release toySha zeroSeed 4 .shake_128 (by decide) goodHeight4
  exact ⟨o, h⟩

/-- A key that Rust accepts. -/
def rustKey : Bytes := [1, 2, 0] ++ List.replicate 64 7

example : ∃ a, Rs.getAddress toySha rustKey = .ok a ∧ getAddress toySha rustKey = .ok a ∧
    Rs.addressIsValid toySha a = .ok true := by
  obtain ⟨a, ha⟩ := (C51_address_defined toySha rustKey).mpr (by decide +kernel)
  have hc := (C51_address_same toySha rustKey).2 a ha
  refine ⟨a, ha, hc, ?_⟩
  obtain ⟨r, hr, hiff⟩ := C51_address_is_valid toySha a
  have hv := (C10_address_valid toySha rustKey a hc).2
  have h0 : (a.getD 0 0).toNat % 16 ≤ 2 := by
    have e := C10_address_value toySha rustKey ⟨1, 0, 4, 0⟩ (by decide +kernel) (by decide +kernel) rfl
    rw [hc] at e
    cases e
    decide +kernel
  rw [hr, hiff.mpr ⟨hv, h0⟩]

/-- A key of height 4 whose index was set past the end: C++ says 2^32 signatures less four remain, a checked build panics. -/
example : ∃ (o : Rs.XMSSBase) (c : XmssBase), SameKey o c ∧ c.getIndex = .ok 20 ∧
    c.getRemainingSignatures = .ok 4294967292 ∧ o.getRemainingSignatures .debug = .panic := by
  refine ⟨⟨.shake_128, 4, [0, 0, 0, 20] ++ List.replicate 128 0, zeroSeed⟩,
    { params := ⟨Rs.wotsParams 16, 4⟩, hashFunction := 1, addrFormat := 0, height := 4,
      sk := [0, 0, 0, 20] ++ List.replicate 128 0, seed := zeroSeed }, ⟨rfl, rfl, rfl, rfl, rfl⟩, ?_, ?_, ?_⟩ <;>
    decide +kernel

example : Rs.Descriptor.fromBytes [0x01, 0x05, 0] = .ok ⟨.shake_128, 10⟩ ∧
    Rs.Descriptor.fromBytes [0x03, 0x05, 0] = .err .failedConversion ∧
    Descriptor.fromBytes [0x03, 0x05, 0] = .ok ⟨3, 0, 10, 0⟩ := by decide +kernel

example : GoodHeight 4 ∧ (zeroSeed).length = 48 ∧ 32 ≤ (34 : UInt8).toNat ∧ (34 : UInt8).toNat % 2 = 0 :=
  ⟨goodHeight4, by decide, by decide, by decide⟩

end Qrl.Props
