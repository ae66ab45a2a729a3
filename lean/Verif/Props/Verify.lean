import Verif.Proof.Verify
import Verif.Model.XmssApi
import Verif.Props.Descriptor
/-!
# C20, C21, C22, C08, C36: signature sizes and verification
-/

namespace Qrl.Props

open Outcome

/-- The hash function named by an extended public key: the low four bits of its first byte. -/
def keyHash (epk : Bytes) : Nat := (epk.getD 0 0).toNat % 16
/-- The tree height named by an extended public key: twice the low four bits of its second byte. -/
def keyHeight (epk : Bytes) : Nat := 2 * ((epk.getD 1 0).toNat % 16)
/-- The root in an extended public key. -/
def keyRoot (epk : Bytes) : Bytes := (epk.drop 3).take 32
/-- The public seed in an extended public key. -/
def keySeed (epk : Bytes) : Bytes := epk.drop 35

/-- Key and signature have fitting sizes and the key names a height of at least 4 (it is then an even number
in 4..30). -/
def WellFormed (w : Nat) (sig epk : Bytes) : Prop :=
  epk.length = 67 ∧ 4 ≤ keyHeight epk ∧ sig.length = 4 + 32 + 32 * Spec.lenW w + 32 * keyHeight epk

instance (w : Nat) (sig epk : Bytes) : Decidable (WellFormed w sig epk) := inferInstanceAs (Decidable (_ ∧ _ ∧ _))

/-- The number of chains for the four values of `w`. -/
theorem lenW_values : Spec.lenW 2 = 265 ∧ Spec.lenW 4 = 133 ∧ Spec.lenW 16 = 67 ∧ Spec.lenW 256 = 34 := by
  decide +kernel

theorem base_ok {w : Nat} (hw : w = 2 ∨ w = 4 ∨ w = 16 ∨ w = 256) :
    ∃ p k q, wotsSetParams w = ok p ∧ SpecParams w p k q ∧ 1 ≤ p.len ∧ p.len ≤ 300 ∧ p.keysize = 32 * p.len ∧
      calculateSignatureBaseSize w = ok (4 + 32 + 32 * p.len) := by
  have : ∃ p, wotsSetParams w = ok p ∧ 1 ≤ p.len ∧ p.len ≤ 300 := by
    rcases hw with rfl | rfl | rfl | rfl
    · exact ⟨_, params2, by decide⟩
    · exact ⟨_, params4, by decide⟩
    · exact ⟨_, params16, by decide⟩
    · exact ⟨_, params256, by decide⟩
  obtain ⟨p, hp, h1, h2⟩ := this
  obtain ⟨k, q, hs⟩ := specParams_of hw hp
  have hk : p.keysize = 32 * p.len := by rw [hs.good.keysize, Nat.mul_comm]
  exact ⟨p, k, q, hp, hs, h1, h2, hk, by simp [calculateSignatureBaseSize, hp, hk]⟩

/-- C22. `getSignatureSize` is 4 + 32 + 32·len + 32·height. -/
theorem C22_signature_size (o : XmssBase) (w : Nat) (hw : w = 2 ∨ w = 4 ∨ w = 16 ∨ w = 256) :
    o.getSignatureSize w = ok (4 + 32 + 32 * Spec.lenW w + 32 * o.height.toNat) := by
  obtain ⟨p, k, q, hp, hs, h1, h2, hk, hb⟩ := base_ok hw
  have hh := o.height.toNat_lt
  rw [XmssBase.getSignatureSize, hb, ok_bind, hs.len, Nat.mod_eq_of_lt (by omega)]
  congr 1; omega

/-- C22. `getHeightFromSigSize` throws exactly when the size is below the base size or not 4 modulo 32;
otherwise it returns the number of 32-byte nodes after the base, reduced modulo 256. -/
theorem C22_height_from_size (w : Nat) (hw : w = 2 ∨ w = 4 ∨ w = 16 ∨ w = 256) (size : Nat) :
    getHeightFromSigSize size w =
      if size < 4 + 32 + 32 * Spec.lenW w ∨ size % 32 ≠ 4 then .throw .invalidArgument
      else ok (UInt8.ofNat ((size - (4 + 32 + 32 * Spec.lenW w)) / 32)) := by
  obtain ⟨p, k, q, hp, hs, h1, h2, hk, hb⟩ := base_ok hw
  rw [getHeightFromSigSize, hb, ok_bind, hs.len]
  by_cases hlt : size < 4 + 32 + 32 * p.len
  · simp [hlt]
  · by_cases hm : size % 32 ≠ 4
    · have : (size - 4) % 32 ≠ 0 := by omega
      simp [hlt, hm, this]
    · have : (size - 4) % 32 = 0 := by omega
      simp [hlt, hm, this]

/-- C22. The height is recovered from the signature size, for every height 0..255. -/
theorem C22_size_roundtrip (o : XmssBase) (w : Nat) (hw : w = 2 ∨ w = 4 ∨ w = 16 ∨ w = 256) :
    (do let n ← o.getSignatureSize w; getHeightFromSigSize n w) = ok o.height := by
  rw [C22_signature_size o w hw, ok_bind, C22_height_from_size w hw, if_neg (by omega)]
  congr 1
  apply UInt8.toNat_inj.mp
  have := o.height.toNat_lt
  simp only [UInt8.toNat_ofNat']
  omega

theorem fromExtendedPK_eq (epk : Bytes) (h : epk.length = 67) : Descriptor.fromExtendedPK epk =
    ok { hashFunction := keyHash epk, signatureType := 0, height := UInt8.ofNat (keyHeight epk),
         addrFormat := (epk.getD 1 0).toNat / 16 } := by
  match epk, h with
  | a :: b :: c :: rest, h =>
    simp only [Descriptor.fromExtendedPK, h, ne_eq, not_true, if_false, descriptorSize]
    exact fromBytes_three a b c

/-- The complete behaviour of `XmssBase::verify`: on well-formed input it compares the root recomputed from
the signature with the root of the key (or, for a key naming an unsupported hash function, runs into undefined
behaviour); on all other input it returns false. -/
theorem verifyFull_eq (S : Sha256) (msg sig epk : Bytes) (w : Nat) (hw : w = 2 ∨ w = 4 ∨ w = 16 ∨ w = 256) :
    verifyFull S msg sig epk w =
      if WellFormed w sig epk then
        match HashFn.ofNat? (keyHash epk) with
        | some hf => ok (decide (Spec.rootFromSig (hf.prim S) w (keyHeight epk) (keyRoot epk) (keySeed epk) msg sig =
            keyRoot epk), msg)
        | none => .ub
      else ok (false, msg) := by
  obtain ⟨p, k, q, hp, hs, h1, h2, hk, hb⟩ := base_ok hw
  rw [verifyFull]
  by_cases hl : epk.length = 67
  swap
  · rw [if_neg (show ¬ WellFormed w sig epk from fun h => hl h.1), if_pos hl]; rfl
  simp only [hl, ne_eq, not_true, if_false, hb, ok_bind]
  have hkh : keyHeight epk ≤ 30 := by rw [keyHeight]; omega
  have hke : keyHeight epk % 2 = 0 := by rw [keyHeight]; omega
  have hku : (UInt8.ofNat (keyHeight epk)).toNat = keyHeight epk := by
    simp only [UInt8.toNat_ofNat']; omega
  by_cases hbig : sig.length > 4 + 32 + 32 * p.len + 254 * 32
  · rw [if_pos hbig, if_neg (by simp only [WellFormed, hs.len]; omega)]; rfl
  rw [if_neg hbig, fromExtendedPK_eq epk hl, ok_bind]
  simp only [sigTypeXMSS, not_true, if_false]
  rw [C22_height_from_size w hw, hs.len]
  by_cases hbad : sig.length < 4 + 32 + 32 * p.len ∨ sig.length % 32 ≠ 4
  · rw [if_pos hbad, if_neg (by simp only [WellFormed, hs.len]; omega)]; rfl
  rw [if_neg hbad, ok_bind]
  generalize hH : (sig.length - (4 + 32 + 32 * p.len)) / 32 = H
  have hHl : H ≤ 254 := by omega
  have hsl : sig.length = 4 + 32 + 32 * p.len + 32 * H := by omega
  have hHu : (UInt8.ofNat H).toNat = H := by simp only [UInt8.toNat_ofNat']; omega
  by_cases hz : UInt8.ofNat H = 0 ∨ UInt8.ofNat (keyHeight epk) ≠ UInt8.ofNat H
  · rw [if_pos hz, if_neg]
    · rfl
    · simp only [WellFormed, hs.len]
      intro hwf
      rcases hz with hz | hz
      · have := congrArg UInt8.toNat hz
        rw [hHu] at this
        have h0 : H = 0 := this
        omega
      · apply hz
        congr 1; omega
  · rw [if_neg hz]
    have hHk : keyHeight epk = H := by
      have : UInt8.ofNat (keyHeight epk) = UInt8.ofNat H := Classical.byContradiction fun h => hz (Or.inr h)
      have := congrArg UInt8.toNat this
      rw [hHu, hku] at this; exact this
    rw [hHu]
    by_cases h2H : 2 ≥ H ∨ (H - 2) % 2 ≠ 0
    · rw [if_pos h2H, if_neg (by simp only [WellFormed, hs.len]; omega)]; rfl
    · rw [if_neg h2H, if_pos (by simp only [WellFormed, hs.len]; omega)]
      rw [xmssSetParams, if_neg h2H, hp, ok_bind, ok_bind]
      simp only [withHash]
      cases hof : HashFn.ofNat? (keyHash epk) with
      | none => rfl
      | some hf =>
        dsimp only
        have hd : (epk.drop 3).drop 32 = keySeed epk := by simp [keySeed]
        rw [xmssVerifysig_eq S hf hs (by omega) msg sig (epk.drop 3) H (by omega) (by omega)
          (by omega) (by simp [hl]) h1, hHk, hd]
        simp only [ok_bind, keyRoot]
        split <;> simp_all [catchInvalid]

/-- C20. The complete behaviour of `verify` for every message, signature, key and `w` of the interface. -/
theorem C20_verify_spec (S : Sha256) (msg sig epk : Bytes) (w : Nat) (hw : w = 2 ∨ w = 4 ∨ w = 16 ∨ w = 256) :
    verify S msg sig epk w =
      if WellFormed w sig epk then
        match HashFn.ofNat? (keyHash epk) with
        | some hf => ok (decide (Spec.rootFromSig (hf.prim S) w (keyHeight epk) (keyRoot epk) (keySeed epk) msg sig =
            keyRoot epk))
        | none => .ub
      else ok false := by
  rw [verify, verifyFull_eq S msg sig epk w hw]
  split
  · split <;> rfl
  · rfl

/-- C20. `verify` never throws. -/
theorem C20_verify_no_throw (S : Sha256) (msg sig epk : Bytes) (w : Nat) (hw : w = 2 ∨ w = 4 ∨ w = 16 ∨ w = 256)
    (e : Exc) : verify S msg sig epk w ≠ .throw e := by
  rw [C20_verify_spec S msg sig epk w hw]
  split
  · split <;> simp
  · simp

/-- C20. `verify` returns true only for a 67-byte key naming a supported hash function and an even height
4..30, and a signature of exactly the size for that height. -/
theorem C20_verify_true (S : Sha256) (msg sig epk : Bytes) (w : Nat) (hw : w = 2 ∨ w = 4 ∨ w = 16 ∨ w = 256)
    (h : verify S msg sig epk w = ok true) :
    epk.length = 67 ∧ keyHash epk ≤ 2 ∧ 4 ≤ keyHeight epk ∧ keyHeight epk ≤ 30 ∧ keyHeight epk % 2 = 0 ∧
      sig.length = 4 + 32 + 32 * Spec.lenW w + 32 * keyHeight epk := by
  rw [C20_verify_spec S msg sig epk w hw] at h
  have hkh : keyHeight epk ≤ 30 := by rw [keyHeight]; omega
  have hke : keyHeight epk % 2 = 0 := by rw [keyHeight]; omega
  split at h
  · rename_i hwf
    split at h
    · rename_i hf hh
      refine ⟨hwf.1, ?_, hwf.2.1, hkh, hke, hwf.2.2⟩
      match hn : keyHash epk with
      | 0 => omega
      | 1 => omega
      | 2 => omega
      | n + 3 => rw [hn] at hh; simp [HashFn.ofNat?] at hh
    · cases h
  · cases h

/-- C20. Everything that is not well-formed is answered with false, for every key whatsoever. -/
theorem C20_verify_malformed (S : Sha256) (msg sig epk : Bytes) (w : Nat) (hw : w = 2 ∨ w = 4 ∨ w = 16 ∨ w = 256)
    (h : ¬ WellFormed w sig epk) : verify S msg sig epk w = ok false := by
  rw [C20_verify_spec S msg sig epk w hw, if_neg h]

/-- C21. For a key that names a supported hash function, verification of any input never reads outside the
signature or the key (the result is not undefined), and the message buffer is left as it was. -/
theorem C21_verify_safe (S : Sha256) (msg sig epk : Bytes) (w : Nat) (hw : w = 2 ∨ w = 4 ∨ w = 16 ∨ w = 256)
    (hk : keyHash epk ≤ 2) : ∃ b, verifyFull S msg sig epk w = ok (b, msg) := by
  rw [verifyFull_eq S msg sig epk w hw]
  split
  · match hn : keyHash epk, hk with
    | 0, _ => exact ⟨_, rfl⟩
    | 1, _ => exact ⟨_, rfl⟩
    | 2, _ => exact ⟨_, rfl⟩
  · exact ⟨_, rfl⟩

/-- C21. Whatever the key, the message buffer is never changed by a call that returns. -/
theorem C21_message_unchanged (S : Sha256) (msg sig epk : Bytes) (w : Nat)
    (hw : w = 2 ∨ w = 4 ∨ w = 16 ∨ w = 256) (b : Bool) (m : Bytes)
    (h : verifyFull S msg sig epk w = ok (b, m)) : m = msg := by
  rw [verifyFull_eq S msg sig epk w hw] at h
  split at h
  · split at h
    · cases h; rfl
    · cases h
  · cases h; rfl

/-- C08. `verify` gives the same answer for two keys that differ only in the signature-type nibble and in the
third byte: a key naming another signature type is treated as an XMSS key. -/
theorem C08_verify_ignores_sigtype (S : Sha256) (msg sig : Bytes) (w : Nat)
    (hw : w = 2 ∨ w = 4 ∨ w = 16 ∨ w = 256) (b0 b0' b1 b2 b2' : UInt8) (rest : Bytes)
    (h : b0.toNat % 16 = b0'.toNat % 16) :
    verify S msg sig (b0 :: b1 :: b2 :: rest) w = verify S msg sig (b0' :: b1 :: b2' :: rest) w := by
  rw [C20_verify_spec S msg sig _ w hw, C20_verify_spec S msg sig _ w hw]
  have e1 : keyHash (b0 :: b1 :: b2 :: rest) = keyHash (b0' :: b1 :: b2' :: rest) := h
  have e2 : keyHeight (b0 :: b1 :: b2 :: rest) = keyHeight (b0' :: b1 :: b2' :: rest) := rfl
  have e3 : keyRoot (b0 :: b1 :: b2 :: rest) = keyRoot (b0' :: b1 :: b2' :: rest) := rfl
  have e4 : keySeed (b0 :: b1 :: b2 :: rest) = keySeed (b0' :: b1 :: b2' :: rest) := rfl
  have e5 : WellFormed w sig (b0 :: b1 :: b2 :: rest) ↔ WellFormed w sig (b0' :: b1 :: b2' :: rest) := Iff.rfl
  by_cases hwf : WellFormed w sig (b0' :: b1 :: b2' :: rest)
  · rw [if_pos hwf, if_pos (e5.mpr hwf), e1, e2, e3, e4]
  · rw [if_neg hwf, if_neg (fun h => hwf (e5.mp h))]

/-- C08. Neither does `verify` look at the address-format nibble: of the three descriptor bytes of the key only
the low nibbles of the first two matter. -/
theorem C08_verify_descriptor_nibbles (S : Sha256) (msg sig : Bytes) (w : Nat)
    (hw : w = 2 ∨ w = 4 ∨ w = 16 ∨ w = 256) (b0 b0' b1 b1' b2 b2' : UInt8) (rest : Bytes)
    (h : b0.toNat % 16 = b0'.toNat % 16) (h' : b1.toNat % 16 = b1'.toNat % 16) :
    verify S msg sig (b0 :: b1 :: b2 :: rest) w = verify S msg sig (b0' :: b1' :: b2' :: rest) w := by
  rw [C20_verify_spec S msg sig _ w hw, C20_verify_spec S msg sig _ w hw]
  have e1 : keyHash (b0 :: b1 :: b2 :: rest) = keyHash (b0' :: b1' :: b2' :: rest) := h
  have e2 : keyHeight (b0 :: b1 :: b2 :: rest) = keyHeight (b0' :: b1' :: b2' :: rest) := by
    simp only [keyHeight, List.getD_cons_succ, List.getD_cons_zero, h']
  have e3 : keyRoot (b0 :: b1 :: b2 :: rest) = keyRoot (b0' :: b1' :: b2' :: rest) := rfl
  have e4 : keySeed (b0 :: b1 :: b2 :: rest) = keySeed (b0' :: b1' :: b2' :: rest) := rfl
  have e5 : WellFormed w sig (b0 :: b1 :: b2 :: rest) ↔ WellFormed w sig (b0' :: b1' :: b2' :: rest) := by
    unfold WellFormed
    rw [e2]; exact Iff.rfl
  by_cases hwf : WellFormed w sig (b0' :: b1' :: b2' :: rest)
  · rw [if_pos hwf, if_pos (e5.mpr hwf), e1, e2, e3, e4]
  · rw [if_neg hwf, if_neg (fun h => hwf (e5.mp h))]

/-- C36. A key naming an unsupported hash function (3..15) is not refused by `verify`: on well-formed input
the call goes on and computes with buffers that nothing has written (undefined behaviour). -/
theorem C36_verify_unsupported (S : Sha256) (msg sig epk : Bytes) (w : Nat)
    (hw : w = 2 ∨ w = 4 ∨ w = 16 ∨ w = 256) (hk : 3 ≤ keyHash epk) (hwf : WellFormed w sig epk) :
    verify S msg sig epk w = .ub := by
  rw [C20_verify_spec S msg sig epk w hw, if_pos hwf]
  match hn : keyHash epk, hk with
  | n + 3, _ => rfl

/-- A well-formed key and signature exist: height 4, `w = 16`. -/
def sampleKey : Bytes := 3 :: 2 :: List.replicate 65 0

example : WellFormed 16 (List.replicate (4 + 32 + 32 * 67 + 32 * 4) 0) sampleKey ∧ 3 ≤ keyHash sampleKey ∧
    keyHeight sampleKey = 4 := by
  refine ⟨⟨by decide, by decide, ?_⟩, by decide, by decide⟩
  rw [List.length_replicate, lenW_values.2.2.1]; decide

example : ¬ WellFormed 16 [] sampleKey := by
  intro h
  have := h.2.2
  rw [lenW_values.2.2.1] at this
  simp only [List.length_nil] at this; omega

end Qrl.Props
