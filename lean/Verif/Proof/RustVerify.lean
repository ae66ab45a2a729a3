import Verif.Proof.RustBasicApi
import Verif.Props.Verify
/-!
# The Rust descriptor, address functions and verifier
-/

namespace Qrl.Rs

open Res Qrl.Props

variable {S : Sha256}

theorem rs_fromBytes (b0 b1 b2 : UInt8) : Descriptor.fromBytes [b0, b1, b2] =
    match HashFn.ofNat? (b0.toNat % 16) with
    | none => err .failedConversion
    | some hf =>
      if b1.toNat / 16 = 0 then ok { hashFunction := hf, height := UInt8.ofNat (2 * (b1.toNat % 16)) }
      else err .failedConversion := by
  have hs : ¬ (b0 >>> 4) &&& 0xF0 ≠ 0 := by
    intro h; apply h; apply UInt8.toNat_inj.mp; rw [sig_nibble]; rfl
  have hh : ((b1 &&& 0xF0) >>> 4 ≠ 0) ↔ b1.toNat / 16 ≠ 0 := by
    rw [not_iff_not, ← UInt8.toNat_inj, high_nibble]; rfl
  simp only [Descriptor.fromBytes, low_nibble, height_nibble, if_neg hs]
  have hlt : b0.toNat % 16 < 16 := Nat.mod_lt _ (by omega)
  generalize b0.toNat % 16 = k at *
  have key : ∀ hf : HashFn, (if (b1 &&& 0xF0) >>> 4 ≠ 0 then (err Err.failedConversion : Res Descriptor)
      else ok { hashFunction := hf, height := UInt8.ofNat (2 * (b1.toNat % 16)) }) =
      if b1.toNat / 16 = 0 then ok { hashFunction := hf, height := UInt8.ofNat (2 * (b1.toNat % 16)) }
      else err .failedConversion := by
    intro hf
    by_cases h1 : b1.toNat / 16 = 0
    · rw [if_pos h1, if_neg (fun h => hh.mp h h1)]
    · rw [if_neg h1, if_pos (hh.mpr h1)]
  match k with
  | 0 => exact key _
  | 1 => exact key _
  | 2 => exact key _
  | k + 3 => rfl

theorem rs_fromExtendedPk (epk : Bytes) (h : epk.length = 67) : Descriptor.fromExtendedPk epk =
    match HashFn.ofNat? (keyHash epk) with
    | none => err .failedConversion
    | some hf =>
      if (epk.getD 1 0).toNat / 16 = 0 then ok { hashFunction := hf, height := UInt8.ofNat (keyHeight epk) }
      else err .failedConversion := by
  match epk, h with
  | a :: b :: c :: rest, h =>
    rw [Descriptor.fromExtendedPk, if_neg (by omega)]
    exact rs_fromBytes a b c

theorem verifySig_panic_rs (b : Build) (hf : HashFn) (p : WotsParams) (m sig pk : Bytes) (h : Nat) (hsig : 36 ≤ sig.length) (hpk : pk.length = 64)
    (hm : Spec.rustSigned hf (Spec.keyInSig sig (pk.take 32)) m = none) :
    xmssVerifySig b S hf p m sig pk h = panic := by
  rw [xmssVerifySig]
  rw [slice, if_pos (by omega), ok_bind, be32At_sim _ _ (be32At_eq (by omega)), ok_bind, slice, if_pos (by omega), ok_bind,
    slice, if_pos (by omega), ok_bind]
  simp only [toByte_rs, toByte_eq_be, List.drop_zero]
  rw [hMsg_rs hf m _ (by
    rw [List.length_append, List.length_append, length_be, List.length_take, List.length_take, List.length_drop]; omega)]
  rw [Spec.keyInSig] at hm
  rw [hm]; rfl

/-- What `verify` does. -/
def verifySpec (S : Sha256) (msg sig epk : Bytes) (w : Nat) : Option (Step Bytes Unit) :=
  if WellFormed w sig epk ∧ (epk.getD 1 0).toNat / 16 = 0 then
    (HashFn.ofNat? (keyHash epk)).map fun hf =>
      match Spec.rustSigned hf (Spec.keyInSig sig (keyRoot epk)) msg with
      | none => .panic
      | some msg' =>
        if Spec.rootFromSig (hf.prim S) w (keyHeight epk) (keyRoot epk) (keySeed epk) msg' sig = keyRoot epk then .ret () msg
        else .fail .invalidArgument msg
  else none

theorem verify_rs (b : Build) (msg sig epk : Bytes) (w : Nat) (hw : w = 2 ∨ w = 4 ∨ w = 16 ∨ w = 256) :
    match verifySpec S msg sig epk w with
    | some r => verify b S msg sig epk w = r
    | none => ∃ e, verify b S msg sig epk w = .fail e msg := by
  obtain ⟨k, q, hs, h1⟩ := specParams_rs hw
  have hk := keysize_eq hw
  have hlen := hs.len
  have h300 : (wotsParams w).len ≤ 300 := by rcases hw with rfl | rfl | rfl | rfl <;> decide +kernel
  have hb : signatureBaseSize w = 4 + 32 + 32 * (wotsParams w).len := by rw [signatureBaseSize, hk, hlen]
  rw [verify, verifySpec]
  by_cases hl : epk.length = 67
  swap
  · rw [if_neg (show ¬ (WellFormed w sig epk ∧ _) from fun h => hl h.1.1), if_pos hl]; exact ⟨_, rfl⟩
  rw [if_neg (not_not.mpr hl), hb]
  have hkh : keyHeight epk ≤ 30 := by rw [keyHeight]; omega
  have hke : keyHeight epk % 2 = 0 := by rw [keyHeight]; omega
  have hku : (UInt8.ofNat (keyHeight epk)).toNat = keyHeight epk := by
    simp only [UInt8.toNat_ofNat']; omega
  by_cases hbig : sig.length > 4 + 32 + 32 * (wotsParams w).len + 254 * 32
  · rw [if_pos hbig, if_neg (by simp only [WellFormed]; omega)]; exact ⟨_, rfl⟩
  rw [if_neg hbig, rs_fromExtendedPk epk hl]
  cases hof : HashFn.ofNat? (keyHash epk) with
  | none =>
    dsimp only
    split
    · next heq => split at heq <;> cases heq
    · exact ⟨_, rfl⟩
  | some hf =>
    dsimp only
    by_cases hfm : (epk.getD 1 0).toNat / 16 = 0
    swap
    · rw [if_neg hfm, if_neg (fun h => hfm h.2)]; exact ⟨_, rfl⟩
    rw [if_pos hfm]
    dsimp only
    rw [getHeightFromSigSize, hb]
    by_cases hbad : sig.length < 4 + 32 + 32 * (wotsParams w).len
    · rw [if_pos hbad, if_neg (by simp only [WellFormed]; omega)]; exact ⟨_, rfl⟩
    rw [if_neg hbad]
    by_cases hbad2 : (sig.length - 4) % 32 ≠ 0
    · rw [if_pos hbad2, if_neg (by simp only [WellFormed]; omega)]; exact ⟨_, rfl⟩
    rw [if_neg hbad2]
    dsimp only
    generalize hH : (sig.length - (4 + 32 + 32 * (wotsParams w).len)) / 32 = H
    have hHl : H ≤ 254 := by omega
    have hsl : sig.length = 4 + 32 + 32 * (wotsParams w).len + 32 * H := by omega
    have hHu : (UInt8.ofNat H).toNat = H := by simp only [UInt8.toNat_ofNat']; omega
    by_cases hz : UInt8.ofNat H = 0 ∨ UInt8.ofNat (keyHeight epk) ≠ UInt8.ofNat H
    · rw [if_pos hz, if_neg]
      · exact ⟨_, rfl⟩
      · simp only [WellFormed]
        intro hwf
        rcases hz with hz | hz
        · have := congrArg UInt8.toNat hz
          rw [hHu] at this
          have h0 : H = 0 := this
          omega
        · apply hz
          congr 1; omega
    rw [if_neg hz]
    have hHk : keyHeight epk = H := by
      have : UInt8.ofNat (keyHeight epk) = UInt8.ofNat H := Classical.byContradiction fun h => hz (Or.inr h)
      have := congrArg UInt8.toNat this
      rw [hHu, hku] at this; exact this
    rw [hHu]
    by_cases h2H : 2 ≥ H ∨ (H - 2) % 2 ≠ 0
    · rw [if_pos h2H, if_neg (by simp only [WellFormed]; omega)]; exact ⟨_, rfl⟩
    rw [if_neg h2H, if_pos (by simp only [WellFormed]; omega)]
    rw [xmssParams, if_neg h2H]
    simp only [Option.map_some]
    have hd : (epk.drop 3).drop 32 = keySeed epk := by simp [keySeed]
    have hpk64 : (epk.drop 3).length = 64 := by rw [List.length_drop, hl]
    cases hm : Spec.rustSigned hf (Spec.keyInSig sig (keyRoot epk)) msg with
    | none =>
      dsimp only
      rw [verifySig_panic_rs b hf _ msg sig (epk.drop 3) H (by omega) hpk64 hm]
    | some msg' =>
      dsimp only
      obtain ⟨hml, hsn⟩ := rustSigned_seen hm
      have hc := xmssVerifysig_eq S hf hs (by omega) msg' sig (epk.drop 3) H (by omega) (by omega) (by omega) hpk64 h1
      have hv := verifySig_sim S hf b (wotsParams w) hs.good.one_le msg msg' sig (epk.drop 3) H (by rw [hk, hlen]; omega) (by omega) (by omega) hml (by
        intro idx hidx
        rw [be32At_eq (by omega)] at hidx
        cases hidx
        rw [verifyKey, toByte_eq_be]
        exact hsn) _ _ hc
      rw [hv, hd, hHk, keyRoot]
      dsimp only
      by_cases hr : Spec.rootFromSig (hf.prim S) w H ((epk.drop 3).take 32) (keySeed epk) msg' sig = (epk.drop 3).take 32
      · rw [if_pos hr, if_pos hr]; rfl
      · rw [if_neg hr, if_neg hr]; rfl

end Qrl.Rs
