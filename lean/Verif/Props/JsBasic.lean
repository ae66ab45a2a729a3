import Verif.Props.Js
import Verif.Props.LossyW
/-!
# C40: the `XmssBasic` class of the JavaScript wrapper, for every usable Winternitz parameter
-/

namespace Qrl.Props

open Outcome Spec

/-- C40. The complete behaviour of the JS `XmssBasic.verify` for every `w` in 2..7, 16..31 and 256..511: `true` exactly
when the signature leads to the root of the key with that `w`. -/
theorem C40_basic_verify_spec (S : Sha256) (msg sig epk : Bytes) (w : Nat) (hw : Spec.UsableW w) :
    Js.basicVerify S msg sig epk w =
      if WellFormed w sig epk then
        match HashFn.ofNat? (keyHash epk) with
        | some hf => ok (decide (Spec.rootFromSigAny (hf.prim S) w (keyHeight epk) (keyRoot epk) (keySeed epk) msg sig =
            keyRoot epk))
        | none => .ub
      else ok false :=
  C67_verify_spec S msg sig epk w hw

/-- C40. A signature of a JS `XmssBasic` object made with any usable `w` verifies with the JS `XmssBasic.verify` for that
`w`, against the key whose hex text is `getPK()`. -/
theorem C40_basic_sign_verify (S : Sha256) (seed : Bytes) (height : UInt8) (hf : HashFn) (af w : Nat)
    (hw : Spec.UsableW w) (hs : seed.length = 48) (hh : GoodHeight height) (h24 : height.toNat ≤ 24) :
    ∃ o t pk, Js.basicFromParameters S seed height hf.toNat af w = ok o ∧ Js.getPK o = ok t ∧ hstr2bin t = ok pk ∧
      ∀ i, i < 2 ^ height.toNat → ∀ msg, ∃ o1 sig o2, o.setIndex i = ok (i, o1) ∧
        XmssBasic.sign S o1 msg = ok (sig, o2) ∧ Js.basicVerify S msg sig pk w = ok true ∧ Js.getPK o2 = ok t := by
  obtain ⟨o, pk, hn, hp, h⟩ := C67_sign_verifies S seed height hf af w hw hs hh h24
  refine ⟨o, bin2hstr pk 0, pk, hn, by rw [Js.getPK, hp]; rfl, C01_hex_roundtrip pk, ?_⟩
  intro i hi msg
  obtain ⟨o1, sig, o2, h1, h2, _, h3, _, h5⟩ := h i hi msg
  exact ⟨o1, sig, o2, h1, h2, h3, by rw [Js.getPK, h5]; rfl⟩

/-- C40. What `Xmss.fromHexSeed` makes of the hex seed of a JS `XmssBasic` object: the `w = 16` signer with address
format 0 of the same seed, height and hash function, whatever `w` and format the object was made with. -/
theorem C40_basic_hexseed (S : Sha256) (seed : Bytes) (height : UInt8) (hf : HashFn) (af w : Nat) (hw : Spec.UsableW w)
    (hs : seed.length = 48) (hh : GoodHeight height) :
    ∃ o, Js.basicFromParameters S seed height hf.toNat af w = ok o ∧
      Js.xmssFromHexSeed S (Js.getHexSeed o) = XmssFast.new S seed height hf.toNat 0 := by
  obtain ⟨p, k, q, hp, hnew⟩ := basicNew_any S seed height hf af w hw hs hh
  refine ⟨_, hnew, ?_⟩
  rw [Js.getHexSeed, C01_hex_encoding, XmssBase.getExtendedSeed, XmssBase.getDescriptorBytes, getBytes_eq]
  simp only [descriptorBytes, XmssBase.getDescriptor, List.cons_append, List.nil_append]
  rw [C40_hexseed S _ _ _ seed hs]
  have h1 : hf.toNat < 3 := by cases hf <;> decide
  have h2 := hh.2
  have e1 : (UInt8.ofNat (16 * sigTypeXMSS + hf.toNat % 16)).toNat % 16 = hf.toNat := by
    rw [UInt8.toNat_ofNat']; omega
  have e2 : (UInt8.ofNat (16 * af + height.toNat / 2 % 16)).toNat % 16 = height.toNat / 2 := by
    rw [UInt8.toNat_ofNat']; omega
  rw [e1, e2]
  congr 1
  apply UInt8.toNat.inj
  rw [UInt8.toNat_ofNat']
  omega

/-- A case of the hypotheses: `w = 2`, height 4, SHA2-256, address format 7. -/
example : ∃ o, Js.basicFromParameters toySha zeroSeed 4 0 7 2 = ok o ∧
    ∃ o', Js.xmssFromHexSeed toySha (Js.getHexSeed o) = ok o' := by
  obtain ⟨o, h, h'⟩ := C40_basic_hexseed toySha zeroSeed 4 .sha2_256 7 2 (by decide) rfl goodHeight4
  obtain ⟨o', h2⟩ := (C39_fast_succeeds toySha zeroSeed 4 0 0).mpr ⟨rfl, goodHeight4, by omega⟩
  exact ⟨o, h, o', h'.trans h2⟩

/-- Another: a signature at index 3 with `w = 4`. -/
example : ∃ o1 sig o2 pk, XmssBasic.sign toySha o1 [1, 2] = ok (sig, o2) ∧ Js.basicVerify toySha [1, 2] sig pk 4 = ok true := by
  obtain ⟨o, t, pk, _, _, _, h⟩ := C40_basic_sign_verify toySha zeroSeed 4 .shake_128 0 4 (by decide) rfl goodHeight4 (by decide)
  obtain ⟨o1, sig, o2, _, hs, hv, _⟩ := h 3 (by decide) [1, 2]
  exact ⟨o1, sig, o2, pk, hs, hv⟩

end Qrl.Props
