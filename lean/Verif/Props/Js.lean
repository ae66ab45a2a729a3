import Verif.Model.Js
import Verif.Props.Hex
import Verif.Props.Mnemonic
import Verif.Props.Fast
/-!
# C40: the JavaScript wrapper (src/jswrapper/jsqrlwrapper.cpp)

`hexOf` (Verif.Spec.Text) is the lower-case hex text of a byte string. `Q` is the character 0x51.
-/

namespace Qrl.Props

open Outcome Spec

theorem getBinAddress_hex (c : UInt8) (a : Bytes) (h : 3 ≤ a.length) :
    Js.getBinAddress (c :: hexOf a) = ok a := by
  rw [Js.getBinAddress, if_neg (by simp [length_hexOf, descriptorSize]; omega), List.drop_one, List.tail_cons,
    ← C01_hex_encoding, C01_hex_roundtrip]

/-- C40. `validateAddress` of any character followed by the hex text of `a` is `addressIsValid(a)`, for every `a` of
at least three bytes. The leading character is not looked at. -/
theorem C40_validate (S : Sha256) (c : UInt8) (a : Bytes) (h : 3 ≤ a.length) :
    Js.validateAddress S (c :: hexOf a) = addressIsValid S a := by
  rw [Js.validateAddress, getBinAddress_hex c a h, ok_bind]

/-- C40. The text functions on arbitrary 7-bit text: with fewer than 7 characters, an even number of characters or a
non-hex character after the first one they all throw `invalid_argument`; otherwise the rest of the text is the hex
spelling (in either case) of some `a` of at least three bytes and the answers are those about `a`. -/
theorem C40_text (S : Sha256) (s : Bytes) (h7 : ∀ c ∈ s.drop 1, c < 128) :
    ((s.length < 7 ∨ s.length % 2 = 0 ∨ ∃ c ∈ s.drop 1, c ∉ hexAlphabet) ∧
      Js.validateAddress S s = .throw .invalidArgument ∧ Js.getHashFunction s = .throw .invalidArgument ∧
      Js.getSignatureType s = .throw .invalidArgument ∧ Js.getHeight s = .throw .invalidArgument) ∨
    (7 ≤ s.length ∧ s.length % 2 = 1 ∧ (∀ c ∈ s.drop 1, c ∈ hexAlphabet) ∧
      ∃ a b0 b1 b2 rest, a = b0 :: b1 :: b2 :: rest ∧ hexOf a = (s.drop 1).map lower ∧
        Js.validateAddress S s = addressIsValid S a ∧ Js.getHashFunction s = ok (b0.toNat % 16) ∧
        Js.getSignatureType s = ok 0 ∧ Js.getHeight s = ok (UInt8.ofNat (2 * (b1.toNat % 16)))) := by
  by_cases hl : s.length < 7
  · left
    refine ⟨Or.inl hl, ?_⟩
    have : Js.getBinAddress s = .throw .invalidArgument := by
      rw [Js.getBinAddress, if_pos (by simp [descriptorSize]; omega)]
    simp [Js.validateAddress, Js.getHashFunction, Js.getSignatureType, Js.getHeight, this]
  · have hb : Js.getBinAddress s = hstr2bin (s.drop 1) := by
      rw [Js.getBinAddress, if_neg (by simp [descriptorSize]; omega)]
    have hacc := C02_hex_accepts (s.drop 1) h7
    have hdl : (s.drop 1).length = s.length - 1 := by simp
    rcases hacc.2 with ⟨a, ha⟩ | ht
    · right
      obtain ⟨he, hx⟩ := hacc.1.mp ⟨a, ha⟩
      have hc := C02_hex_canonical _ _ ha
      rw [C01_hex_encoding] at hc
      have hal : 2 * a.length = s.length - 1 := by
        have := congrArg List.length hc
        rw [length_hexOf, List.length_map, hdl] at this
        exact this
      match a, hal, ha, hc with
      | b0 :: b1 :: b2 :: rest, hal, ha, hc =>
        refine ⟨by omega, by omega, hx, _, b0, b1, b2, rest, rfl, hc, ?_⟩
        have hd : Js.descrBytes (b0 :: b1 :: b2 :: rest) = ok [b0, b1, b2] := by
          simp [Js.descrBytes, slice, descriptorSize]
        rw [ha] at hb
        simp [Js.validateAddress, Js.getHashFunction, Js.getSignatureType, Js.getHeight, hb, hd,
          fromBytes_three, descriptorSize]
      | [], hal, _, _ => simp only [List.length_nil] at hal; omega
      | [_], hal, _, _ => simp only [List.length_cons, List.length_nil] at hal; omega
      | [_, _], hal, _, _ => simp only [List.length_cons, List.length_nil] at hal; omega
    · left
      refine ⟨?_, ?_⟩
      · by_cases h2 : s.length % 2 = 0
        · exact Or.inr (Or.inl h2)
        · right; right
          apply Classical.byContradiction
          intro hne
          obtain ⟨v, hv⟩ := hacc.1.mpr ⟨by omega, fun c hc => Classical.byContradiction fun hn => hne ⟨c, hc, hn⟩⟩
          rw [hv] at ht; cases ht
      · rw [ht] at hb
        simp [Js.validateAddress, Js.getHashFunction, Js.getSignatureType, Js.getHeight, hb]

/-- C40. The three getters on any character followed by the hex text of `a`: the nibbles of `a`'s descriptor. The
signature type reported is 0 (XMSS) whatever the text says. -/
theorem C40_getters (c b0 b1 b2 : UInt8) (rest : Bytes) :
    Js.getHashFunction (c :: hexOf (b0 :: b1 :: b2 :: rest)) = ok (b0.toNat % 16) ∧
    Js.getSignatureType (c :: hexOf (b0 :: b1 :: b2 :: rest)) = ok 0 ∧
    Js.getHeight (c :: hexOf (b0 :: b1 :: b2 :: rest)) = ok (UInt8.ofNat (2 * (b1.toNat % 16))) := by
  have hb := getBinAddress_hex c (b0 :: b1 :: b2 :: rest) (by simp)
  have hd : Js.descrBytes (b0 :: b1 :: b2 :: rest) = ok [b0, b1, b2] := by
    simp [Js.descrBytes, slice, descriptorSize]
  simp [Js.getHashFunction, Js.getSignatureType, Js.getHeight, hb, hd, fromBytes_three, descriptorSize]

/-- A seed text of 51 bytes builds the signer of its last 48 bytes with the height and hash function in its first two
bytes and address format 0. -/
theorem fromSeedBytes_eq (S : Sha256) (b0 b1 b2 : UInt8) (seed : Bytes) (hs : seed.length = 48) :
    Js.fromSeedBytes S (b0 :: b1 :: b2 :: seed) =
      XmssFast.new S seed (UInt8.ofNat (2 * (b1.toNat % 16))) (b0.toNat % 16) 0 := by
  have hlen : (b0 :: b1 :: b2 :: seed).length = 51 := by simp [hs]
  rw [Js.fromSeedBytes, Descriptor.fromExtendedSeed, if_neg (by rw [hlen]; omega)]
  rw [show (b0 :: b1 :: b2 :: seed).take descriptorSize = [b0, b1, b2] from rfl, fromBytes_three]
  rfl

theorem fromSeedBytes_short (S : Sha256) (e : Bytes) (h : e.length ≠ 51) :
    Js.fromSeedBytes S e = .throw .invalidArgument := by
  rw [Js.fromSeedBytes, Descriptor.fromExtendedSeed, if_pos h]
  rfl

/-- C40. What `fromHexSeed` builds from the hex text of an extended seed: the signer of the C++ constructor with the
address format forced to 0. -/
theorem C40_hexseed (S : Sha256) (b0 b1 b2 : UInt8) (seed : Bytes) (hs : seed.length = 48) :
    Js.xmssFromHexSeed S (hexOf (b0 :: b1 :: b2 :: seed)) =
      XmssFast.new S seed (UInt8.ofNat (2 * (b1.toNat % 16))) (b0.toNat % 16) 0 := by
  rw [Js.xmssFromHexSeed, ← C01_hex_encoding, C01_hex_roundtrip, ok_bind, fromSeedBytes_eq S b0 b1 b2 seed hs]

/-- C40. For address format 0 this is exactly what the C++ constructor from an extended seed builds; for every other
format it is not, since the C++ object keeps the format: the two give different public keys for one seed text. -/
theorem C40_hexseed_vs_native (S : Sha256) (b0 b1 b2 : UInt8) (seed : Bytes) (hs : seed.length = 48) :
    (b1.toNat / 16 = 0 → Js.xmssFromHexSeed S (hexOf (b0 :: b1 :: b2 :: seed)) =
      XmssFast.fromExtendedSeed S (b0 :: b1 :: b2 :: seed)) ∧
    (b1.toNat / 16 ≠ 0 → ∀ o o' pk pk', Js.xmssFromHexSeed S (hexOf (b0 :: b1 :: b2 :: seed)) = ok o →
      XmssFast.fromExtendedSeed S (b0 :: b1 :: b2 :: seed) = ok o' → o.getPK = ok pk → o'.getPK = ok pk' → pk ≠ pk') := by
  rw [C40_hexseed S b0 b1 b2 seed hs, C09_extended_seed_constructor S b0 b1 b2 seed hs]
  constructor
  · intro h; rw [h]
  · intro hne o o' pk pk' ho ho' hp hp' heq
    obtain ⟨_, _, _, _, _, e1, e2, e3, e4, _⟩ := fast_fresh ho
    obtain ⟨_, _, _, _, _, f1, f2, f3, f4, _⟩ := fast_fresh ho'
    obtain ⟨_, _, ps, rt, _, _, _, _, _, _, _, _, _, hpk, _⟩ := C26_fast_layout S _ _ _ _ o ho [] [] o rfl
    obtain ⟨_, _, ps', rt', _, _, _, _, _, _, _, _, _, hpk', _⟩ := C26_fast_layout S _ _ _ _ o' ho' [] [] o' rfl
    rw [hp] at hpk
    rw [hp'] at hpk'
    injection hpk with hpk
    injection hpk' with hpk'
    have : pk[1]? = pk'[1]? := by rw [heq]
    rw [hpk, hpk', XmssBase.getDescriptorBytes, XmssBase.getDescriptorBytes, getBytes_eq, getBytes_eq,
      XmssBase.getDescriptor, XmssBase.getDescriptor, descriptorBytes, descriptorBytes] at this
    simp only [e1, e3, f1, f3, List.cons_append, List.getElem?_cons_succ, List.getElem?_cons_zero, Option.some.injEq] at this
    have h2 := congrArg UInt8.toNat this
    simp only [UInt8.toNat_ofNat'] at h2
    have := b1.toNat_lt
    omega

/-- C40. `fromHexSeed` on 7-bit text throws exactly on text that is not 102 hex characters or whose fourth character
spells a height below 4; the exception is `invalid_argument`. -/
theorem C40_hexseed_throws (S : Sha256) (s : Bytes) (h7 : ∀ c ∈ s, c < 128) (x : Exc) :
    Js.xmssFromHexSeed S s = .throw x ↔ x = .invalidArgument ∧
      (s.length ≠ 102 ∨ (∃ c ∈ s, c ∉ hexAlphabet) ∨
        ∃ b0 b1 b2 seed, hexOf (b0 :: b1 :: b2 :: seed) = s.map lower ∧ b1.toNat % 16 < 2) := by
  have hacc := C02_hex_accepts s h7
  rcases hacc.2 with ⟨e, he⟩ | ht
  · have hc := C02_hex_canonical _ _ he
    rw [C01_hex_encoding] at hc
    obtain ⟨h2, hx⟩ := hacc.1.mp ⟨e, he⟩
    have hel : 2 * e.length = s.length := by
      have := congrArg List.length hc
      rwa [length_hexOf, List.length_map] at this
    rw [Js.xmssFromHexSeed, he, ok_bind]
    by_cases hl : e.length = 51
    · match e, hl, hc with
      | b0 :: b1 :: b2 :: seed, hl, hc =>
        have hs : seed.length = 48 := by simpa using hl
        rw [fromSeedBytes_eq S b0 b1 b2 seed hs, C39_fast_throws]
        simp only [hs, UInt8.toNat_ofNat']
        constructor
        · rintro ⟨a, b⟩
          exact ⟨a, Or.inr (Or.inr ⟨b0, b1, b2, seed, hc, by omega⟩)⟩
        · rintro ⟨a, b | ⟨c, hc1, hc2⟩ | ⟨c0, c1, c2, seed', h, hlt⟩⟩
          · omega
          · exact absurd (hx c hc1) hc2
          · rw [← hc] at h
            have := hstr2binLoop_hexOf (c0 :: c1 :: c2 :: seed')
            rw [h, hstr2binLoop_hexOf] at this
            injection this with this
            injection this with _ this
            injection this with this _
            subst this
            exact ⟨a, Or.inr (Or.inl (by omega))⟩
    · rw [fromSeedBytes_short S e hl]
      simp only [Outcome.throw.injEq]
      exact ⟨fun h => ⟨h.symm, Or.inl (by omega)⟩, fun h => h.1.symm⟩
  · rw [Js.xmssFromHexSeed, ht]
    simp only [throw_bind, Outcome.throw.injEq]
    refine ⟨fun h => ⟨h.symm, ?_⟩, fun h => h.1.symm⟩
    by_cases hl : s.length = 102
    · right; left
      apply Classical.byContradiction
      intro hne
      obtain ⟨v, hv⟩ := hacc.1.mpr ⟨by omega, fun c hc => Classical.byContradiction fun hn => hne ⟨c, hc, hn⟩⟩
      rw [hv] at ht; cases ht
    · exact Or.inl hl

theorem seed_of_js (S : Sha256) (seed : Bytes) (height : UInt8) (hf : Nat) (o0 : XmssFast)
    (hnew : Js.xmssFromParameters S seed height hf = ok o0) (cs : List Call) (rs : List Reply) (o : XmssFast)
    (hrun : runCalls (XmssFast.call S) o0 cs = some (rs, o)) :
    Js.fromSeedBytes S o.getExtendedSeed = ok o0 ∧ o.getExtendedSeed.length = 51 := by
  have hrt := C09_extended_seed_roundtrip S seed height hf 0 (by omega) o0 hnew cs rs o hrun
  have hl : o.getExtendedSeed.length = 51 := by
    apply Classical.byContradiction
    intro hne
    rw [XmssFast.fromExtendedSeed, if_pos hne] at hrt
    cases hrt
  refine ⟨?_, hl⟩
  generalize o.getExtendedSeed = e at hrt hl
  match e, hl with
  | b0 :: b1 :: b2 :: sd, hl =>
    have hs : sd.length = 48 := by simpa using hl
    rw [fromSeedBytes_eq S b0 b1 b2 sd hs]
    rw [C09_extended_seed_constructor S b0 b1 b2 sd hs] at hrt
    obtain ⟨_, _, _, _, _, _, _, e3, _⟩ := fast_fresh hrt
    obtain ⟨_, _, _, _, _, _, _, f3, _⟩ := fast_fresh hnew
    rw [← e3, f3] at hrt
    exact hrt

/-- C40. `fromHexSeed(getHexSeed())` rebuilds the signer as it was when created, whatever was signed in between. -/
theorem C40_hexseed_roundtrip (S : Sha256) (seed : Bytes) (height : UInt8) (hf : Nat) (o0 : XmssFast)
    (hnew : Js.xmssFromParameters S seed height hf = ok o0) (cs : List Call) (rs : List Reply) (o : XmssFast)
    (hrun : runCalls (XmssFast.call S) o0 cs = some (rs, o)) :
    Js.xmssFromHexSeed S (Js.getHexSeed o.toXmssBase) = ok o0 := by
  rw [Js.xmssFromHexSeed, Js.getHexSeed, C01_hex_roundtrip, ok_bind]
  exact (seed_of_js S seed height hf o0 hnew cs rs o hrun).1

/-- C40. `fromMnemonic(getMnemonic())` rebuilds the signer as it was when created, whatever was signed in between. -/
theorem C40_mnemonic_roundtrip (S : Sha256) (seed : Bytes) (height : UInt8) (hf : Nat) (o0 : XmssFast)
    (hnew : Js.xmssFromParameters S seed height hf = ok o0) (cs : List Call) (rs : List Reply) (o : XmssFast)
    (hrun : runCalls (XmssFast.call S) o0 cs = some (rs, o)) :
    ∃ phrase, Js.getMnemonic o.toXmssBase = ok phrase ∧ Js.xmssFromMnemonic S phrase = ok o0 := by
  obtain ⟨h1, h2⟩ := seed_of_js S seed height hf o0 hnew cs rs o hrun
  have hrt := C04_mnemonic_roundtrip o.getExtendedSeed (by rw [h2]) (by intro h; rw [h] at h2; cases h2)
  have hm := C04_mnemonic_encoding o.getExtendedSeed (by rw [h2])
  rw [hm, ok_bind] at hrt
  refine ⟨_, hm, ?_⟩
  rw [Js.xmssFromMnemonic, hrt, ok_bind]
  exact h1

/-- C40. The address text of a JS signer is `Q` and 78 hex characters, is accepted by `validateAddress`, and the
getters read from it the height, hash function and signature type the signer was made with. -/
theorem C40_own_address (S : Sha256) (seed : Bytes) (height : UInt8) (hf : Nat) (o0 : XmssFast)
    (hnew : Js.xmssFromParameters S seed height hf = ok o0) (cs : List Call) (rs : List Reply) (o : XmssFast)
    (hrun : runCalls (XmssFast.call S) o0 cs = some (rs, o)) :
    ∃ a, a.length = 39 ∧ Js.getAddress S o.toXmssBase = ok (0x51 :: hexOf a) ∧
      Js.validateAddress S (0x51 :: hexOf a) = ok true ∧ Js.getHeight (0x51 :: hexOf a) = ok height ∧
      Js.getHashFunction (0x51 :: hexOf a) = ok hf ∧ Js.getSignatureType (0x51 :: hexOf a) = ok 0 := by
  obtain ⟨_, ⟨h4, h30, hev⟩, f, hf1, hf2, e1, e2, e3, e4, _⟩ := fast_fresh hnew
  have hn : hf ≤ 2 := by subst hf1; cases f <;> decide
  have hst := C26_fast_stable S seed height hf 0 o0 hnew cs rs o hrun
  obtain ⟨_, _, ps, rt, _, _, _, _, _, _, _, l3, l4, hpk, hdl⟩ := C26_fast_layout S seed height hf 0 o0 hnew cs rs o hrun
  have hh := height.toNat_lt
  have hdesc : o.getDescriptorBytes = [UInt8.ofNat hf, UInt8.ofNat (height.toNat / 2), 0] := by
    rw [XmssBase.getDescriptorBytes, getBytes_eq, XmssBase.getDescriptor, descriptorBytes, hst.1]
    simp only [e1, e2, e3, show sigTypeXMSS = 0 from rfl, Nat.mul_zero, Nat.zero_add, addrFormatSHA256_2X]
    rw [Nat.mod_eq_of_lt (show hf < 16 by omega), Nat.mod_eq_of_lt (show height.toNat / 2 < 16 by omega)]
  rw [hdesc] at hpk
  generalize hpkv : [UInt8.ofNat hf, UInt8.ofNat (height.toNat / 2), 0] ++ rt ++ ps = pk at hpk
  have hpl : pk.length = 67 := by rw [← hpkv]; simp [l3, l4]
  have hval := C10_address_value S pk
    { hashFunction := hf, signatureType := 0, height := height, addrFormat := 0 } hpl (by
      rw [← hpkv]
      show Descriptor.fromBytes [UInt8.ofNat hf, UInt8.ofNat (height.toNat / 2), 0] = _
      rw [fromBytes_three]
      simp only [UInt8.toNat_ofNat', Outcome.ok.injEq, Descriptor.mk.injEq]
      refine ⟨by omega, trivial, ?_, by omega⟩
      apply UInt8.toNat_inj.mp
      simp only [UInt8.toNat_ofNat']
      omega) rfl
  have hva := C10_address_valid S pk _ hval
  refine ⟨_, hva.1, ?_, ?_, ?_⟩
  · rw [Js.getAddress, XmssBase.getAddress, hpk, ok_bind, hval, ok_bind, C01_hex_encoding]
  · rw [C40_validate S _ _ (by rw [hva.1]; omega)]
    exact hva.2
  · have hb : Descriptor.getBytes { hashFunction := hf, signatureType := 0, height := height, addrFormat := 0 } =
        [UInt8.ofNat hf, UInt8.ofNat (height.toNat / 2), 0] := by
      rw [getBytes_eq, descriptorBytes]
      simp only [Nat.mul_zero, Nat.zero_add]
      rw [Nat.mod_eq_of_lt (show hf < 16 by omega), Nat.mod_eq_of_lt (show height.toNat / 2 < 16 by omega)]
    rw [hb]
    simp only [List.cons_append]
    obtain ⟨g1, g2, g3⟩ := C40_getters 0x51 (UInt8.ofNat hf) (UInt8.ofNat (height.toNat / 2)) 0
      ([] ++ S.hash pk ++ (S.hash (UInt8.ofNat hf :: UInt8.ofNat (height.toNat / 2) :: 0 :: ([] ++ S.hash pk))).drop 28)
    refine ⟨?_, ?_, g2⟩
    · rw [g3]
      congr 1
      apply UInt8.toNat_inj.mp
      simp only [UInt8.toNat_ofNat']
      omega
    · rw [g1]
      congr 1
      simp only [UInt8.toNat_ofNat']
      omega

/-- C40. The exported `getAddress(epk)` leaves the `Q` out: whatever it returns is refused by `validateAddress`, while
the same text behind a `Q` is accepted. -/
theorem C40_address_of_key (S : Sha256) (epkStr t : Bytes) (h : Js.addressOfEpk S epkStr = ok t) :
    Js.validateAddress S t = .throw .invalidArgument ∧ Js.validateAddress S (0x51 :: t) = ok true := by
  rw [Js.addressOfEpk] at h
  split at h
  · cases h
  · obtain ⟨epk, he, h⟩ := bind_eq_ok.mp h
    obtain ⟨a, ha, h⟩ := bind_eq_ok.mp h
    rw [C01_hex_encoding] at h
    injection h with h
    obtain ⟨hl, hv⟩ := C10_address_valid S epk a ha
    subst h
    constructor
    · have : Js.getBinAddress (hexOf a) = .throw .invalidArgument := by
        rw [Js.getBinAddress, if_neg (by rw [length_hexOf, hl]; simp [descriptorSize]), hstr2bin,
          if_pos (by rw [List.length_drop, length_hexOf, hl]; omega)]
      rw [Js.validateAddress, this]
      rfl
    · rw [C40_validate S _ a (by omega)]
      exact hv

/-- C40. Which key texts the exported `getAddress` takes, on 7-bit text: the 134-character hex texts (either case) of
a key with address format 0; it then gives the lower-case hex text of that key's address. -/
theorem C40_address_of_key_value (S : Sha256) (epkStr epk : Bytes) (hl : epk.length = 67) (h : hexOf epk = epkStr.map lower)
    (hx : ∀ c ∈ epkStr, c ∈ hexAlphabet) (a : Bytes) :
    Js.addressOfEpk S epkStr = ok (hexOf a) ↔ getAddress S epk = ok a := by
  have hlen : epkStr.length = 134 := by
    have := congrArg List.length h
    rw [length_hexOf, hl, List.length_map] at this
    exact this.symm
  have hd : hstr2bin epkStr = ok epk := by
    obtain ⟨v, hv⟩ := (C02_hex_accepts epkStr (fun c hc => alphabet_ascii c (hx c hc))).1.mpr ⟨by omega, hx⟩
    have hc := C02_hex_canonical _ _ hv
    rw [C01_hex_encoding, ← h] at hc
    have h1 := hstr2binLoop_hexOf v
    rw [hc, hstr2binLoop_hexOf] at h1
    injection h1 with h1
    rw [hv, h1]
  rw [Js.addressOfEpk, if_neg (by omega), hd, ok_bind]
  cases hg : getAddress S epk with
  | ok b =>
    simp only [ok_bind, C01_hex_encoding, Outcome.ok.injEq]
    constructor
    · intro hh
      have h1 := hstr2binLoop_hexOf b
      rw [hh, hstr2binLoop_hexOf] at h1
      injection h1 with h1
      exact h1.symm
    · intro hh; rw [hh]
  | throw e => simp
  | ub => simp

/-- C40. Which key texts the exported `getAddress` refuses: every text that does not have 134 characters, whatever they
are; and of the 7-bit texts of 134 characters those with a character that is no hex digit or whose third character (the
address format) is not `0`. All others are accepted. -/
theorem C40_address_of_key_throws (S : Sha256) (s : Bytes) :
    (s.length ≠ 134 → Js.addressOfEpk S s = .throw .invalidArgument) ∧
    ((∀ c ∈ s, c < 128) →
      ((∃ t, Js.addressOfEpk S s = ok t) ↔ s.length = 134 ∧ (∀ c ∈ s, c ∈ hexAlphabet) ∧ s[2]? = some 0x30) ∧
      ((∃ t, Js.addressOfEpk S s = ok t) ∨ Js.addressOfEpk S s = .throw .invalidArgument)) := by
  refine ⟨fun h => by rw [Js.addressOfEpk, if_pos h], fun h7 => ?_⟩
  by_cases hl : s.length = 134
  case neg =>
    rw [Js.addressOfEpk, if_pos hl]
    exact ⟨⟨(fun ⟨t, h⟩ => by cases h), fun h => absurd h.1 hl⟩, Or.inr rfl⟩
  rw [Js.addressOfEpk, if_neg (by omega)]
  obtain ⟨h1, h2⟩ := C02_hex_accepts s h7
  by_cases hx : ∀ c ∈ s, c ∈ hexAlphabet
  case neg =>
    rcases h2 with ⟨v, hv⟩ | h2
    · exact absurd (h1.mp ⟨v, hv⟩).2 hx
    · rw [h2]
      exact ⟨⟨(fun ⟨t, h⟩ => by cases h), fun h => absurd h.2.1 hx⟩, Or.inr rfl⟩
  obtain ⟨v, hv⟩ := h1.mpr ⟨by omega, hx⟩
  have hc := C02_hex_canonical s v hv
  rw [C01_hex_encoding] at hc
  have hvl : v.length = 67 := by
    have := congrArg List.length hc
    rw [length_hexOf, List.length_map, hl] at this
    omega
  obtain ⟨b0, b1, rest, rfl⟩ : ∃ b0 b1 rest, v = b0 :: b1 :: rest := by
    rcases v with _ | ⟨b0, _ | ⟨b1, rest⟩⟩
    · simp at hvl
    · simp at hvl
    · exact ⟨b0, b1, rest, rfl⟩
  obtain ⟨c0, c1, c2, c3, s', rfl⟩ : ∃ c0 c1 c2 c3 s', s = c0 :: c1 :: c2 :: c3 :: s' := by
    rcases s with _ | ⟨c0, _ | ⟨c1, _ | ⟨c2, _ | ⟨c3, s'⟩⟩⟩⟩ <;> simp at hl
    exact ⟨c0, c1, c2, c3, s', rfl⟩
  have hd : lower c2 = hexDigits.getD (b1.toNat / 16) 0 := by
    simp only [hexOf, List.flatMap_cons, List.map_cons, List.cons_append, List.nil_append, List.cons.injEq] at hc
    exact hc.2.2.1.symm
  have hz : b1.toNat / 16 = 0 ↔ c2 = 0x30 := by
    have hk : ∀ n < 16, ∀ c ∈ hexAlphabet, lower c = hexDigits.getD n 0 → (n = 0 ↔ c = 0x30) := by decide
    exact hk _ (by have := b1.toNat_lt; omega) c2 (hx c2 (by simp)) hd
  have ha := C10_address_throws S (b0 :: b1 :: rest)
  rw [hv, ok_bind]
  have hcond : (∃ a, getAddress S (b0 :: b1 :: rest) = ok a) ↔ c2 = 0x30 := by
    rw [ha.1, ← hz]
    constructor
    · rintro ⟨_, b, hb, h0⟩
      simp only [List.getElem?_cons_succ, List.getElem?_cons_zero, Option.some.injEq] at hb
      rw [hb]; exact h0
    · intro h0
      exact ⟨hvl, b1, rfl, h0⟩
  constructor
  · constructor
    · rintro ⟨t, ht⟩
      obtain ⟨a, hg, _⟩ := bind_eq_ok.mp ht
      exact ⟨hl, hx, by simpa using hcond.mp ⟨a, hg⟩⟩
    · rintro ⟨_, _, h0⟩
      obtain ⟨a, hg⟩ := hcond.mpr (by simpa using h0)
      exact ⟨_, by rw [hg]; rfl⟩
  · rcases ha.2 with ⟨a, hg⟩ | hg
    · exact Or.inl ⟨_, by rw [hg]; rfl⟩
    · exact Or.inr (by rw [hg]; rfl)

/-- C40. Signatures of a JS `Xmss` object verify with `Xmss.verify` and with `XmssBasic.verify` for `w = 16`, against the
key whose hex text is `getPK()`. -/
theorem C40_sign_verify (S : Sha256) (seed : Bytes) (height : UInt8) (hf : Nat) (o0 : XmssFast)
    (hnew : Js.xmssFromParameters S seed height hf = ok o0) (cs : List Call) (rs : List Reply) (o : XmssFast)
    (hrun : runCalls (XmssFast.call S) o0 cs = some (rs, o)) (i : Nat) (hi : o.getIndex = ok i)
    (hlt : i < 2 ^ height.toNat) (msg : Bytes) :
    ∃ sig o' t pk, o.sign S msg = .ret sig o' ∧ Js.getPK o.toXmssBase = ok t ∧ hstr2bin t = ok pk ∧
      Js.xmssVerify S msg sig pk = ok true ∧ Js.basicVerify S msg sig pk 16 = ok true := by
  obtain ⟨_, sig, o', pk, _, h1, _, _, _, h2, h3, _⟩ := C12_fast_sign_verifies S seed height hf 0 o0 hnew cs rs o hrun i hi hlt msg
  exact ⟨sig, o', _, pk, h1, by rw [Js.getPK, h2]; rfl, C01_hex_roundtrip pk, h3, h3⟩

/-- The hypotheses are met: a signer of height 4. -/
example : ∃ o0, Js.xmssFromParameters toySha zeroSeed 4 2 = ok o0 ∧
    Js.xmssFromHexSeed toySha (Js.getHexSeed o0.toXmssBase) = ok o0 := by
  obtain ⟨o0, h⟩ := (C39_fast_succeeds toySha zeroSeed 4 2 0).mpr ⟨rfl, goodHeight4, by omega⟩
  exact ⟨o0, h, C40_hexseed_roundtrip toySha zeroSeed 4 2 o0 h [] [] o0 rfl⟩

/-- A key text that `getAddress` accepts. -/
example : ∃ t, Js.addressOfEpk toySha (hexOf (1 :: 2 :: List.replicate 65 0)) = ok t := by
  obtain ⟨a, h⟩ := (C10_address_throws toySha (1 :: 2 :: List.replicate 65 0)).1.mpr ⟨by simp, 2, rfl, by decide⟩
  refine ⟨hexOf a, ?_⟩
  rw [Js.addressOfEpk, if_neg (by rw [length_hexOf]; simp), ← C01_hex_encoding, C01_hex_roundtrip, ok_bind, h, ok_bind,
    C01_hex_encoding]

end Qrl.Props
