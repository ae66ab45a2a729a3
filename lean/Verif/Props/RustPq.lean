import Verif.Spec.RustPq
/-!
# C57: Kyber and Dilithium in the Rust port
-/

namespace Qrl.Props

open Qrl.Spec Qrl.Rs

/-- C57. `Kyber::new` accepts keys of the right sizes and keeps them; on any other size it panics: it never returns `Err`. -/
theorem C57_kyber_new (P : KemCrate) (r : P.Rand) (pk sk : Bytes) :
    (pk.length = P.pkBytes ∧ sk.length = P.skBytes → ∃ o, Rs.Kyber.new P r pk sk = .ok o ∧ o.pk = pk ∧ o.sk = sk ∧
      (o.ss, o.ct) = P.encapsulate r pk) ∧
    (pk.length ≠ P.pkBytes ∨ sk.length ≠ P.skBytes → Rs.Kyber.new P r pk sk = .panic) := by
  rw [Rs.Kyber.new]
  constructor
  · rintro ⟨h1, h2⟩
    rw [if_neg (fun h => h h1), if_neg (fun h => h h2)]
    exact ⟨_, rfl, rfl, rfl, rfl⟩
  · intro h
    by_cases h1 : pk.length ≠ P.pkBytes
    · rw [if_pos h1]
    · rw [if_neg h1, if_pos (h.resolve_left h1)]

/-- C57. Key exchange: Bob encodes to Alice's public key; after Alice decodes Bob's cipher text both have the same shared
secret, and nobody's keys have changed. Holds for a generated Alice and for one restored from a generated key pair. -/
theorem C57_kyber_exchange (P : KemCrate) (hP : KemCrateContract P) (s r₁ r₂ : P.Rand) (alice bob : Rs.Kyber)
    (ha : alice = Rs.Kyber.default P s r₁ ∨ Rs.Kyber.new P r₁ (P.keypair s).1 (P.keypair s).2 = .ok alice) :
    (alice.kemDecode P (bob.kemEncode P r₂ alice.pk).ct).ss = (bob.kemEncode P r₂ alice.pk).ss ∧
    (bob.kemEncode P r₂ alice.pk).ss.length = P.ssBytes ∧
    (bob.kemEncode P r₂ alice.pk).pk = bob.pk ∧ (bob.kemEncode P r₂ alice.pk).sk = bob.sk ∧
    (alice.kemDecode P (bob.kemEncode P r₂ alice.pk).ct).pk = alice.pk ∧
    (alice.kemDecode P (bob.kemEncode P r₂ alice.pk).ct).sk = alice.sk := by
  have hk : alice.pk = (P.keypair s).1 ∧ alice.sk = (P.keypair s).2 := by
    rcases ha with rfl | ha
    · exact ⟨rfl, rfl⟩
    · obtain ⟨o, ho, h1, h2, _⟩ := (C57_kyber_new P r₁ (P.keypair s).1 (P.keypair s).2).1 ⟨hP.pk_size s, hP.sk_size s⟩
      rw [ho] at ha; cases ha; exact ⟨h1, h2⟩
  refine ⟨?_, hP.ss_size r₂ _, rfl, rfl, rfl, rfl⟩
  show P.decapsulate (P.encapsulate r₂ alice.pk).2 alice.sk = (P.encapsulate r₂ alice.pk).1
  rw [hk.1, hk.2, hP.agree]

/-- C57. A new Kyber object already holds a cipher text for its own public key and the matching secret. -/
theorem C57_kyber_self (P : KemCrate) (hP : KemCrateContract P) (s r : P.Rand) :
    ((Rs.Kyber.default P s r).kemDecode P (Rs.Kyber.default P s r).ct) = Rs.Kyber.default P s r := by
  rw [Rs.Kyber.kemDecode, Rs.Kyber.default]
  dsimp only
  rw [hP.agree]

/-- C57. `Dilithium::new` accepts keys of the right sizes and panics on others: it never returns `Err`. -/
theorem C57_dilithium_new (P : SignCrate) (pk sk : Bytes) :
    (pk.length = P.pkBytes ∧ sk.length = P.skBytes → Rs.Dilithium.new P pk sk = .ok ⟨pk, sk⟩) ∧
    (pk.length ≠ P.pkBytes ∨ sk.length ≠ P.skBytes → Rs.Dilithium.new P pk sk = .panic) := by
  rw [Rs.Dilithium.new]
  constructor
  · rintro ⟨h1, h2⟩; rw [if_neg (fun h => h h1), if_neg (fun h => h h2)]
  · intro h
    by_cases h1 : pk.length ≠ P.pkBytes
    · rw [if_pos h1]
    · rw [if_neg h1, if_pos (h.resolve_left h1)]

/-- C57. What a generated key signs, its public key opens to the message. -/
theorem C57_dilithium_open (P : SignCrate) (hP : SignCrateContract P) (r s : P.Rand) (m : Bytes) :
    Rs.Dilithium.signOpen P ((Rs.Dilithium.default P r).sign P s m) (Rs.Dilithium.default P r).pk = some m :=
  hP.opens r s m

/-- C57. On an input of at least `sigBytes` bytes `extract_message` returns all but the last `sigBytes` bytes and
`extract_signature` those; on a shorter one both panic, in debug and release builds. Sizes fit a `usize`. -/
theorem C57_extract (b : Build) (P : SignCrate) (v : Bytes) (hv : v.length < 2 ^ 64) (hs : P.sigBytes < 2 ^ 63) :
    (P.sigBytes ≤ v.length →
      Rs.Dilithium.extractMessage b P v = .ok (v.take (v.length - P.sigBytes)) ∧
      Rs.Dilithium.extractSignature b P v = .ok (v.drop (v.length - P.sigBytes))) ∧
    (v.length < P.sigBytes → Rs.Dilithium.extractMessage b P v = .panic ∧ Rs.Dilithium.extractSignature b P v = .panic) := by
  rw [Rs.Dilithium.extractMessage, Rs.Dilithium.extractSignature, usizeSub.eq_def]
  constructor
  · intro h
    rw [if_pos h, Res.ok_bind, Res.ok_bind, getRange, getRange, if_pos (by omega), if_pos (by omega), List.drop_zero,
      Nat.sub_zero]
    refine ⟨rfl, ?_⟩
    rw [List.take_of_length_le (by rw [List.length_drop]; omega)]
  · intro h
    rw [if_neg (by omega)]
    cases b with
    | debug => exact ⟨rfl, rfl⟩
    | release =>
      dsimp only
      rw [Res.ok_bind, Res.ok_bind, getRange, getRange, if_neg (by omega), if_neg (by omega)]
      exact ⟨rfl, rfl⟩

/-- C57. **The two are taken from the wrong ends**: of a signed message `sig ++ m`, `extract_message` returns the first `|m|`
bytes and `extract_signature` the last `sigBytes` bytes. They are right only if `sig ++ m = m ++ sig`. -/
theorem C57_extract_swapped_refuted (b : Build) (P : SignCrate) (hP : SignCrateContract P) (r : P.Rand) (o : Rs.Dilithium) (m : Bytes)
    (hm : m.length + P.sigBytes < 2 ^ 64) (hs : P.sigBytes < 2 ^ 63) :
    ∃ sig, sig.length = P.sigBytes ∧ o.sign P r m = sig ++ m ∧
      Rs.Dilithium.extractMessage b P (o.sign P r m) = .ok ((sig ++ m).take m.length) ∧
      Rs.Dilithium.extractSignature b P (o.sign P r m) = .ok ((sig ++ m).drop m.length) ∧
      (Rs.Dilithium.extractMessage b P (o.sign P r m) = .ok m ∧ Rs.Dilithium.extractSignature b P (o.sign P r m) = .ok sig ↔
        sig ++ m = m ++ sig) := by
  obtain ⟨sig, h1, h2⟩ := hP.layout r m o.sk
  have hl : (sig ++ m).length = P.sigBytes + m.length := by rw [List.length_append, h1]
  have e := (C57_extract b P (sig ++ m) (by omega) hs).1 (by omega)
  rw [show (sig ++ m).length - P.sigBytes = m.length by omega] at e
  have h2' : o.sign P r m = sig ++ m := h2
  refine ⟨sig, h1, h2, by rw [h2']; exact e.1, by rw [h2']; exact e.2, ?_⟩
  rw [h2', e.1, e.2]
  constructor
  · rintro ⟨k1, k2⟩
    have := List.take_append_drop m.length (sig ++ m)
    rw [Res.ok.inj k1, Res.ok.inj k2] at this
    exact this.symm
  · intro h
    rw [h, List.take_left, List.drop_left]
    exact ⟨rfl, rfl⟩

/-- A toy signature crate: the signature is four bytes 7. -/
def toySignCrate : SignCrate where
  pkBytes := 1
  skBytes := 1
  sigBytes := 4
  Rand := Unit
  keypair := fun _ => ([1], [2])
  sign := fun _ m _ => [7, 7, 7, 7] ++ m
  openMsg := fun sm _ => some (sm.drop 4)

theorem toySignCrate_contract : SignCrateContract toySignCrate where
  pk_size := fun _ => rfl
  sk_size := fun _ => rfl
  layout := fun _ _ _ => ⟨[7, 7, 7, 7], rfl, rfl⟩
  opens := fun _ _ _ => rfl

/-- C57. So there is a crate that keeps the contract and a message for which both extractions are wrong. -/
theorem C57_extract_wrong_refuted :
    Rs.Dilithium.extractMessage .release toySignCrate ((Rs.Dilithium.default toySignCrate ()).sign toySignCrate () [1, 2]) = .ok [7, 7] ∧
    Rs.Dilithium.extractSignature .release toySignCrate ((Rs.Dilithium.default toySignCrate ()).sign toySignCrate () [1, 2]) =
      .ok [7, 7, 1, 2] := by
  constructor <;> rfl

/-- A toy KEM crate meeting the contract: the shared secret is the public key masked with the randomness. -/
def toyKemCrate : KemCrate where
  pkBytes := 1
  skBytes := 1
  ctBytes := 1
  ssBytes := 1
  Rand := UInt8
  keypair := fun r => ([r], [r])
  encapsulate := fun r pk => ([pk.headD 0 + r], [r])
  decapsulate := fun ct sk => [sk.headD 0 + ct.headD 0]

example : KemCrateContract toyKemCrate where
  pk_size := fun _ => rfl
  sk_size := fun _ => rfl
  ss_size := fun _ _ => rfl
  ct_size := fun _ _ => rfl
  agree := fun _ _ => rfl

example : Rs.Kyber.new toyKemCrate (9 : UInt8) [1] [2] = .ok ⟨[1], [2], [10], [9]⟩ ∧ Rs.Kyber.new toyKemCrate (9 : UInt8) [] [2] = .panic := by
  constructor <;> rfl

example : Rs.Dilithium.extractMessage .release toySignCrate [1, 2, 3] = .panic :=
  ((C57_extract .release toySignCrate [1, 2, 3] (by decide) (by decide)).2 (by decide)).1

end Qrl.Props
