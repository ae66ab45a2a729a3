import Verif.Model.Pq
import Verif.Spec.Pq
import Verif.Props.Hex
/-!
# C41: the Kyber and Dilithium wrappers

`KemContract` and `SignContract` (Verif.Spec.Pq) are what the absent reference code promises.
-/

namespace Qrl.Props

open Outcome Spec

theorem fillBuffer_exact {n : Nat} {d : Bytes} (h : d.length = n) : fillBuffer n d = ok d := by
  simp [fillBuffer, h]

theorem slice_prefix {l : Bytes} {n : Nat} (h : n ≤ l.length) : slice l 0 n = ok (l.take n) := by
  simp [slice, h]

theorem slice_short {l : Bytes} {n : Nat} (h : l.length < n) : slice l 0 n = .ub := by
  rw [slice, if_neg (by omega)]

/-- C41. `Kyber(pk, sk)` throws `invalid_argument` exactly when one of the sizes is wrong, and otherwise keeps the two
keys and has neither key nor cypher text yet. -/
theorem C41_kyber_constructor (P : KemPrim) (pk sk : Bytes) :
    (Kyber.fromKeys P pk sk = .throw .invalidArgument ↔ pk.length ≠ P.pkBytes ∨ sk.length ≠ P.skBytes) ∧
    (pk.length = P.pkBytes → sk.length = P.skBytes → ∃ o, Kyber.fromKeys P pk sk = ok o ∧
      o.pk = pk ∧ o.sk = sk ∧ o.key = [] ∧ o.ct = []) := by
  unfold Kyber.fromKeys
  by_cases h1 : pk.length = P.pkBytes <;> by_cases h2 : sk.length = P.skBytes <;> simp [h1, h2]

/-- C41. After `kem_encode` with a key of at least the right size, `getMyKey` and `getCypherText` have the fixed sizes,
the two own keys are untouched, and only the first `pkBytes` bytes of the argument mattered; with a shorter argument
the call reads past its end. -/
theorem C41_kyber_encode (P : KemPrim) (hP : KemContract P) (r : P.Rand) (o : Kyber) (otherPk : Bytes) :
    (P.pkBytes ≤ otherPk.length → ∃ b o', o.kemEncode P r otherPk = ok (b, o') ∧
      o'.key.length = P.symBytes ∧ o'.ct.length = P.ctBytes ∧ o'.pk = o.pk ∧ o'.sk = o.sk ∧
      o.kemEncode P r (otherPk.take P.pkBytes) = ok (b, o')) ∧
    (otherPk.length < P.pkBytes → o.kemEncode P r otherPk = .ub) := by
  constructor
  · intro h
    have h2 : P.pkBytes ≤ (otherPk.take P.pkBytes).length := by simp [h]
    simp only [Kyber.kemEncode, slice_prefix h, slice_prefix h2, ok_bind, fillBuffer_exact (hP.ct_size _ _),
      fillBuffer_exact (hP.key_size _ _), List.take_take, Nat.min_self, Outcome.ok.injEq]
    exact ⟨_, _, rfl, hP.key_size _ _, hP.ct_size _ _, rfl, rfl, rfl⟩
  · intro h
    rw [Kyber.kemEncode, slice_short h]
    rfl

/-- C41. After `kem_decode` with a cypher text of at least the right size on an object with a proper secret key,
`getMyKey` has the fixed size and nothing else changed; a shorter argument is read past its end. -/
theorem C41_kyber_decode (P : KemPrim) (hP : KemContract P) (o : Kyber) (hsk : o.sk.length = P.skBytes) (ct : Bytes) :
    (P.ctBytes ≤ ct.length → ∃ b o', o.kemDecode P ct = ok (b, o') ∧ o'.key.length = P.symBytes ∧
      o' = { o with key := o'.key }) ∧
    (ct.length < P.ctBytes → o.kemDecode P ct = .ub) := by
  constructor
  · intro h
    simp only [Kyber.kemDecode, slice_prefix h, slice_prefix (Nat.le_of_eq hsk.symm), ok_bind,
      fillBuffer_exact (hP.dec_size _ _), Outcome.ok.injEq]
    exact ⟨_, _, rfl, hP.dec_size _ _, rfl⟩
  · intro h
    rw [Kyber.kemDecode, slice_short h]
    rfl

/-- C41. A key exchange: Bob (any object) encodes to the public key of a freshly generated Alice and sends her his
cypher text; both calls return true and both hold the same key. -/
theorem C41_kyber_exchange (P : KemPrim) (hP : KemContract P) (s r : P.Rand) (bob : Kyber) :
    ∃ alice bob' alice', Kyber.generate P s = ok alice ∧ bob.kemEncode P r alice.pk = ok (true, bob') ∧
      alice.kemDecode P bob'.ct = ok (true, alice') ∧ alice'.key = bob'.key ∧ alice'.key.length = P.symBytes := by
  have h1 := hP.pk_size s
  have h2 := hP.sk_size s
  refine ⟨{ pk := (P.keypair s).1, sk := (P.keypair s).2, key := [], ct := [] },
    { bob with ct := (P.enc r (P.keypair s).1).2.1, key := (P.enc r (P.keypair s).1).2.2 },
    { pk := (P.keypair s).1, sk := (P.keypair s).2, key := (P.enc r (P.keypair s).1).2.2, ct := [] }, ?_, ?_, ?_, rfl, ?_⟩
  · simp only [Kyber.generate, fillBuffer_exact h1, fillBuffer_exact h2, ok_bind]
  · simp only [Kyber.kemEncode, slice_prefix (Nat.le_of_eq h1.symm), ok_bind, fillBuffer_exact (hP.ct_size _ _),
      fillBuffer_exact (hP.key_size _ _), List.take_of_length_le (Nat.le_of_eq h1), hP.enc_ok, Outcome.ok.injEq, Prod.mk.injEq,
      and_true]
    rfl
  · have hc := hP.ct_size r (P.keypair s).1
    simp only [Kyber.kemDecode, slice_prefix (Nat.le_of_eq hc.symm), slice_prefix (Nat.le_of_eq h2.symm), ok_bind,
      List.take_of_length_le (Nat.le_of_eq hc), List.take_of_length_le (Nat.le_of_eq h2), hP.agree,
      fillBuffer_exact (hP.key_size _ _), Outcome.ok.injEq, Prod.mk.injEq, and_true]
    rfl
  · exact hP.key_size _ _

/-- C41. `Dilithium::sign` returns message size plus `CRYPTO_BYTES` bytes, and the two `extract_` functions split that
into the signature and the message. -/
theorem C41_dilithium_sign (P : SignPrim) (hP : SignContract P) (o : Dilithium) (h : P.skBytes ≤ o.sk.length) (m : Bytes) :
    ∃ sm sig, o.sign P m = ok sm ∧ sm.length = m.length + P.sigBytes ∧ Dilithium.extractSignature P sm = ok sig ∧
      Dilithium.extractMessage P sm = ok m ∧ sm = sig ++ m := by
  obtain ⟨sig, hl, hs⟩ := hP.layout m (o.sk.take P.skBytes)
  refine ⟨sig ++ m, sig, ?_, by simp [hl]; omega, ?_, ?_, rfl⟩
  · rw [Dilithium.sign, slice_prefix h, ok_bind, hs, fillBuffer_exact (by simp [hl]; omega)]
  · rw [Dilithium.extractSignature, slice_prefix (by simp [hl]), ← hl, List.take_left]
  · rw [Dilithium.extractMessage, if_neg (by simp [hl]), ← hl, List.drop_left]

/-- C41. The split loses nothing on any vector of at least `CRYPTO_BYTES` bytes, and both functions are undefined on a
shorter one (nothing is checked). -/
theorem C41_dilithium_split (P : SignPrim) (v : Bytes) :
    (P.sigBytes ≤ v.length → ∃ s m, Dilithium.extractSignature P v = ok s ∧ Dilithium.extractMessage P v = ok m ∧
      s.length = P.sigBytes ∧ v = s ++ m) ∧
    (v.length < P.sigBytes → Dilithium.extractSignature P v = .ub ∧ Dilithium.extractMessage P v = .ub) := by
  constructor
  · intro h
    exact ⟨_, _, slice_prefix h, by rw [Dilithium.extractMessage, if_neg (by omega)], by simp [h],
      (List.take_append_drop _ _).symm⟩
  · intro h
    exact ⟨slice_short h, by rw [Dilithium.extractMessage, if_pos h]⟩

theorem length_resizeZero (v : Bytes) (n : Nat) : (resizeZero v n).length = n := by
  simp [resizeZero]; omega

/-- C41. `sign_open` accepts what `sign` of a generated key produced, whatever the output vector held and however long
it was; the output vector then has the size of the signed message and starts with the message. -/
theorem C41_dilithium_open (P : SignPrim) (hP : SignContract P) (r : P.Rand) (m out : Bytes) :
    ∃ o sm out', Dilithium.generate P r = ok o ∧ o.sign P m = ok sm ∧ Dilithium.signOpen P out sm o.pk = ok (true, out') ∧
      out'.length = sm.length ∧ out'.take m.length = m := by
  have h1 := hP.pk_size r
  have h2 := hP.sk_size r
  obtain ⟨sig, hl, hs⟩ := hP.layout m (P.keypair r).2
  have hsm : (P.sign m (P.keypair r).2).length = m.length + P.sigBytes := by rw [hs]; simp [hl]; omega
  have ho := hP.opens r m (resizeZero out (P.sign m (P.keypair r).2).length) (by rw [length_resizeZero, hsm])
  have hout := hP.out_size (resizeZero out (P.sign m (P.keypair r).2).length) (P.sign m (P.keypair r).2) (P.keypair r).1
  rw [length_resizeZero] at hout
  refine ⟨{ pk := (P.keypair r).1, sk := (P.keypair r).2 }, P.sign m (P.keypair r).2, _, ?_, ?_, ?_, hout, ho.2⟩
  · simp only [Dilithium.generate, fillBuffer_exact h1, fillBuffer_exact h2, ok_bind]
  · rw [Dilithium.sign, slice_prefix (Nat.le_of_eq h2.symm), ok_bind, List.take_of_length_le (Nat.le_of_eq h2),
      fillBuffer_exact hsm]
  · rw [Dilithium.signOpen, slice_prefix (Nat.le_of_eq h1.symm), ok_bind, List.take_of_length_le (Nat.le_of_eq h1)]
    dsimp only
    rw [fillBuffer_exact hout, ok_bind, ho.1]
    rfl

/-- C41. `Dilithium(pk, sk)` checks nothing: with a secret key that is too short `sign` reads past its end, and so does
`sign_open` with a public key that is too short. -/
theorem C41_dilithium_unchecked_refuted (P : SignPrim) (pk sk m out sm : Bytes) :
    (sk.length < P.skBytes → (Dilithium.fromKeys pk sk).sign P m = .ub) ∧
    (pk.length < P.pkBytes → Dilithium.signOpen P out sm pk = .ub) := by
  constructor
  · intro h
    rw [Dilithium.sign, show (Dilithium.fromKeys pk sk).sk = sk from rfl, slice_short h]; rfl
  · intro h
    rw [Dilithium.signOpen, slice_short h]; rfl

/-- A signature scheme obeying the contract: signatures are the secret byte repeated, opening checks it, and on success
the buffer holds the message followed by zeros. -/
def toySign : SignPrim where
  pkBytes := 1
  skBytes := 1
  sigBytes := 2
  Rand := UInt8
  keypair r := ([r], [r])
  sign m sk := List.replicate 2 (sk.headD 0) ++ m
  openMsg out sm pk :=
    if sm.take 2 = List.replicate 2 (pk.headD 0) then (0, (sm.drop 2 ++ [0, 0]).take out.length ++ List.replicate (out.length - sm.length) 0)
    else (-1, out)

theorem toySign_contract : SignContract toySign where
  pk_size _ := rfl
  sk_size _ := rfl
  layout m sk := ⟨List.replicate 2 (sk.headD 0), by rfl, rfl⟩
  out_size out sm pk := by
    simp only [toySign]
    split
    · rename_i h
      have := congrArg List.length h
      simp only [List.length_take, List.length_replicate] at this
      simp only [List.length_append, List.length_take, List.length_drop, List.length_replicate, List.length_cons,
        List.length_nil]
      omega
    · rfl
  opens r m out h := by
    simp only [toySign] at h ⊢
    rw [if_pos (by rfl)]
    refine ⟨rfl, ?_⟩
    simp only [List.replicate, List.cons_append, List.nil_append, List.drop_succ_cons, List.drop_zero]
    rw [List.take_append_of_le_length (by simp; omega), List.take_take, Nat.min_eq_left (by omega), List.take_left]

/-- C41. The natural way to read the result, `extract_message` of the vector filled by `sign_open`, is not promised to
give the message: for a scheme obeying the contract it gives something else (the function is meant for the *signed*
message). -/
theorem C41_extract_after_open_refuted :
    ∃ (P : SignPrim) (r : P.Rand) (o : Dilithium) (m sm out m' : Bytes), SignContract P ∧ Dilithium.generate P r = ok o ∧
      o.sign P m = ok sm ∧ Dilithium.signOpen P [] sm o.pk = ok (true, out) ∧ Dilithium.extractMessage P out = ok m' ∧
      m' ≠ m :=
  ⟨toySign, (7 : UInt8), ⟨[7], [7]⟩, [1, 2, 3], [7, 7, 1, 2, 3], [1, 2, 3, 0, 0], [3, 0, 0], toySign_contract,
    by decide, by decide, by decide, by decide, by decide⟩

/-- C41. The JS `sign_open` does not report whether the signature was good: for a scheme obeying the contract it gives
the same text for a signed message and for a corrupted one. -/
theorem C41_js_open_verdict_lost_refuted :
    ∃ (P : SignPrim) (pk sm bad buf t : Bytes), SignContract P ∧ Dilithium.signOpen P [] sm pk = ok (true, t) ∧
      Dilithium.signOpen P buf bad pk = ok (false, t) ∧
      Js.dilSignOpen P [] (hexOf sm) (hexOf pk) = ok (hexOf t) ∧ Js.dilSignOpen P buf (hexOf bad) (hexOf pk) = ok (hexOf t) := by
  refine ⟨toySign, [7], [7, 7, 1], [7, 6, 1], [1, 0, 0], [1, 0, 0], toySign_contract, by decide, by decide, ?_, ?_⟩
  · simp only [Js.dilSignOpen, ← C01_hex_encoding, C01_hex_roundtrip, ok_bind]
    rw [show Dilithium.signOpen toySign [] [7, 7, 1] [7] = ok (true, [1, 0, 0]) by decide]
    rfl
  · simp only [Js.dilSignOpen, ← C01_hex_encoding, C01_hex_roundtrip, ok_bind]
    rw [show Dilithium.signOpen toySign [1, 0, 0] [7, 6, 1] [7] = ok (false, [1, 0, 0]) by decide]
    rfl

/-- C41. The JS wrappers are the C++ calls on hex text: construction, encoding and decoding with the hex of the byte
arguments, and `sign` giving the hex of the signed message. -/
theorem C41_js_hex (P : KemPrim) (r : P.Rand) (Q : SignPrim) (k : Kyber) (d : Dilithium) (a b : Bytes) :
    Js.kyberFromKeys P (hexOf a) (hexOf b) = Kyber.fromKeys P a b ∧
    Js.kyberEncode P r k (hexOf a) = k.kemEncode P r a ∧
    Js.kyberDecode P k (hexOf a) = k.kemDecode P a ∧
    Js.dilSign Q d (hexOf a) = (d.sign Q a >>= fun sm => ok (hexOf sm)) := by
  simp only [Js.kyberFromKeys, Js.kyberEncode, Js.kyberDecode, Js.dilSign, ← C01_hex_encoding, C01_hex_roundtrip, ok_bind,
    and_self]

/-- C41. The JS `extract_message` never gives a result: it throws on text that is not hex and is undefined otherwise. -/
theorem C41_js_extract_refuted (s t : Bytes) : Js.dilExtractMessage s ≠ ok t := by
  rw [Js.dilExtractMessage]
  cases hstr2bin s <;> simp

/-- A KEM obeying the contract: the shared key is the public byte plus a random one. -/
def toyKem : KemPrim where
  pkBytes := 1
  skBytes := 1
  ctBytes := 1
  symBytes := 1
  Rand := UInt8
  keypair r := ([r], [r])
  enc r pk := (0, [r], [r + pk.headD 0])
  dec ct sk := (0, [ct.headD 0 + sk.headD 0])

example : KemContract toyKem where
  pk_size _ := rfl
  sk_size _ := rfl
  ct_size _ _ := rfl
  key_size _ _ := rfl
  dec_size _ _ := rfl
  enc_ok _ _ := rfl
  agree _ _ := rfl

example : Kyber.fromKeys toyKem [1] [2] = ok ⟨[1], [2], [], []⟩ ∧
    Kyber.fromKeys toyKem [1, 1] [2] = .throw .invalidArgument := by decide

end Qrl.Props
