import Verif.Spec.KyberHistory
import Verif.Props.Pq
import Verif.Props.RustPq
/-!
# C72: a Kyber object over any history of calls
-/

namespace Qrl.Props

open Outcome Spec

theorem kem_call {P : KemPrim} (hP : KemContract P) (o : Kyber) (hsk : o.sk.length = P.skBytes) (c : KemCall P.Rand) (hc : c.Fits P) :
    Kyber.call P o c = ok (c.verdict P o.sk, { o with key := c.key P o.sk, ct := if c.isEncode then c.ct P else o.ct }) := by
  cases c with
  | encode r pk =>
    have h : P.pkBytes ≤ pk.length := hc
    simp only [Spec.Kyber.call, Kyber.kemEncode, slice_prefix h, ok_bind, fillBuffer_exact (hP.ct_size _ _),
      fillBuffer_exact (hP.key_size _ _)]
    rfl
  | decode ct =>
    have h : P.ctBytes ≤ ct.length := hc
    simp only [Spec.Kyber.call, Kyber.kemDecode, slice_prefix h, slice_prefix (Nat.le_of_eq hsk.symm), ok_bind,
      fillBuffer_exact (hP.dec_size _ _), List.take_of_length_le (Nat.le_of_eq hsk)]
    rfl

theorem kem_call_ub {P : KemPrim} (o : Kyber) (c : KemCall P.Rand) (hc : ¬ c.Fits P) : Kyber.call P o c = .ub := by
  cases c with
  | encode r pk =>
    have h : pk.length < P.pkBytes := Nat.lt_of_not_le hc
    rw [Spec.Kyber.call, Kyber.kemEncode, slice_short h]; rfl
  | decode ct =>
    have h : ct.length < P.ctBytes := Nat.lt_of_not_le hc
    rw [Spec.Kyber.call, Kyber.kemDecode, slice_short h]; rfl

/-- C72. Over any history of `kem_encode` and `kem_decode` calls with arguments of at least the size the primitives read, a Kyber
object keeps its two own keys; `getMyKey` is the key of the last call, whatever that call returned; `getCypherText` is that of the
last `kem_encode`. -/
theorem C72_history (P : KemPrim) (hP : KemContract P) (cs : List (KemCall P.Rand)) : ∀ (o : Kyber), o.sk.length = P.skBytes →
    (∀ c ∈ cs, c.Fits P) → ∃ o', kemRun (Kyber.call P) o cs = some (cs.map (fun c => some (c.verdict P o.sk)), o') ∧
      o'.pk = o.pk ∧ o'.sk = o.sk ∧
      o'.key = (match cs.getLast? with
        | none => o.key
        | some c => c.key P o.sk) ∧
      o'.ct = (match (cs.filter KemCall.isEncode).getLast? with
        | none => o.ct
        | some c => c.ct P) := by
  induction cs with
  | nil => intro o _ _; exact ⟨o, rfl, rfl, rfl, rfl, rfl⟩
  | cons c cs ih =>
    intro o hsk hf
    have h1 := kem_call hP o hsk c (hf c (List.mem_cons_self ..))
    obtain ⟨o', h2, h3, h4, h5, h6⟩ := ih { o with key := c.key P o.sk, ct := if c.isEncode then c.ct P else o.ct } hsk
      (fun d hd => hf d (List.mem_cons_of_mem _ hd))
    refine ⟨o', ?_, h3, h4, ?_, ?_⟩
    · rw [kemRun, h1]; simp only; rw [h2]; rfl
    · rw [h5]
      cases cs with
      | nil => rfl
      | cons d ds =>
        rw [List.getLast?_cons_cons]
        cases hg : (d :: ds).getLast? with
        | none => simp at hg
        | some e => rfl
    · rw [h6]
      by_cases he : c.isEncode = true
      · rw [List.filter_cons_of_pos he]
        cases hg : cs.filter KemCall.isEncode with
        | nil => simp only [List.getLast?_nil, List.getLast?_singleton]; exact if_pos he
        | cons d ds =>
          rw [List.getLast?_cons_cons]
          cases hh : (d :: ds).getLast? with
          | none => simp at hh
          | some e => rfl
      · rw [List.filter_cons_of_neg he]
        cases (cs.filter KemCall.isEncode).getLast? with
        | none => exact if_neg he
        | some e => rfl

/-- C72. A single argument that is too short, anywhere in the history, makes it undefined: nothing throws before. -/
theorem C72_short_argument_refuted (P : KemPrim) (hP : KemContract P) (cs : List (KemCall P.Rand)) : ∀ (o : Kyber),
    o.sk.length = P.skBytes → (∃ c ∈ cs, ¬ c.Fits P) → kemRun (Kyber.call P) o cs = none := by
  induction cs with
  | nil => intro o _ ⟨c, hc, _⟩; simp at hc
  | cons d cs ih =>
    intro o hsk ⟨c, hc, hn⟩
    by_cases hd : d.Fits P
    · rw [kemRun, kem_call hP o hsk d hd]
      simp only
      rw [ih { o with key := d.key P o.sk, ct := if d.isEncode then d.ct P else o.ct } hsk]
      refine ⟨c, ?_, hn⟩
      rcases List.mem_cons.mp hc with rfl | h
      · exact absurd hd hn
      · exact h
    · rw [kemRun, kem_call_ub o d hd]

/-- C72. A key exchange works at any point of the lives of the two objects: Alice was generated and made any calls before; so did
Bob, who then encodes to the public key she reports; whatever Bob decodes and whatever Alice does after that, the cypher text Bob
reports gives Alice the key Bob got. -/
theorem C72_exchange (P : KemPrim) (hP : KemContract P) (s r : P.Rand) (alice0 alice1 alice2 bob0 bob1 bob2 bob3 : Kyber)
    (h0 : Kyber.generate P s = ok alice0) (hb : bob0.sk.length = P.skBytes)
    (as1 as2 bs1 bs2 : List (KemCall P.Rand)) (va1 va2 vb1 vb2 : List (Option Bool)) (v : Bool)
    (ha1 : kemRun (Kyber.call P) alice0 as1 = some (va1, alice1))
    (hb1 : kemRun (Kyber.call P) bob0 bs1 = some (vb1, bob1))
    (he : bob1.kemEncode P r alice1.pk = ok (v, bob2))
    (ha2 : kemRun (Kyber.call P) alice1 as2 = some (va2, alice2))
    (hb2 : kemRun (Kyber.call P) bob2 bs2 = some (vb2, bob3)) (hd : ∀ c ∈ bs2, c.isEncode = false) :
    v = true ∧ ∃ alice3, alice2.kemDecode P bob3.ct = ok (true, alice3) ∧ alice3.key = bob2.key := by
  have run_inv : ∀ (o o' : Kyber) (cs : List (KemCall P.Rand)) (w : List (Option Bool)), o.sk.length = P.skBytes →
      kemRun (Kyber.call P) o cs = some (w, o') → o'.pk = o.pk ∧ o'.sk = o.sk ∧
        ((∀ c ∈ cs, c.isEncode = false) → o'.ct = o.ct) := by
    intro o o' cs w hsk hrun
    have hf : ∀ c ∈ cs, c.Fits P := by
      intro c hc
      apply Classical.byContradiction
      intro hn
      rw [C72_short_argument_refuted P hP cs o hsk ⟨c, hc, hn⟩] at hrun
      cases hrun
    obtain ⟨o2, g1, g2, g3, _, g5⟩ := C72_history P hP cs o hsk hf
    rw [hrun] at g1
    obtain rfl : o' = o2 := congrArg Prod.snd (Option.some.inj g1)
    refine ⟨g2, g3, fun hne => ?_⟩
    rw [g5, List.filter_eq_nil_iff.mpr (fun c hc => by rw [hne c hc]; decide)]
    rfl
  have e0 : alice0 = { pk := (P.keypair s).1, sk := (P.keypair s).2, key := [], ct := [] } := by
    have := h0
    simp only [Kyber.generate, fillBuffer_exact (hP.pk_size s), fillBuffer_exact (hP.sk_size s), ok_bind] at this
    exact (Outcome.ok.inj this).symm
  have hs0 : alice0.sk.length = P.skBytes := by rw [e0]; exact hP.sk_size s
  obtain ⟨a1, a2, _⟩ := run_inv _ _ _ _ hs0 ha1
  obtain ⟨a3, a4, _⟩ := run_inv _ _ _ _ (by rw [a2]; exact hs0) ha2
  obtain ⟨b1, b2, _⟩ := run_inv _ _ _ _ hb hb1
  have hpk : alice1.pk = (P.keypair s).1 := by rw [a1, e0]
  have hsk : alice2.sk = (P.keypair s).2 := by rw [a4, a2, e0]
  have hfit : (KemCall.encode r alice1.pk).Fits P := by show P.pkBytes ≤ alice1.pk.length; rw [hpk, hP.pk_size s]; exact Nat.le_refl _
  have hen := kem_call hP bob1 (by rw [b2]; exact hb) (.encode r alice1.pk) hfit
  have hen' : bob1.kemEncode P r alice1.pk = _ := hen
  rw [he] at hen'
  have htk : alice1.pk.take P.pkBytes = (P.keypair s).1 := by rw [hpk]; exact List.take_of_length_le (Nat.le_of_eq (hP.pk_size s))
  have e1 := congrArg Prod.fst (Outcome.ok.inj hen')
  have e2 := congrArg Prod.snd (Outcome.ok.inj hen')
  simp only [KemCall.verdict, KemCall.key, KemCall.ct, KemCall.isEncode, htk, hP.enc_ok, if_true] at e1 e2
  have hsk2 : bob2.sk.length = P.skBytes := by rw [e2]; show bob1.sk.length = _; rw [b2]; exact hb
  obtain ⟨_, _, c3⟩ := run_inv _ _ _ _ hsk2 hb2
  have hct : bob3.ct = (P.enc r (P.keypair s).1).2.1 := by rw [c3 hd, e2]
  have hk : bob2.key = (P.enc r (P.keypair s).1).2.2 := by rw [e2]
  have hdec := kem_call hP alice2 (by rw [hsk]; exact hP.sk_size s) (.decode bob3.ct) (by
    show P.ctBytes ≤ bob3.ct.length; rw [hct, hP.ct_size]; exact Nat.le_refl _)
  have hdec' : alice2.kemDecode P bob3.ct = _ := hdec
  refine ⟨e1, { alice2 with key := (P.enc r (P.keypair s).1).2.2 }, hdec'.trans ?_, hk.symm⟩
  · have htc : bob3.ct.take P.ctBytes = (P.enc r (P.keypair s).1).2.1 := by
      rw [hct]; exact List.take_of_length_le (Nat.le_of_eq (hP.ct_size _ _))
    simp only [KemCall.verdict, KemCall.key, KemCall.isEncode, htc, hsk, hP.agree]
    rfl

theorem toyKem_contract : KemContract toyKem where
  pk_size _ := rfl
  sk_size _ := rfl
  ct_size _ _ := rfl
  key_size _ _ := rfl
  dec_size _ _ := rfl
  enc_ok _ _ := rfl
  agree _ _ := rfl

/-- C72, refuted: that `getMyKey` and `getCypherText` belong together. After Bob encodes to Alice and then decodes a cypher text
of somebody else, his cypher text is still the one for Alice, but the key Alice gets from it is not Bob's any more. -/
theorem C72_stale_cyphertext_refuted :
    ∃ (P : KemPrim) (s r : P.Rand) (alice alice' bob bob1 bob2 : Kyber) (other : Bytes), KemContract P ∧
      Kyber.generate P s = ok alice ∧ bob.sk.length = P.skBytes ∧ bob.kemEncode P r alice.pk = ok (true, bob1) ∧
      bob1.kemDecode P other = ok (true, bob2) ∧ bob2.ct = bob1.ct ∧ alice.kemDecode P bob2.ct = ok (true, alice') ∧
      alice'.key = bob1.key ∧ alice'.key ≠ bob2.key :=
  ⟨toyKem, (3 : UInt8), (5 : UInt8), ⟨[3], [3], [], []⟩, ⟨[3], [3], [8], []⟩, ⟨[9], [9], [], []⟩, ⟨[9], [9], [8], [5]⟩,
    ⟨[9], [9], [10], [5]⟩, [1], toyKem_contract, by decide, by decide, by decide, by decide, by decide, by decide, by decide, by decide⟩

/-- A KEM that keeps the contract and reports failure on one cypher text. -/
def pickyKem : KemPrim where
  pkBytes := 1
  skBytes := 1
  ctBytes := 1
  symBytes := 1
  Rand := Bool
  keypair r := ([r.toUInt8], [r.toUInt8])
  enc r _ := (0, [r.toUInt8], [r.toUInt8 + 40])
  dec ct _ := if ct.headD 0 = 7 then (-1, [0]) else (0, [ct.headD 0 + 40])

theorem pickyKem_contract : KemContract pickyKem where
  pk_size _ := rfl
  sk_size _ := rfl
  ct_size _ _ := rfl
  key_size _ _ := rfl
  dec_size ct sk := by simp only [pickyKem]; split <;> rfl
  enc_ok _ _ := rfl
  agree r s := by cases r <;> cases s <;> rfl

/-- C72, refuted: that a call which returns `false` has no effect. A failed `kem_decode` replaces the key. -/
theorem C72_failed_decode_refuted :
    ∃ (P : KemPrim) (r : P.Rand) (alice alice' bob bob1 : Kyber) (bad : Bytes), KemContract P ∧ Kyber.generate P r = ok alice ∧
      bob.kemEncode P r alice.pk = ok (true, bob1) ∧ bob1.kemDecode P bad = ok (false, alice') ∧ alice'.key ≠ bob1.key :=
  ⟨pickyKem, true, ⟨[1], [1], [], []⟩, ⟨[2], [2], [0], [1]⟩, ⟨[2], [2], [], []⟩, ⟨[2], [2], [41], [1]⟩, [7], pickyKem_contract,
    by decide, by decide, by decide, by decide⟩

/-- C72. Through JS (arguments in 7-bit text): a call whose text is not hex throws and changes nothing; every other call is the C++ call on the bytes of the
text. So a JS history is the C++ history of its hex calls, and the getters report the hex of what C++ reports. -/
theorem C72_js_history (P : KemPrim) (hP : KemContract P) (cs : List (KemCall P.Rand)) : ∀ (o : Kyber), o.sk.length = P.skBytes →
    (∀ c ∈ cs, ∀ x ∈ c.arg, x < 128) → (∀ c ∈ cs, ∀ d, c.ofText = some d → d.Fits P) →
    ∃ o', kemRun (Js.call P) o cs = some (cs.map (fun c => c.ofText.map (KemCall.verdict P o.sk)), o') ∧
      kemRun (Kyber.call P) o (cs.filterMap KemCall.ofText) =
        some ((cs.filterMap KemCall.ofText).map (fun d => some (d.verdict P o.sk)), o') ∧
      Js.kyberGetPK o' = hexOf o'.pk ∧ Js.kyberGetSK o' = hexOf o'.sk ∧ Js.kyberGetMyKey o' = hexOf o'.key ∧
      Js.kyberGetCypherText o' = hexOf o'.ct ∧ Js.kyberGetPKRaw o' = o'.pk ∧ Js.kyberGetSKRaw o' = o'.sk := by
  induction cs with
  | nil =>
    intro o _ _ _
    refine ⟨o, rfl, rfl, ?_, ?_, ?_, ?_, rfl, rfl⟩ <;> exact C01_hex_encoding _
  | cons c cs ih =>
    intro o hsk h7 hf
    have h7' := fun d hd => h7 d (List.mem_cons_of_mem c hd)
    have h7c := (C02_hex_accepts c.arg (h7 c (List.mem_cons_self ..))).2
    cases ht : c.ofText with
    | none =>
      have hth : ∃ e, Js.call P o c = .throw e := by
        cases c with
        | encode r t =>
          rcases h7c with ⟨v, hv⟩ | hv
          · rw [KemCall.ofText, show hstr2bin t = ok v from hv] at ht; cases ht
          · exact ⟨_, by rw [Js.call, Js.kyberEncode, show hstr2bin t = .throw .invalidArgument from hv]; rfl⟩
        | decode t =>
          rcases h7c with ⟨v, hv⟩ | hv
          · rw [KemCall.ofText, show hstr2bin t = ok v from hv] at ht; cases ht
          · exact ⟨_, by rw [Js.call, Js.kyberDecode, show hstr2bin t = .throw .invalidArgument from hv]; rfl⟩
      obtain ⟨e, hth⟩ := hth
      obtain ⟨o', h1, h2, h3⟩ := ih o hsk h7' (fun d hd => hf d (List.mem_cons_of_mem _ hd))
      refine ⟨o', ?_, ?_, h3⟩
      · rw [kemRun, hth]; simp only; rw [h1, List.map_cons, ht]; rfl
      · rw [List.filterMap_cons_none ht]; exact h2
    | some d =>
      have hcall : Js.call P o c = Kyber.call P o d := by
        cases c with
        | encode r t =>
          rw [KemCall.ofText] at ht
          cases hv : hstr2bin t with
          | ok v => rw [hv] at ht; cases ht; rw [Js.call, Js.kyberEncode, hv]; rfl
          | throw e => rw [hv] at ht; cases ht
          | ub => rw [hv] at ht; cases ht
        | decode t =>
          rw [KemCall.ofText] at ht
          cases hv : hstr2bin t with
          | ok v => rw [hv] at ht; cases ht; rw [Js.call, Js.kyberDecode, hv]; rfl
          | throw e => rw [hv] at ht; cases ht
          | ub => rw [hv] at ht; cases ht
      have h0 := kem_call hP o hsk d (hf c (List.mem_cons_self ..) d ht)
      obtain ⟨o', h1, h2, h3⟩ := ih { o with key := d.key P o.sk, ct := if d.isEncode then d.ct P else o.ct } hsk h7'
        (fun d hd => hf d (List.mem_cons_of_mem _ hd))
      refine ⟨o', ?_, ?_, h3⟩
      · rw [kemRun, hcall, h0]; simp only; rw [h1, List.map_cons, ht]; rfl
      · rw [List.filterMap_cons_some ht, kemRun, h0]; simp only; rw [h2]; rfl

/-- C72. The JS Dilithium getters report the hex of the keys the object was built from; a text that is not hex is refused. -/
theorem C72_js_dilithium (pk sk : Bytes) :
    (∃ o, Js.dilFromKeys (hexOf pk) (hexOf sk) = ok o ∧ Js.dilGetPK o = hexOf pk ∧ Js.dilGetSK o = hexOf sk ∧
      Js.dilGetPKRaw o = pk ∧ Js.dilGetSKRaw o = sk) ∧
    ∀ (t u : Bytes) (o : Dilithium), Js.dilFromKeys t u = ok o → Js.dilGetPK o = t.map lower ∧ Js.dilGetSK o = u.map lower := by
  constructor
  · refine ⟨⟨pk, sk⟩, ?_, C01_hex_encoding _, C01_hex_encoding _, rfl, rfl⟩
    simp only [Js.dilFromKeys, ← C01_hex_encoding, C01_hex_roundtrip, ok_bind]
    rfl
  · intro t u o h
    rw [Js.dilFromKeys] at h
    obtain ⟨p, h1, h⟩ := bind_eq_ok.mp h
    obtain ⟨s, h2, h⟩ := bind_eq_ok.mp h
    cases h
    exact ⟨C02_hex_canonical t p h1, C02_hex_canonical u s h2⟩

/-- C72. The same in the Rust port: keys never change, the secret is that of the last call, the cypher text that of the last
`kem_encode` (before any, the one the constructor made for the own key). -/
theorem C72_rust_history (P : Rs.KemCrate) (cs : List (KemCall P.Rand)) : ∀ (o : Rs.Kyber),
    (rustKemRun P o cs).pk = o.pk ∧ (rustKemRun P o cs).sk = o.sk ∧
    (rustKemRun P o cs).ss = (match cs.getLast? with
      | none => o.ss
      | some c => c.rustSecret P o.sk) ∧
    (rustKemRun P o cs).ct = (match (cs.filter KemCall.isEncode).getLast? with
      | none => o.ct
      | some c => c.rustCt P) := by
  induction cs with
  | nil => intro o; exact ⟨rfl, rfl, rfl, rfl⟩
  | cons c cs ih =>
    intro o
    obtain ⟨o1, ho1⟩ : ∃ o1, o1 = rustKemRun P o [c] := ⟨_, rfl⟩
    have hrun : rustKemRun P o (c :: cs) = rustKemRun P o1 cs := by rw [ho1]; rfl
    have h1 : o1.pk = o.pk ∧ o1.sk = o.sk ∧ o1.ss = c.rustSecret P o.sk ∧ o1.ct = if c.isEncode then c.rustCt P else o.ct := by
      rw [ho1]; cases c <;> exact ⟨rfl, rfl, rfl, rfl⟩
    obtain ⟨h3, h4, h5, h6⟩ := ih o1
    rw [hrun]
    refine ⟨h3.trans h1.1, h4.trans h1.2.1, ?_, ?_⟩
    · rw [h5, h1.2.1]
      cases cs with
      | nil => exact h1.2.2.1
      | cons d ds =>
        rw [List.getLast?_cons_cons]
        cases hg : (d :: ds).getLast? with
        | none => simp at hg
        | some e => rfl
    · rw [h6]
      by_cases he : c.isEncode = true
      · rw [List.filter_cons_of_pos he]
        cases hg : cs.filter KemCall.isEncode with
        | nil => simp only [List.getLast?_nil, List.getLast?_singleton]; exact h1.2.2.2.trans (if_pos he)
        | cons d ds =>
          rw [List.getLast?_cons_cons]
          cases hh : (d :: ds).getLast? with
          | none => simp at hh
          | some e => rfl
      · rw [List.filter_cons_of_neg he]
        cases (cs.filter KemCall.isEncode).getLast? with
        | none => exact h1.2.2.2.trans (if_neg he)
        | some e => rfl

/-- A history that meets the hypotheses of `C72_history`: Bob encodes to a key, decodes, encodes again. -/
example : kemRun (Kyber.call toyKem) ⟨[9], [9], [], []⟩ [.encode (5 : UInt8) [3], .decode [1], .encode (6 : UInt8) [3, 77], .decode [2]] =
    some ([some true, some true, some true, some true], ⟨[9], [9], [11], [6]⟩) := by decide

/-- A JS history with a call that throws: `"zz"` is not hex. -/
example : kemRun (Js.call toyKem) ⟨[9], [9], [], []⟩ [.encode (5 : UInt8) [48, 51], .decode [122, 122], .decode [48, 50]] =
    some ([some true, none, some true], ⟨[9], [9], [11], [5]⟩) := by decide

end Qrl.Props
