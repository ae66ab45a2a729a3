import Verif.Props.Binding
import Verif.Spec.Signed
/-!
# C64: what a forgery would take
-/

namespace Qrl.Props

open Outcome Qrl.Spec

theorem counterRun_pairs (limit : Nat) (σ : Nat → Bytes → Bytes) (cs : List Call) : ∀ i,
    ∀ x ∈ signedPairs cs (counterRun limit σ i cs).1, ∃ k, k < limit ∧ x.2 = σ k x.1 := by
  induction cs with
  | nil => intro i x hx; simp [signedPairs] at hx
  | cons c cs ih =>
    intro i x hx
    simp only [counterRun, signedPairs, List.zip_cons_cons, List.filterMap_cons] at hx
    cases c with
    | setIndex n =>
      simp only [counterCall] at hx
      split at hx
      · exact ih _ x hx
      · exact ih _ x hx
    | sign m =>
      simp only [counterCall] at hx
      by_cases hl : i < limit
      · simp only [hl, if_true] at hx
        rcases List.mem_cons.mp hx with rfl | hx
        · exact ⟨i, hl, rfl⟩
        · exact ih _ x hx
      · simp only [hl, if_false] at hx
        exact ih _ x hx

/-- Everything a signer returns verifies under its public key. -/
theorem signed_verify {S : Sha256} {seed : Bytes} {height : UInt8} {hf af : Nat} {o0 : XmssFast}
    (hnew : XmssFast.new S seed height hf af = ok o0) {cs : List Call} {rs : List Reply} {o : XmssFast}
    (hrun : runCalls (XmssFast.call S) o0 cs = some (rs, o)) {pk : Bytes} (hpk : o0.getPK = ok pk) :
    ∀ x ∈ signedPairs cs rs, verify S x.1 x.2 pk 16 = ok true := by
  intro x hx
  obtain ⟨f, p, k, q, j, hf1, hf2, hg, hs, rfl, e2, e5, hp, H, hj, hgi, hrs, _, _⟩ := fast_reach hnew hrun
  rw [hrs] at hx
  obtain ⟨i, hi, hxi⟩ := counterRun_pairs _ _ cs 0 x hx
  obtain ⟨pk', hpk', hv⟩ := verify_honest S f (w := 16) (by omega)
    (keyOf S f 16 o0.height.toNat (lenW_pos (by omega)) seed)
    o0.toXmssBase 0 H.hsk H.hof H.hh H.hroot i hi x.1
  have : o0.getPK = ok pk' := hpk'
  rw [hpk] at this
  cases this
  rw [hxi]
  exact hv

/-- Some chain of every signature is revealed before its end. -/
theorem some_digit_small (m : Bytes) (hm : m.length = 32) :
    ∃ (ch d : Nat), (wotsDigits 16 m)[ch]? = some d ∧ d < 15 := by
  have hw : 16 = 2 ∨ 16 = 4 ∨ 16 = 16 ∨ 16 = 256 := by omega
  obtain ⟨p, k, q, hp, hsp, _⟩ := base_ok hw
  have main : ∀ m' : Bytes, m'.length = 32 → m' ≠ m → ∃ (ch d : Nat), (wotsDigits 16 m)[ch]? = some d ∧ d < 15 := by
    intro m' hm' hne
    obtain ⟨ch, d, d', f1, f2, f3⟩ := C24_no_forward_forgery 16 (by omega) p hp m' m hm' hm hne _ _
      (signDigits_spec hsp _ hm') (signDigits_spec hsp _ hm)
    have := wotsDigits_lt hsp m' hm' d (List.mem_of_getElem? f1)
    exact ⟨ch, d', f2, by omega⟩
  by_cases h : List.replicate 32 (0 : UInt8) = m
  · exact main (List.replicate 32 1) (by simp) (by rw [← h]; decide)
  · exact main _ (by simp) h

/-- C64. For every signer, history and pair accepted under its public key: the pair is one the signer returned; or two
of the hash calls made by these verifications and by key generation collide; or in some chain of the one-time key it
names the pair carries a value strictly before (and hashing forward to) the value that the signer has published: the
one in the signature it returned with that one-time key, or, if it never used that key, the end of the chain. -/
theorem C64_forgery (S : Sha256) (seed : Bytes) (height : UInt8) (hf : HashFn) (af : Nat) (o0 : XmssFast)
    (hnew : XmssFast.new S seed height hf.toNat af = ok o0) (pk : Bytes) (hpk : o0.getPK = ok pk)
    (cs : List Call) (rs : List Reply) (o : XmssFast) (hrun : runCalls (XmssFast.call S) o0 cs = some (rs, o))
    (msg sig : Bytes) (h : verify S msg sig pk 16 = ok true) :
    (msg, sig) ∈ signedPairs cs rs ∨
    Collides (hf.prim S) (verifyCalls (hf.prim S) 16 msg sig pk ++
      (signedPairs cs rs).flatMap (fun x => verifyCalls (hf.prim S) 16 x.1 x.2 pk) ++
      nodeCalls (hf.prim S) 16 67 ((shake256 96 seed).take 32) ((shake256 96 seed).drop 64) height.toNat 0) ∨
    ∃ ch d e y, (sigDigits (hf.prim S) 16 (keyRoot pk) msg sig)[ch]? = some d ∧ d < e ∧
      LeadsTo (hf.prim S) (keySeed pk) (sigIndex sig) ch d (sigChain sig ch) e y ∧
      ((∃ x ∈ signedPairs cs rs, sigIndex x.2 = sigIndex sig ∧
          (sigDigits (hf.prim S) 16 (keyRoot pk) x.1 x.2)[ch]? = some e ∧ y = sigChain x.2 ch) ∨
       ((∀ x ∈ signedPairs cs rs, sigIndex x.2 ≠ sigIndex sig) ∧ e = 15 ∧
          y = chain (hf.prim S) ((shake256 96 seed).drop 64) (sigIndex sig) ch 0 15
            (wotsSecret (hf.prim S) ((shake256 96 seed).take 32) (sigIndex sig) ch))) := by
  have hG := out32 S hf
  have hkh : HashFn.ofNat? (keyHash pk) = some hf ∧ keySeed pk = (shake256 96 seed).drop 64 := by
    obtain ⟨hs, hg, f, hf1, hf2, rfl, e2, e3, e4, p, k, q, hp, e5, HH⟩ := fast_fresh hnew
    rw [ofNat?_toNat] at hf2
    cases hf2
    have hpk' := getPK_eq _ o0.toXmssBase 0 HH.hsk
    rw [hpk'] at hpk
    cases hpk
    obtain ⟨f1, f2, f3, f4, f5⟩ := pk_fields (keyOf S hf 16 o0.height.toNat (lenW_pos (by omega)) seed) o0.toXmssBase hf
      e2 hg
    rw [f2, ofNat?_toNat]
    exact ⟨rfl, f5⟩
  by_cases hused : ∃ x ∈ signedPairs cs rs, sigIndex x.2 = sigIndex sig
  · obtain ⟨x, hx, hidx⟩ := hused
    have hv := signed_verify hnew hrun hpk x hx
    obtain ⟨hf', hh, hor⟩ := C25_no_second_message S msg x.1 sig x.2 pk 16 (by omega) h hv hidx.symm
    rw [hkh.1] at hh
    cases hh
    rcases hor with ⟨e1, e2⟩ | hc | ⟨ch, d, d', f1, f2, f3, f4⟩
    · left
      rw [e1, e2]
      exact hx
    · right; left
      refine hc.mono ?_
      intro z hz
      simp only [List.mem_append, List.mem_flatMap] at hz ⊢
      rcases hz with hz | hz
      · exact Or.inl (Or.inl hz)
      · exact Or.inl (Or.inr ⟨x, hx, hz⟩)
    · right; right
      exact ⟨ch, d, d', _, f1, f3, f4, Or.inl ⟨x, hx, hidx, f2, rfl⟩⟩
  · have hun : ∀ x ∈ signedPairs cs rs, sigIndex x.2 ≠ sigIndex sig := fun x hx he => hused ⟨x, hx, he⟩
    rcases C25_honest_key S seed height hf af o0 hnew pk hpk msg sig h with ⟨_, _, hall⟩ | hc
    · right; right
      obtain ⟨ch, d, f1, f2⟩ := some_digit_small (digest (hf.prim S) ((sig.drop 4).take 32) (keyRoot pk) (sigIndex sig) msg)
        (hG _)
      have hlt : ch < 67 := by
        have hw4 : 16 = 2 ∨ 16 = 4 ∨ 16 = 16 ∨ 16 = 256 := by omega
        obtain ⟨p, k, q, hp, hsp, _⟩ := base_ok hw4
        have := (List.getElem?_eq_some_iff.mp f1).1
        have hdig : (digest (hf.prim S) ((sig.drop 4).take 32) (keyRoot pk) (sigIndex sig) msg).length = 32 := hG _
        rwa [length_wotsDigits hsp _ hdig, ← hsp.len, lenW_values.2.2.1] at this
      obtain ⟨d', g1, g2⟩ := hall ch hlt
      have : d' = d := Option.some.inj (g1.symm.trans f1)
      subst this
      refine ⟨ch, d', 15, _, g1, f2, ?_, Or.inr ⟨hun, rfl, rfl⟩⟩
      rw [hkh.2]
      exact g2
    · right; left
      refine hc.mono ?_
      intro z hz
      simp only [List.mem_append] at hz ⊢
      rcases hz with hz | hz
      · exact Or.inl (Or.inl hz)
      · exact Or.inr hz

/-- The hypotheses are met: a history with a skip, a refused rewind and two signatures, and a pair accepted under the
key that the signer did not return (a signature by another copy of the key with a key it skipped). -/
example : ∃ o0 pk rs o msg sig, XmssFast.new toySha zeroSeed 4 1 0 = ok o0 ∧ o0.getPK = ok pk ∧
    runCalls (XmssFast.call toySha) o0 [.sign [1], .setIndex 9, .setIndex 3, .sign [2]] = some (rs, o) ∧
    verify toySha msg sig pk 16 = ok true ∧ (msg, sig) ∉ signedPairs [.sign [1], .setIndex 9, .setIndex 3, .sign [2]] rs ∧
    (signedPairs [.sign [1], .setIndex 9, .setIndex 3, .sign [2]] rs).map Prod.fst = [[1], [2]] := by
  obtain ⟨o0, h⟩ := (C39_fast_succeeds toySha zeroSeed 4 1 0).mpr ⟨rfl, goodHeight4, by omega⟩
  obtain ⟨o, h1, h2⟩ := C19_fast_refines_counter toySha zeroSeed 4 .shake_128 0 o0 h
    [.sign [1], .setIndex 9, .setIndex 3, .sign [2]]
  obtain ⟨o', g1, g2⟩ := C19_fast_refines_counter toySha zeroSeed 4 .shake_128 0 o0 h [.setIndex 5]
  obtain ⟨_, s, _, pk, _, _, _, _, _, hpk, v, _⟩ := C12_fast_sign_verifies toySha zeroSeed _ _ 0 o0 h _ _ _ g1 5 g2
    (by decide) [3]
  have hst := (C26_fast_stable toySha zeroSeed 4 1 0 o0 h _ _ _ g1)
  have hpk0 : o0.getPK = ok pk := by
    rw [← hpk]; exact hst.2.2.2.2.1.symm
  exact ⟨o0, pk, _, o, [3], s, h, hpk0, h1, v, by simp [signedPairs, counterRun, counterCall], rfl⟩

end Qrl.Props
