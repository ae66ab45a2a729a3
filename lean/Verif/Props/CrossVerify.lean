import Verif.Props.CrossWallet
/-!
# C71: both implementations accept what the wallet signs
-/

namespace Qrl.Props

open Outcome Spec

/-- All signers of a wallet, of either implementation and build mode, have one public key `pk`; the C++ library accepts what it
signs, and the port, in either build mode, what the port signs. -/
theorem cross_accepted (S : Sha256) (seed : Bytes) (height : UInt8) (hf : HashFn) (hs : seed.length = 48) (hh : GoodHeight height) :
    ∃ c pk, XmssFast.new S seed height hf.toNat 0 = ok c ∧ c.getPK = ok pk ∧
      (∀ b, ∃ o, Rs.XMSSFast.new b S seed height hf 16 = .ok o ∧ o.getPk = .ok pk) ∧
      ∀ (i : Nat) (_ : i < 2 ^ height.toNat) (m : Bytes),
        verify S m (seedSignature S hf 16 height.toNat seed i m) pk 16 = ok true ∧
        ∀ b s, rustSignature S hf 16 height.toNat seed i m = some s → Rs.verify b S m s pk 16 = .ret () m := by
  obtain ⟨o, c, h1, h2, h3, hl, _⟩ := C51_fast_same_key .debug S seed height hf hs hh
  obtain ⟨_, _, _, _, _, ⟨pk, g1, g2⟩, _⟩ := C51_same_getters _ _ h3 hl
  have hrs : ∀ b : Rs.Build, ∃ o, Rs.XMSSFast.new b S seed height hf 16 = .ok o ∧ o.getPk = .ok pk := by
    intro b
    obtain ⟨o, c', k1, k2, k3, kl, _⟩ := C51_fast_same_key b S seed height hf hs hh
    rw [h2] at k2
    cases k2
    obtain ⟨_, _, _, _, _, ⟨pk', r1, r2⟩, _⟩ := C51_same_getters _ _ k3 kl
    rw [g2] at r2
    cases r2
    exact ⟨o, k1, r1⟩
  refine ⟨c, pk, h2, g2, hrs, fun i hi m => ⟨?_, fun b s hsig => ?_⟩⟩
  · obtain ⟨_, _, f, hf1, hf2, e1, e2, _, _, p, k, q, _, _, H⟩ := fast_fresh h2
    rw [ofNat?_toNat] at hf2
    cases hf2
    obtain ⟨pk', r1, r2⟩ := verify_honest S hf (w := 16) (by omega) (keyOf S hf 16 height.toNat (lenW_pos (by omega)) seed)
      c.toXmssBase 0 H.hsk e2 (by rw [e1]; exact hh) (by rw [e1]; rfl) i (by rw [e1]; exact hi) m
    rw [g2] at r1
    cases r1
    rw [e1] at r2
    exact r2
  · obtain ⟨_, _, _, o', e1, ef, eh, _, _, H⟩ := Rs.fast_new_rs (S := S) .debug seed height hf (w := 16) (by omega) hs hh
    rw [h1] at e1
    cases e1
    obtain ⟨pk', r1, r2⟩ := rust_sig_accepted b S seed height hf 16 (by omega) hh i hi m s hsig o.toXMSSBase 0 H.hsk ef eh
    rw [g1] at r1
    cases r1
    exact r2

/-- C71. **Whatever happened to the wallet before**, a signature it gives is accepted for the message it was asked to sign, under
the one public key all its signers report: by the implementation that signed, in any build mode; and by both implementations if
the message is short enough for the port to read in full. -/
theorem C71_sign_verifies (S : Sha256) (seed : Bytes) (height : UInt8) (hf : HashFn) (hs : seed.length = 48) (hh : GoodHeight height)
    (j : UInt32) (evs : List CrossEvent) (rs : List Reply) (v v' : CrossWallet) (m s : Bytes)
    (hrun : (CrossWallet.mk none (extendedSeedOf hf height seed) j).run S evs = some (rs, v))
    (hsign : v.run S [.call (.sign m)] = some ([.sig s], v')) :
    ∃ c pk, XmssFast.new S seed height hf.toNat 0 = ok c ∧ c.getPK = ok pk ∧
      (∀ b, ∃ o, Rs.XMSSFast.new b S seed height hf 16 = .ok o ∧ o.getPk = .ok pk) ∧
      (v.signer.map Signer.program = some .cpp → verify S m s pk 16 = ok true) ∧
      (∀ b, v.signer.map Signer.program = some (.rust b) → ∀ b', Rs.verify b' S m s pk 16 = .ret () m) ∧
      (rustShort hf m → verify S m s pk 16 = ok true ∧ ∀ b', Rs.verify b' S m s pk 16 = .ret () m) := by
  obtain ⟨c, pk, h1, h2, h3, h4⟩ := cross_accepted S seed height hf hs hh
  refine ⟨c, pk, h1, h2, h3, ?_⟩
  obtain ⟨sg, r1, r2⟩ := cross_run (S := S) (hf := hf) hs hh evs none none trivial j
  rw [hrun] at r1
  have hv := congrArg Prod.snd (Option.some.inj r1)
  simp only at hv
  obtain ⟨s', q1, q2⟩ := cross_step (S := S) (hf := hf) hs hh sg _ r2
    (crossRun (2 ^ height.toNat) (crossSignature S hf height.toNat seed) none j evs).2.2 (.call (.sign m))
  generalize (crossRun (2 ^ height.toNat) (crossSignature S hf height.toNat seed) none j evs).2 = z at *
  obtain ⟨x, j'⟩ := z
  simp only at hv r2 q1 q2
  subst hv
  rw [CrossWallet.run, q1] at hsign
  cases x with
  | none => simp [crossStep, CrossWallet.run] at hsign
  | some x =>
    obtain ⟨p, i⟩ := x
    cases sg with
    | none => exact r2.elim
    | some sg =>
      obtain ⟨f1, _, _⟩ := signerAt_facts r2
      simp only [crossStep, CrossWallet.run] at hsign
      by_cases hi : i < 2 ^ height.toNat
      · rw [if_pos hi] at hsign
        cases hx : crossSignature S hf height.toNat seed p i m with
        | none => rw [hx] at hsign; simp at hsign
        | some t =>
          rw [hx] at hsign
          simp only [Option.toList, List.append_nil, Option.some.injEq, Prod.mk.injEq, List.cons.injEq, Reply.sig.injEq,
            and_true] at hsign
          obtain ⟨rfl, _⟩ := hsign
          obtain ⟨a1, a2⟩ := h4 i hi m
          simp only [Option.map_some, f1, Option.some.injEq]
          cases p with
          | cpp =>
            cases hx
            refine ⟨fun _ => a1, fun b hb => (by cases hb), fun hm => ⟨a1, fun b' => a2 b' _ ?_⟩⟩
            rw [rustSignature, rustSigned_short hm]
            rfl
          | rust b =>
            have hx' : rustSignature S hf 16 height.toNat seed i m = some t := hx
            refine ⟨fun hb => (by cases hb), fun _ _ b' => a2 b' t hx', fun hm => ⟨?_, fun b' => a2 b' t hx'⟩⟩
            rw [rustSignature, rustSigned_short hm] at hx'
            cases hx'
            exact a1
      · rw [if_neg hi] at hsign
        simp at hsign

/-- The demonstration wallet, asked to sign once more: by a process of the port. -/
theorem cross_verify_demo (b : Rs.Build) (S : Sha256) (seed : Bytes) (height : UInt8) (hf : HashFn) (hs : seed.length = 48)
    (hh : GoodHeight height) (m1 m2 : Bytes) (hm : rustShort hf m2) :
    ∃ rs v v' s, (CrossWallet.mk none (extendedSeedOf hf height seed) 0).run S
        [.start .cpp, .save 2, .call (.sign m1), .crash, .start (.rust b)] = some (rs, v) ∧
      v.signer.map Signer.program = some (.rust b) ∧ v.run S [.call (.sign m2)] = some ([.sig s], v') := by
  have h16 : 2 ^ 4 ≤ 2 ^ height.toNat := Nat.pow_le_pow_right (by omega) hh.1
  have a0 : (0 : Nat) < 2 ^ height.toNat := by omega
  have a2 : (2 : Nat) < 2 ^ height.toNat := by omega
  have b2 : (2 : UInt32).toNat = 2 := rfl
  have b0 : (0 : UInt32).toNat = 0 := rfl
  have hr : crossSignature S hf height.toNat seed (.rust b) 2 m2 = some (seedSignature S hf 16 height.toNat seed 2 m2) := by
    show rustSignature S hf 16 height.toNat seed 2 m2 = _
    rw [rustSignature, rustSigned_short hm]; rfl
  have hc : ∀ i m, crossSignature S hf height.toNat seed .cpp i m = some (seedSignature S hf 16 height.toNat seed i m) := fun _ _ => rfl
  obtain ⟨sg, r1, r2⟩ := cross_run (S := S) (hf := hf) hs hh [.start .cpp, .save 2, .call (.sign m1), .crash, .start (.rust b)]
    none none trivial 0
  have e : crossRun (2 ^ height.toNat) (crossSignature S hf height.toNat seed) none 0
      [.start .cpp, .save 2, .call (.sign m1), .crash, .start (.rust b)] =
      ([.sig (seedSignature S hf 16 height.toNat seed 0 m1)], some (.rust b, 2), 2) := by
    simp [crossRun, crossStep, b0, b2, a0, a2, hc]
  rw [e] at r1 r2
  obtain ⟨s', q1, q2⟩ := cross_step (S := S) (hf := hf) hs hh sg _ r2 2 (.call (.sign m2))
  cases sg with
  | none => exact r2.elim
  | some sg =>
    refine ⟨_, _, ⟨s', extendedSeedOf hf height seed, 2⟩, seedSignature S hf 16 height.toNat seed 2 m2, r1, ?_, ?_⟩
    · simp only [Option.map_some, (signerAt_facts r2).1]
    · rw [CrossWallet.run, q1]
      simp only [crossStep, a2, if_true, hr, CrossWallet.run]
      rfl

example : ∃ rs v v' s, (CrossWallet.mk none (extendedSeedOf .shake_128 4 zeroSeed) 0).run toySha
        [.start .cpp, .save 2, .call (.sign [1]), .crash, .start (.rust .release)] = some (rs, v) ∧
      v.signer.map Signer.program = some (.rust .release) ∧ v.run toySha [.call (.sign [2])] = some ([.sig s], v') :=
  cross_verify_demo .release toySha zeroSeed 4 .shake_128 (by decide) goodHeight4 [1] [2] (show (1 : Nat) < 40 by decide)

end Qrl.Props
