import Verif.Proof.XmssN
import Verif.Props.WotsN
/-!
# C95: `xmss_Verifysig` for `n` other than 32 (src/xmss-alt/xmss_common.c)
-/

namespace Qrl.Props

open Outcome

/-- C94. For `n = 32` the parameters and the three functions of WOTS+ are those of the other claims, whatever the buffers held
before. -/
theorem C94_same_32 (S : Sha256) (hf : HashFn) (w : Nat) (p : WotsParams) (buf : List Slot) (hb : buf.length = p.len)
    (sig : List Bytes) (msg sk ps : Bytes) (a : Adrs) :
    wotsSetParamsN 32 w = wotsSetParams w ∧
    wotsPkgenN S hf.toNat 32 p buf sk ps a = ((wotsPkgen S hf p sk ps a).1.map some, (wotsPkgen S hf p sk ps a).2) ∧
    (∀ xs a', wotsSign S hf p msg sk ps a = ok (xs, a') → wotsSignN S hf.toNat 32 p buf msg sk ps a = ok (xs.map some, a')) ∧
    (∀ xs a', wotsPkFromSig S hf p sig msg ps a = ok (xs, a') →
      wotsPkFromSigN S hf.toNat 32 p (sig.map some) msg ps a = ok (xs.map some, a')) := by
  refine ⟨wotsSetParamsN_32 w, wotsPkgenN_32 S hf p buf hb sk ps a, ?_, ?_⟩
  · intro xs a' h; rw [wotsSignN_32 S hf p buf hb, h]; rfl
  · intro xs a' h; rw [wotsPkFromSigN_32, h]; rfl

/-- C95. For `n = 32`, a supported hash function and every height: exactly the verification of the other claims. -/
theorem C95_verify_32 (S : Sha256) (hf : HashFn) (p : WotsParams) (msg sig pk : Bytes) (h : Nat) (h1 : 1 ≤ h) (h2 : h ≤ 255) :
    xmssVerifysigN S hf.toNat 32 p msg sig pk h = xmssVerifysig S hf p msg sig pk h :=
  xmssVerifysigN_32 S hf p msg sig pk h h1 (by omega)

/-- C95. `n = 64` with SHAKE-128 or SHAKE-256 and buffers of the full size: the root is computed, but the counter `sig_msg_len`, which
starts from lengths for 32 bytes, has wrapped around to a value near `2^64` before the final loops. -/
theorem C95_counter_64 (S : Sha256) (hf w : Nat) (hhf : hf = 1 ∨ hf = 2) (hw : w = 2 ∨ w = 4 ∨ w = 16 ∨ w = 256)
    (p : WotsParams) (hp : wotsSetParamsN 64 w = ok p) (msg sig pk : Bytes) (h : Nat) (h1 : 1 ≤ h) (h2 : h ≤ 255)
    (hpk : 128 ≤ pk.length) (hsig : 4 + 64 + p.len * 64 + h * 64 ≤ sig.length) :
    ∃ (root : Bytes) (off : Nat), verifyRootN S hf 64 p msg sig pk h =
      ok (some root, pk.take 64, off, 2 ^ 64 - 32 * (1 + p.len + h)) := by
  have hG : ∃ G, Spec.hashN S hf 64 = some G := by
    rcases hhf with rfl | rfl
    · exact ⟨_, rfl⟩
    · exact ⟨_, rfl⟩
  obtain ⟨G, hG⟩ := hG
  obtain ⟨root, off, N, e⟩ := verifyRootN_written hG (by decide) (by decide) hw hp msg sig pk h h1 (by omega) hpk hsig
  have hN := ((verifyRootN_len S hf 64 p msg sig pk h).2 _ e).2
  refine ⟨root, off, ?_⟩
  rw [e]
  dsimp only at hN
  have hlen : p.len ≤ 522 ∧ p.keysize = p.len * 64 := by
    rcases hw with rfl | rfl | rfl | rfl
    · rw [show wotsSetParamsN 64 2 = ok ⟨512, 10, 522, 2, 1, 33408⟩ by decide +kernel] at hp; cases hp; decide
    · rw [show wotsSetParamsN 64 4 = ok ⟨256, 5, 261, 4, 2, 16704⟩ by decide +kernel] at hp; cases hp; decide
    · rw [show wotsSetParamsN 64 16 = ok ⟨128, 3, 131, 16, 4, 8384⟩ by decide +kernel] at hp; cases hp; decide
    · rw [show wotsSetParamsN 64 256 = ok ⟨64, 2, 66, 256, 8, 4224⟩ by decide +kernel] at hp; cases hp; decide
  have : N = 2 ^ 64 - 32 * (1 + p.len + h) := by
    rw [hN, hlen.2]
    unfold sub64
    omega
  rw [this]

/-- C95. For every `n` other than 32 (up to 4096), every hash function, height, message buffer below `2^63` bytes, signature and
public key: `xmss_Verifysig` is undefined. For a pair that is not supported the digest is never written; for `n = 64` the final loops
run past the message buffer, whether the signature is valid or not. -/
theorem C95_only_32 (S : Sha256) (hf n w : Nat) (hn : 1 ≤ n) (hn' : n ≤ 4096) (hne : n ≠ 32)
    (hw : w = 2 ∨ w = 4 ∨ w = 16 ∨ w = 256) (p : WotsParams) (hp : wotsSetParamsN n w = ok p) (msg sig pk : Bytes)
    (hm : msg.length < 2 ^ 63) (h : Nat) (h2 : h ≤ 255) :
    xmssVerifysigN S hf n p msg sig pk h = ub := by
  obtain ⟨hnt, hok⟩ := verifyRootN_len S hf n p msg sig pk h
  rw [xmssVerifysigN]
  cases hv : verifyRootN S hf n p msg sig pk h with
  | throw e => exact absurd hv (hnt e)
  | ub => rfl
  | ok r =>
    obtain ⟨⟨key, m, hk⟩, hN⟩ := hok r hv
    obtain ⟨root, root0, off, N⟩ := r
    dsimp only at hN
    have hn64 : n = 64 := by
      cases hG : Spec.hashN S hf n with
      | none => rw [(C94_hash_unsupported S hf n hG (some msg) (some key) none (3 * n) [] {} none).2.1] at hk; cases hk
      | some G =>
        have := (C94_pairs S hf n).mp (by rw [hG]; rfl)
        simp only [List.mem_cons, Prod.mk.injEq, List.not_mem_nil, or_false] at this
        omega
    subst hn64
    have hlen : p.len ≤ 522 ∧ p.keysize = p.len * 64 := by
      rcases hw with rfl | rfl | rfl | rfl
      · rw [show wotsSetParamsN 64 2 = ok ⟨512, 10, 522, 2, 1, 33408⟩ by decide +kernel] at hp; cases hp; decide
      · rw [show wotsSetParamsN 64 4 = ok ⟨256, 5, 261, 4, 2, 16704⟩ by decide +kernel] at hp; cases hp; decide
      · rw [show wotsSetParamsN 64 16 = ok ⟨128, 3, 131, 16, 4, 8384⟩ by decide +kernel] at hp; cases hp; decide
      · rw [show wotsSetParamsN 64 256 = ok ⟨64, 2, 66, 256, 8, 4224⟩ by decide +kernel] at hp; cases hp; decide
    have hbig : 2 ^ 63 ≤ N := by
      rw [hN, hlen.2]
      unfold sub64
      omega
    have hlt : msg.length < 0 + N := by omega
    simp only [ok_bind]
    cases root with
    | none => rfl
    | some root =>
      dsimp only
      split
      · rw [zeroBack_ub N msg 0 (Nat.zero_le _) hlt]; rfl
      · rw [copyBack_ub sig off N msg 0 (Nat.zero_le _) hlt]; rfl

/-! ## The hypotheses are met -/

/-- SHAKE-256, `w = 16`, height 10, a signature of 4 + 64 + 131 * 64 + 10 * 64 bytes and an empty message. -/
example (S : Sha256) : ∃ (root : Bytes) (off : Nat),
    verifyRootN S 2 64 ⟨128, 3, 131, 16, 4, 8384⟩ [] (List.replicate 9092 7) (List.replicate 128 9) 10 =
      ok (some root, (List.replicate 128 9).take 64, off, 2 ^ 64 - 32 * (1 + 131 + 10)) :=
  C95_counter_64 S 2 16 (by decide) (by decide) ⟨128, 3, 131, 16, 4, 8384⟩ (by decide +kernel) [] _ _ 10 (by decide) (by decide)
    (Nat.le_of_eq List.length_replicate.symm) (Nat.le_of_eq List.length_replicate.symm)

example (S : Sha256) (msg sig pk : Bytes) (hm : msg.length < 2 ^ 63) :
    xmssVerifysigN S 2 64 ⟨128, 3, 131, 16, 4, 8384⟩ msg sig pk 10 = ub :=
  C95_only_32 S 2 64 16 (by decide) (by decide) (by decide) (by decide) _ (by decide +kernel) msg sig pk hm 10 (by decide)

example (S : Sha256) (msg sig pk : Bytes) :
    xmssVerifysigN S 2 32 ⟨64, 3, 67, 16, 4, 2144⟩ msg sig pk 10 = xmssVerifysig S .shake_256 ⟨64, 3, 67, 16, 4, 2144⟩ msg sig pk 10 :=
  C95_verify_32 S .shake_256 _ msg sig pk 10 (by decide) (by decide)

example (S : Sha256) (sk ps : Bytes) :
    wotsPkgenN S 0 32 ⟨64, 3, 67, 16, 4, 2144⟩ (List.replicate 67 none) sk ps {} =
      ((wotsPkgen S .sha2_256 ⟨64, 3, 67, 16, 4, 2144⟩ sk ps {}).1.map some, (wotsPkgen S .sha2_256 ⟨64, 3, 67, 16, 4, 2144⟩ sk ps {}).2) :=
  (C94_same_32 S .sha2_256 16 ⟨64, 3, 67, 16, 4, 2144⟩ (List.replicate 67 none) List.length_replicate [] [] sk ps {}).2.1

end Qrl.Props
