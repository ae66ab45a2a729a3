import Verif.Proof.RustKeyN32
import Verif.Props.RustN
/-!
# C97: `xmss_gen_keypair` of the Rust crate for `n` below 32
-/

namespace Qrl.Props

open Rs Rs.Res

/-- C97. For `n < 32`, every hash function, seed and height, `xmss_gen_keypair` panics exactly if a slice is too short; otherwise it reports success, and
the public key is `n` zero bytes (the root) followed by the public seed, whatever the secret seed. -/
theorem C97_gen_keypair (b : Build) (S : Sha256) (hf : HashFn) (n w h : Nat) (h1 : 1 ≤ n) (hn : n < 32) (hw : w = 2 ∨ w = 4 ∨ w = 16 ∨ w = 256)
    (hh : h < 32) (pk sk seed : Bytes) :
    xmssGenKeypairN b S hf n ⟨wotsParamsN n w, h⟩ pk sk seed =
      if pk.length < 2 * n ∨ sk.length < 4 + 4 * n ∨ seed.length < 48 then panic
      else
        let x := Qrl.shake256 (3 * n) (seed.take 48)
        ok (0, List.replicate n 0 ++ x.drop (2 * n) ++ pk.drop (2 * n), List.replicate 4 0 ++ x ++ List.replicate n 0 ++ sk.drop (4 + 4 * n)) := by
  obtain ⟨k, q, hg⟩ := (wotsSetParamsN_eq h1 (by omega : n ≤ 4096) hw).2
  rw [← wotsParamsN_eq hw] at hg
  exact xmssGenKeypairN_uns S ⟨by omega, .inr (by omega)⟩ h1 (by omega) b _ hh (Nat.le_trans hg.len2 (hg.len ▸ Nat.le_add_left _ _)) pk sk seed

/-- C97. That only the holder of the secret key can make a signature that `xmss_verify_sig` accepts for a generated key is false below `n = 32`: with the
key pair that a successful `xmss_gen_keypair` returns, every signature of the right length is accepted, for every message. -/
theorem C97_generated_key_refuted (b : Build) (S : Sha256) (hf : HashFn) (n w h : Nat) (h1 : 1 ≤ n) (hn : n < 32)
    (hw : w = 2 ∨ w = 4 ∨ w = 16 ∨ w = 256) (hh1 : 1 ≤ h) (hh : h < 32) (pk sk seed pk' sk' : Bytes) (r : Nat)
    (hgen : xmssGenKeypairN b S hf n ⟨wotsParamsN n w, h⟩ pk sk seed = ok (r, pk', sk'))
    (msg sig : Bytes) (hm : msg.length < 2 ^ 31) (hb : (32 - n) * (1 + (wotsParamsN n w).len + h) ≤ msg.length)
    (hsig : 4 + 32 * (1 + (wotsParamsN n w).len + h) ≤ sig.length) :
    ∃ msg', xmssVerifySigN b S hf n (wotsParamsN n w) msg msg.length sig pk' h = ok (0, msg') := by
  rw [C97_gen_keypair b S hf n w h h1 hn hw hh pk sk seed] at hgen
  split at hgen
  · cases hgen
  rename_i hc
  cases hgen
  have e : (32 - n) * (1 + (wotsParamsN n w).len + h) + n * (1 + (wotsParamsN n w).len + h) = 32 * (1 + (wotsParamsN n w).len + h) := by
    rw [← Nat.add_mul]; congr 1; omega
  have e2 : n * (1 + (wotsParamsN n w).len + h) = n + (wotsParamsN n w).len * n + h * n := by
    rw [Nat.mul_add, Nat.mul_add, Nat.mul_one, Nat.mul_comm n h, Nat.mul_comm n (wotsParamsN n w).len]
  have hx : (Qrl.shake256 (3 * n) (seed.take 48)).length = 3 * n := by simp
  have v := C96_small_verdict b S hf n w h1 hn hw msg msg.length (Nat.le_refl _) hm sig
    (List.replicate n 0 ++ (Qrl.shake256 (3 * n) (seed.take 48)).drop (2 * n) ++ pk.drop (2 * n)) h hh1 _ _ rfl rfl
    (by rw [List.length_append, List.length_append, List.length_replicate, List.length_drop, hx]; omega) (by omega) hb
  rw [if_pos (by rw [List.append_assoc, List.take_left' List.length_replicate])] at v
  exact ⟨_, v⟩

/-- C97. For `n = 32` it is the key generation of the other claims, for all parameters, slices and builds. -/
theorem C97_gen_keypair_32 (b : Build) (S : Sha256) (hf : HashFn) (p : XmssParams) (pk sk seed : Bytes) :
    xmssGenKeypairN b S hf 32 p pk sk seed = xmssGenKeypairRaw b S hf p pk sk seed :=
  xmssGenKeypairN_32 S hf b p pk sk seed

/-- C97. Two seeds that only differ in the secret part give the same public key: below `n = 32` the public key is a function of the public seed. -/
theorem C97_root_ignores_secret (b : Build) (S : Sha256) (hf : HashFn) (n w h : Nat) (h1 : 1 ≤ n) (hn : n < 32)
    (hw : w = 2 ∨ w = 4 ∨ w = 16 ∨ w = 256) (hh : h < 32) (pk sk seed1 seed2 pk1 pk2 sk1 sk2 : Bytes) (r1 r2 : Nat)
    (e1 : xmssGenKeypairN b S hf n ⟨wotsParamsN n w, h⟩ pk sk seed1 = ok (r1, pk1, sk1))
    (e2 : xmssGenKeypairN b S hf n ⟨wotsParamsN n w, h⟩ pk sk seed2 = ok (r2, pk2, sk2)) :
    pk1.take n = pk2.take n ∧ (pk1 = pk2 ↔ (pk1.drop n).take n = (pk2.drop n).take n) := by
  rw [C97_gen_keypair b S hf n w h h1 hn hw hh] at e1 e2
  split at e1
  · cases e1
  split at e2
  · cases e2
  cases e1; cases e2
  have l : ∀ s : Bytes, ((Qrl.shake256 (3 * n) s).drop (2 * n)).length = n := by
    intro s; rw [List.length_drop]; simp; omega
  refine ⟨?_, ?_⟩
  · rw [List.append_assoc, List.append_assoc, List.take_left' List.length_replicate, List.take_left' List.length_replicate]
  · rw [List.append_assoc, List.append_assoc, List.drop_left' List.length_replicate, List.drop_left' List.length_replicate,
      List.take_left' (l _), List.take_left' (l _)]
    constructor
    · intro h
      exact List.append_cancel_right (List.append_cancel_left h)
    · intro h; rw [h]

/-! ## The hypotheses are met -/

/-- `n = 16`, `w = 16`, height 10, SHAKE-128: key generation returns 0 with a zero root. -/
example (S : Sha256) : ∃ pk sk, xmssGenKeypairN .release S .shake_128 16 ⟨wotsParamsN 16 16, 10⟩ (List.replicate 32 0) (List.replicate 68 0)
    (List.replicate 48 7) = ok (0, pk, sk) ∧ pk.take 16 = List.replicate 16 0 := by
  rw [C97_gen_keypair .release S .shake_128 16 16 10 (by decide) (by decide) (by decide) (by decide),
    if_neg (by simp only [List.length_replicate]; decide)]
  exact ⟨_, _, rfl, by rw [List.append_assoc, List.take_left' List.length_replicate]⟩

/-- One byte too few for the secret key. -/
example (S : Sha256) : xmssGenKeypairN .release S .shake_128 16 ⟨wotsParamsN 16 16, 10⟩ (List.replicate 32 0) (List.replicate 67 0)
    (List.replicate 48 7) = panic := by
  rw [C97_gen_keypair .release S .shake_128 16 16 10 (by decide) (by decide) (by decide) (by decide),
    if_pos (by simp only [List.length_replicate]; decide)]

/-- A generated key and a signature of sevens. -/
example (S : Sha256) (pk' sk' : Bytes) (r : Nat) (hgen : xmssGenKeypairN .release S .sha2_256 16 ⟨wotsParamsN 16 16, 4⟩ (List.replicate 32 0)
    (List.replicate 68 0) (List.replicate 48 7) = ok (r, pk', sk')) :
    ∃ msg', xmssVerifySigN .release S .sha2_256 16 (wotsParamsN 16 16) (List.replicate 700 5) (List.replicate 700 (5 : UInt8)).length
      (List.replicate 1284 7) pk' 4 = ok (0, msg') := by
  have hl : (wotsParamsN 16 16).len = 35 := by decide +kernel
  exact C97_generated_key_refuted .release S .sha2_256 16 16 4 (by decide) (by decide) (by decide) (by decide) (by decide) _ _ _ _ _ _ hgen _ _
    (by rw [List.length_replicate]; decide) (by rw [List.length_replicate, hl]; decide) (by rw [List.length_replicate, hl])

end Qrl.Props
