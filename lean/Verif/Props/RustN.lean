import Verif.Proof.RustN
/-!
# C96: the Rust hash functions and `xmss_verify_sig` for `n` other than 32
-/

namespace Qrl.Props

open Rs Rs.Res

/-- C96. For a pair without a hash function, `core_hash`, `prf`, `h_msg`, `hash_h` and `hash_f` write nothing: whenever they return, they return 1 and the
output buffer is as before. -/
theorem C96_hash_unsupported (S : Sha256) (hf : HashFn) (n : Nat) (hn : n ≠ 32) (hu : hf = .sha2_256 ∨ n ≠ 64) (t : Nat) (key : Bytes) (kl : Nat)
    (inp : Bytes) (il : Nat) (old ps : Bytes) (a : Adrs) :
    (∀ r out, Rs.coreHashN S hf n t key kl inp il old = ok (r, out) → r = 1 ∧ out = old) ∧
    (∀ r out, Rs.prfN S hf n inp key old = ok (r, out) → r = 1 ∧ out = old) ∧
    (∀ r out, Rs.hMsgN S hf n inp il key kl old = ok (r, out) → r = 1 ∧ out = old) ∧
    (∀ r out a', Rs.hashHN S hf n inp ps a old = ok (r, out, a') → r = 1 ∧ out = old) ∧
    (∀ r out a', Rs.hashFN S hf n inp ps a old = ok (r, out, a') → r = 1 ∧ out = old) := by
  have core : ∀ t key kl inp il r out, Rs.coreHashN S hf n t key kl inp il old = ok (r, out) → r = 1 ∧ out = old := by
    intro t key kl inp il r out h
    have := coreHashN_uns_any S ⟨hn, hu⟩ t key kl inp il old _ h
    cases this; exact ⟨rfl, rfl⟩
  refine ⟨core _ _ _ _ _, core _ _ _ _ _, ?_, ?_, ?_⟩
  · intro r out h
    rw [Rs.hMsgN] at h
    by_cases h3 : kl ≠ 3 * n
    · rw [if_pos h3] at h; cases h; exact ⟨rfl, rfl⟩
    · rw [if_neg h3] at h
      by_cases h4 : il ≥ 2 ^ 32
      · rw [if_pos h4] at h; cases h
      · rw [if_neg h4] at h; exact core _ _ _ _ _ _ _ h
  · intro r out a' h
    rw [Rs.hashHN] at h
    obtain ⟨_, -, h⟩ := bind_eq_ok.mp h
    obtain ⟨_, -, h⟩ := bind_eq_ok.mp h
    obtain ⟨_, -, h⟩ := bind_eq_ok.mp h
    obtain ⟨_, -, h⟩ := bind_eq_ok.mp h
    obtain ⟨⟨r', out'⟩, h1, h⟩ := bind_eq_ok.mp h
    cases h
    exact core _ _ _ _ _ _ _ h1
  · intro r out a' h
    rw [Rs.hashFN] at h
    obtain ⟨_, -, h⟩ := bind_eq_ok.mp h
    obtain ⟨_, -, h⟩ := bind_eq_ok.mp h
    obtain ⟨_, -, h⟩ := bind_eq_ok.mp h
    obtain ⟨⟨r', out'⟩, h1, h⟩ := bind_eq_ok.mp h
    cases h
    exact core _ _ _ _ _ _ _ h1

/-- C96. Such a call returns (with 1) for buffers of the announced sizes. -/
theorem C96_hash_returns (S : Sha256) (hf : HashFn) (n : Nat) (h1 : 1 ≤ n) (h2 : n < 2 ^ 28) (hn : n ≠ 32) (hu : hf = .sha2_256 ∨ n ≠ 64)
    (inp old ps : Bytes) (a : Adrs) (hp : n ≤ ps.length) :
    (2 * n ≤ inp.length → ∃ a', Rs.hashHN S hf n inp ps a old = ok (1, old, a')) ∧
    (n ≤ inp.length → ∃ a', Rs.hashFN S hf n inp ps a old = ok (1, old, a')) :=
  ⟨hashHN_uns S ⟨hn, hu⟩ h1 h2 inp ps a old hp, hashFN_uns S ⟨hn, hu⟩ h1 h2 inp ps a old hp⟩

/-- C96. For `n = 32` the function of the other claims, for all slices, lengths, heights and builds. -/
theorem C96_verify_32 (b : Build) (S : Sha256) (hf : HashFn) (w : Nat) (msg : Bytes) (msglen : Nat) (sig pk : Bytes) (h : Nat) :
    wotsParamsN 32 w = wotsParams w ∧
    xmssVerifySigN b S hf 32 (wotsParams w) msg msglen sig pk h = xmssVerifySigRaw b S hf (wotsParams w) msg msglen sig pk h :=
  ⟨rfl, xmssVerifySigN_32 S hf b _ rfl msg msglen sig pk h⟩

/-- C96. For every `n` from 33 to 4096 — so also for `n = 64`, which SHAKE-128 and SHAKE-256 support — every call of `xmss_verify_sig` panics,
with and without overflow checks, whatever the signature. -/
theorem C96_panics (b : Build) (S : Sha256) (hf : HashFn) (n w : Nat) (hn : 32 < n) (hn' : n ≤ 4096) (hw : w = 2 ∨ w = 4 ∨ w = 16 ∨ w = 256)
    (msg : Bytes) (hm : msg.length < 2 ^ 63) (msglen : Nat) (sig pk : Bytes) (h : Nat) (hh : h ≤ 255) :
    xmssVerifySigN b S hf n (wotsParamsN n w) msg msglen sig pk h = panic := by
  obtain ⟨hl, hk⟩ := len_lt hn' hw
  exact xmssVerifySigN_big S hf b n hn (by omega) _ hl hk msg hm msglen sig pk h hh

/-- C96. For every `n` below 32 and buffers large enough, `xmss_verify_sig` returns and looks neither at the message nor at the signature: it accepts
exactly if the root in the public key is zero, and overwrites `(32 - n) * (1 + len + h)` bytes of the message, with what follows the
signature or with zeros. -/
theorem C96_small_verdict (b : Build) (S : Sha256) (hf : HashFn) (n w : Nat) (h1 : 1 ≤ n) (hn : n < 32) (hw : w = 2 ∨ w = 4 ∨ w = 16 ∨ w = 256)
    (msg : Bytes) (msglen : Nat) (hm : msglen ≤ msg.length) (hm32 : msglen < 2 ^ 31) (sig pk : Bytes) (h : Nat) (hh : 1 ≤ h)
    (len N : Nat) (hlen : len = (wotsParamsN n w).len) (hN : N = (32 - n) * (1 + len + h)) (hpk : 2 * n ≤ pk.length)
    (hsig : 4 + n + len * n + h * n + N ≤ sig.length) (hb : N ≤ msg.length) :
    xmssVerifySigN b S hf n (wotsParamsN n w) msg msglen sig pk h =
      if pk.take n = List.replicate n 0 then ok (0, (sig.drop (4 + n + len * n + h * n)).take N ++ msg.drop N)
      else ok (-1, List.replicate N 0 ++ msg.drop N) := by
  subst hlen hN
  have hk := (len_lt (n := n) (by omega) hw).2
  obtain ⟨k, q, hg⟩ := (wotsSetParamsN_eq h1 (by omega : n ≤ 4096) hw).2
  rw [← wotsParamsN_eq hw] at hg
  exact xmssVerifySigN_uns S ⟨by omega, .inr (by omega)⟩ h1 hn hg hk b msg msglen hm hm32 sig pk h hh hpk hsig hb

/-- C96. That `xmss_verify_sig` only accepts signatures of the holder of a key is false below `n = 32`: there is a public key for which every
signature of the right length is accepted for every message. -/
theorem C96_accepts_all_refuted (n w : Nat) (h1 : 1 ≤ n) (hn : n < 32) (hw : w = 2 ∨ w = 4 ∨ w = 16 ∨ w = 256) :
    ∃ pk : Bytes, pk.length = 2 * n ∧ ∀ (b : Build) (S : Sha256) (hf : HashFn) (msg sig : Bytes) (h : Nat), 1 ≤ h → msg.length < 2 ^ 31 →
      (32 - n) * (1 + (wotsParamsN n w).len + h) ≤ msg.length → 4 + 32 * (1 + (wotsParamsN n w).len + h) ≤ sig.length →
      ∃ msg', xmssVerifySigN b S hf n (wotsParamsN n w) msg msg.length sig pk h = ok (0, msg') := by
  refine ⟨List.replicate (2 * n) 0, List.length_replicate, fun b S hf msg sig h hh hm hb hsig => ?_⟩
  have e : (32 - n) * (1 + (wotsParamsN n w).len + h) + n * (1 + (wotsParamsN n w).len + h) = 32 * (1 + (wotsParamsN n w).len + h) := by
    rw [← Nat.add_mul]; congr 1; omega
  have e2 : n * (1 + (wotsParamsN n w).len + h) = n + (wotsParamsN n w).len * n + h * n := by
    rw [Nat.mul_add, Nat.mul_add, Nat.mul_one, Nat.mul_comm n h, Nat.mul_comm n (wotsParamsN n w).len]
  have v := C96_small_verdict b S hf n w h1 hn hw msg msg.length (Nat.le_refl _) hm sig (List.replicate (2 * n) 0) h hh _ _ rfl rfl
    (by rw [List.length_replicate]) (by omega) hb
  rw [if_pos (by rw [List.take_replicate]; congr 1; omega)] at v
  exact ⟨_, v⟩

/-! ## The hypotheses are met -/

example (S : Sha256) (msg sig pk : Bytes) (hm : msg.length < 2 ^ 63) :
    xmssVerifySigN .release S .shake_256 64 (wotsParamsN 64 16) msg msg.length sig pk 10 = panic :=
  C96_panics .release S .shake_256 64 16 (by decide) (by decide) (by decide) msg hm _ sig pk 10 (by decide)

/-- `n = 16`, `w = 16`: 35 chains. -/
example : wotsParamsN 16 16 = ⟨32, 3, 35, 16, 4, 560⟩ := by decide +kernel

/-- SHAKE-256, `n = 16`, height 4, a signature of 4 + 16 * 40 + 640 bytes: rejected for a root of nines, accepted for a zero root. -/
example (S : Sha256) : xmssVerifySigN .debug S .shake_256 16 (wotsParamsN 16 16) (List.replicate 700 5) 700 (List.replicate 1284 7)
    (List.replicate 32 9) 4 = ok (-1, List.replicate 640 0 ++ (List.replicate 700 5).drop 640) := by
  have hl : 35 = (wotsParamsN 16 16).len := by decide +kernel
  rw [C96_small_verdict .debug S .shake_256 16 16 (by decide) (by decide) (by decide) _ 700 (by rw [List.length_replicate]) (by decide) _ _ 4
    (by decide) 35 640 hl (by decide) (by rw [List.length_replicate]) (by rw [List.length_replicate]) (by rw [List.length_replicate]; decide),
    if_neg (by decide)]

example (S : Sha256) : xmssVerifySigN .debug S .sha2_256 16 (wotsParamsN 16 16) (List.replicate 640 5) 640 (List.replicate 1284 7)
    (List.replicate 32 0) 4 = ok (0, ((List.replicate 1284 7).drop 644).take 640 ++ (List.replicate 640 5).drop 640) := by
  have hl : 35 = (wotsParamsN 16 16).len := by decide +kernel
  rw [C96_small_verdict .debug S .sha2_256 16 16 (by decide) (by decide) (by decide) _ 640 (by rw [List.length_replicate]) (by decide) _ _ 4
    (by decide) 35 640 hl (by decide) (by rw [List.length_replicate]) (by rw [List.length_replicate]) (by rw [List.length_replicate]),
    if_pos (by decide)]

example (S : Sha256) : ∃ a', Rs.hashHN S .sha2_256 64 (List.replicate 128 1) (List.replicate 64 2) {} [3] = ok (1, [3], a') :=
  (C96_hash_returns S .sha2_256 64 (by decide) (by decide) (by decide) (.inl rfl) _ [3] _ {} (by rw [List.length_replicate])).1
    (by rw [List.length_replicate])

end Qrl.Props
