import Verif.Proof.RustLow
import Verif.Props.RustHash
import Verif.Props.RustAnyW
/-!
# C83: the Rust crate's low-level functions on any slices
-/

namespace Qrl.Props

open Qrl.Spec Qrl.Spec.Fips202

/-- C83. `fips202::shake128` on any output slice, any input slice and any announced lengths: a panic, or the first `outlen` bytes of the
output are the FIPS 202 value of what it reads and the other bytes of the slice are untouched. -/
theorem C83_shake128 (output : Bytes) (n : Nat) (inp : Bytes) (inlen : Nat) :
    (Rs.shakeInto 168 output n inp inlen = .panic ↔ shakeReads 168 inp inlen = none ∨ output.length < n) ∧
    ∀ m, shakeReads 168 inp inlen = some m → n ≤ output.length →
      ∃ out, Rs.shakeInto 168 output n inp inlen = .ok (out ++ output.drop n) ∧ out.length = n ∧ bits out = SHAKE128 (bits m) (8 * n) := by
  have e := Rs.shakeInto_eq 168 (fun s => by rw [Rs.stateBytes_eq]; exact length_stateBytes s 168 rfl (by omega)) rfl (by omega) (by omega)
    shake128 (fun _ _ => rfl) output n inp inlen
  rw [e]
  cases shakeReads 168 inp inlen with
  | none => simp
  | some m =>
    dsimp only
    by_cases h : output.length < n
    · rw [if_pos h]; simp [h]
    · rw [if_neg h]
      refine ⟨by simp; omega, ?_⟩
      intro m' hm _
      cases hm
      exact ⟨_, rfl, length_shake128 n m, C32_shake128 n m⟩

/-- C83. `fips202::shake256`, the same. -/
theorem C83_shake256 (output : Bytes) (n : Nat) (inp : Bytes) (inlen : Nat) :
    (Rs.shakeInto 136 output n inp inlen = .panic ↔ shakeReads 136 inp inlen = none ∨ output.length < n) ∧
    ∀ m, shakeReads 136 inp inlen = some m → n ≤ output.length →
      ∃ out, Rs.shakeInto 136 output n inp inlen = .ok (out ++ output.drop n) ∧ out.length = n ∧ bits out = SHAKE256 (bits m) (8 * n) := by
  have e := Rs.shakeInto_eq 136 (fun s => by rw [Rs.stateBytes_eq]; exact length_stateBytes s 136 rfl (by omega)) rfl (by omega) (by omega)
    shake256 (fun _ _ => rfl) output n inp inlen
  rw [e]
  cases shakeReads 136 inp inlen with
  | none => simp
  | some m =>
    dsimp only
    by_cases h : output.length < n
    · rw [if_pos h]; simp [h]
    · rw [if_neg h]
      refine ⟨by simp; omega, ?_⟩
      intro m' hm _
      cases hm
      exact ⟨_, rfl, length_shake256 n m, C32_shake256 n m⟩

/-- C83. It is not true that a length announced beyond the end of the input is refused: a one-block input and any length below two
blocks give the value of the block followed by its own beginning. -/
theorem C83_overread_refuted (output inp : Bytes) (n inlen : Nat) (hi : inp.length = 168) (h1 : 168 < inlen) (h2 : inlen < 336)
    (ho : n ≤ output.length) :
    inp.length < inlen ∧ ∃ out, Rs.shakeInto 168 output n inp inlen = .ok (out ++ output.drop n) ∧
      bits out = SHAKE128 (bits (inp ++ inp.take (inlen - 168))) (8 * n) := by
  refine ⟨by omega, ?_⟩
  obtain ⟨out, e1, -, e2⟩ := (C83_shake128 output n inp inlen).2 (inp ++ inp.take (inlen - 168)) (by
    rw [shakeReads, if_neg (by omega), if_pos ⟨by omega, by omega⟩, List.take_of_length_le (l := inp) (by omega)]) ho
  exact ⟨out, e1, e2⟩

/-- C83. `xmss_verify_sig` on any message buffer, announced message length, signature slice and key slice, for every height from 1 and
every `w` from 2 to 65535: it panics if the key slice has less than 64 bytes, the signature slice less than a signature or the message
buffer less than announced; otherwise it never changes the message buffer and answers 0 exactly if the root recomputed from the
signature is the one in the key. -/
theorem C83_verify_sig (b : Rs.Build) (S : Sha256) (hf : HashFn) (w : Nat) (hw : RangeW w) (msg : Bytes) (msglen : Nat) (sig pk : Bytes)
    (h : Nat) (h1 : 1 ≤ h) :
    Rs.xmssVerifySigRaw b S hf (Rs.wotsParams w) msg msglen sig pk h =
      if pk.length < 64 ∨ sig.length < 36 + 32 * rustLen w + 32 * h ∨ msg.length < msglen then .panic
      else match rustRootAny b S hf w h (pk.take 32) ((pk.drop 32).take 32) (msg.take msglen) sig with
        | none => .panic
        | some r => .ok (if r = pk.take 32 then 0 else -1, msg) :=
  Rs.verifyRaw_eq hf b hw msg msglen sig pk h h1

/-- C83. With height 0 it panics, whatever it is given (signatures of 128 GB and more apart). -/
theorem C83_verify_sig_zero (b : Rs.Build) (S : Sha256) (hf : HashFn) (w : Nat) (hw : RangeW w) (msg : Bytes) (msglen : Nat) (sig pk : Bytes)
    (hs : sig.length < 2 ^ 37) : Rs.xmssVerifySigRaw b S hf (Rs.wotsParams w) msg msglen sig pk 0 = .panic :=
  Rs.verifyRaw_zero hf b hw msg msglen sig pk hs

theorem chunks_more (s t : Bytes) (k : Nat) (off : Nat) (h : off + 32 * k ≤ s.length) : chunks (s ++ t) off k = chunks s off k := by
  rw [chunks, chunks]
  apply List.map_congr_left
  intro j hj
  rw [List.mem_range] at hj
  rw [List.drop_append_of_le_length (by omega), List.take_append_of_le_length (by rw [List.length_drop]; omega)]

theorem rustRootAny_more (b : Rs.Build) (S : Sha256) (hf : HashFn) (w h : Nat) (root seed msg sig t : Bytes)
    (hs : 36 + 32 * rustLen w + 32 * h ≤ sig.length) :
    rustRootAny b S hf w h root seed msg (sig ++ t) = rustRootAny b S hf w h root seed msg sig := by
  have e1 : (sig ++ t).take 4 = sig.take 4 := List.take_append_of_le_length (by omega)
  have e2 : ((sig ++ t).drop 4).take 32 = (sig.drop 4).take 32 := by
    rw [List.drop_append_of_le_length (by omega), List.take_append_of_le_length (by rw [List.length_drop]; omega)]
  simp only [rustRootAny, keyInSig, rootFromPositions, e1, e2, chunks_more sig t (rustLen w) 36 (by omega),
    chunks_more sig t h (36 + 32 * rustLen w) (by omega)]

/-- C83. Bytes after the signature, after the key and after the announced part of the message do not matter (`verify` of the crate's
wallet classes refuses such signatures and keys). -/
theorem C83_trailing (b : Rs.Build) (S : Sha256) (hf : HashFn) (w : Nat) (hw : RangeW w) (msg sig pk t1 t2 t3 : Bytes) (h : Nat) (h1 : 1 ≤ h)
    (hs : 36 + 32 * rustLen w + 32 * h ≤ sig.length) (hp : 64 ≤ pk.length) (code : Int) :
    Rs.xmssVerifySigRaw b S hf (Rs.wotsParams w) (msg ++ t1) msg.length (sig ++ t2) (pk ++ t3) h = .ok (code, msg ++ t1) ↔
      Rs.xmssVerifySigRaw b S hf (Rs.wotsParams w) msg msg.length sig pk h = .ok (code, msg) := by
  rw [C83_verify_sig b S hf w hw _ _ _ _ h h1, C83_verify_sig b S hf w hw _ _ _ _ h h1]
  rw [if_neg (by simp only [List.length_append]; omega), if_neg (by omega), rustRootAny_more b S hf w h _ _ _ sig t2 hs,
    List.take_left' rfl, List.take_length, List.take_append_of_le_length (l₁ := pk) (by omega), List.drop_append_of_le_length (by omega),
    List.take_append_of_le_length (l₁ := pk.drop 32) (by rw [List.length_drop]; omega)]
  cases rustRootAny b S hf w h (pk.take 32) ((pk.drop 32).take 32) msg sig with
  | none => simp
  | some r => simp

/-- C83. It accepts what `verify` accepts. -/
theorem C83_agrees (b : Rs.Build) (S : Sha256) (hf : HashFn) (w : Nat) (hw : RangeW w) (msg sig epk : Bytes) (hwf : RustWellFormed w sig epk)
    (ha : (epk.getD 1 0).toNat / 16 = 0) (hh : HashFn.ofNat? (keyHash epk) = some hf) :
    Rs.verify b S msg sig epk w = .ret () msg ↔
      Rs.xmssVerifySigRaw b S hf (Rs.wotsParams w) msg msg.length sig (epk.drop 3) (keyHeight epk) = .ok (0, msg) := by
  obtain ⟨l1, l2, l3⟩ := id hwf
  have hl : (epk.drop 3).length = 64 := by rw [List.length_drop]; omega
  have hsd : ((epk.drop 3).drop 32).take 32 = keySeed epk := by
    rw [List.drop_drop]; exact List.take_of_length_le (by rw [List.length_drop]; omega)
  rw [(C69_verify b S msg sig epk w hw).1, C83_verify_sig b S hf w hw _ _ _ _ _ (by omega), if_neg (by omega), List.take_length, hsd]
  constructor
  · rintro ⟨-, -, f, h1, h2⟩
    rw [hh] at h1
    cases h1
    rw [show (epk.drop 3).take 32 = keyRoot epk from rfl, h2]
    simp
  · intro h
    refine ⟨hwf, ha, hf, hh, ?_⟩
    rw [show (epk.drop 3).take 32 = keyRoot epk from rfl] at h
    cases hr : rustRootAny b S hf w (keyHeight epk) (keyRoot epk) (keySeed epk) msg sig with
    | none => rw [hr] at h; cases h
    | some r =>
      rw [hr] at h
      dsimp only at h
      by_cases hk : r = keyRoot epk
      · rw [hk]
      · rw [if_neg hk] at h; cases h

/-- The hypotheses are met by a signature the crate makes. -/
theorem demo_rust_low (S : Sha256) : ∃ pk sig : Bytes, Rs.verify .release S [1, 2] sig pk 16 = .ret () [1, 2] ∧
    RustWellFormed 16 sig pk ∧
    ∀ t1 t2 t3 : Bytes, Rs.xmssVerifySigRaw .release S .sha2_256 (Rs.wotsParams 16) ([1, 2] ++ t1) 2 (sig ++ t2) (pk.drop 3 ++ t3) 4 =
      .ok (0, [1, 2] ++ t1) := by
  have hr : RangeW 16 := by decide
  obtain ⟨o0, h0, hcan⟩ := rsCanonW_new .release S zeroSeed 4 .sha2_256 16 hr (by decide) goodHeight4
  obtain ⟨pk, e1, -, e3, e4, -, -, e7, -⟩ := rsCanonW_pk goodHeight4 hcan
  have hs := (rsCanonW_sign (b := .release) hcan [1, 2]).1 (by decide)
  rw [C69_supported_agree .release S .sha2_256 16 (by omega), rustSignature,
    rustSigned_short (show rustShort .sha2_256 [1, 2] by simp [rustShort])] at hs
  dsimp only [Option.map_some] at hs
  obtain ⟨o', hsign, -⟩ := hs
  obtain ⟨pk', p1, -, p3, p4⟩ := C69_sign_verifies .release .release S zeroSeed 4 .sha2_256 16 hr (by decide) goodHeight4 o0 h0 []
    (by intro w hw; cases hw) [] o0 rfl [1, 2] _ o' hsign
  rw [e1] at p1
  cases p1
  rw [if_neg (by intro h; cases h.1)] at p4
  have hwf := ((C69_verify .release S _ _ pk 16 hr).1.mp p4).1
  refine ⟨pk, _, p4, hwf, ?_⟩
  intro t1 t2 t3
  have ha := (C83_agrees .release S .sha2_256 16 hr _ _ pk hwf e7 e3).mp p4
  rw [e4] at ha
  refine (C83_trailing .release S .sha2_256 16 hr [1, 2] _ (pk.drop 3) t1 t2 t3 4 (by omega) ?_ ?_ 0).mpr ha
  · rw [p3, show paramAfter 16 [] = 16 from rfl, show (4 : UInt8).toNat = 4 from rfl]
    omega
  · rw [List.length_drop, hwf.1]

/-- A signature the crate made is accepted with any bytes appended to it, to the key and to the message buffer. -/
example : ∃ (pk sig : Bytes), Rs.verify .release toySha [1, 2] sig pk 16 = .ret () [1, 2] ∧
    ∀ t1 t2 t3 : Bytes, Rs.xmssVerifySigRaw .release toySha .sha2_256 (Rs.wotsParams 16) ([1, 2] ++ t1) 2 (sig ++ t2) (pk.drop 3 ++ t3) 4 =
      .ok (0, [1, 2] ++ t1) := by
  obtain ⟨pk, sig, h0, -, h2⟩ := demo_rust_low toySha
  refine ⟨pk, sig, h0, ?_⟩
  intro t1 t2 t3
  exact h2 t1 t2 t3

/-- Reading more than there is. -/
example : ∃ out, Rs.shakeInto 168 (List.replicate 40 9) 32 (List.replicate 168 1) 200 = .ok (out ++ List.replicate 8 9) := by
  obtain ⟨-, out, h, -⟩ := C83_overread_refuted (List.replicate 40 9) (List.replicate 168 1) 32 200 List.length_replicate (by omega)
    (by omega) (by rw [List.length_replicate]; omega)
  exact ⟨out, h⟩

/-- Panics: a too short output slice; a signature that is one byte short. -/
example : Rs.shakeInto 136 [0, 0, 0] 4 [1] 1 = .panic := (C83_shake256 [0, 0, 0] 4 [1] 1).1.mpr (Or.inr (by decide))
example : Rs.shakeInto 136 [0, 0, 0] 3 [1] 2 = .panic := (C83_shake256 [0, 0, 0] 3 [1] 2).1.mpr (Or.inl (by decide))

end Qrl.Props
