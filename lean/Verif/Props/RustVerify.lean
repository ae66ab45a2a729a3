import Verif.Proof.RustVerify
import Verif.Props.RustKeys
import Verif.Props.Binding
/-!
# C53: signature verification in the Rust port (src/rust_wrapper/qrl/xmss_base.rs:255-318)
-/

namespace Qrl.Props

open Qrl.Spec

/-- The three kinds of messages. -/
theorem rustSigned_short {hf : HashFn} {m : Bytes} (h : rustShort hf m) (key : Bytes) : rustSigned hf key m = some m := by
  cases hf with
  | sha2_256 => simp only [rustShort] at h; rw [rustSigned, if_pos h]
  | shake_128 => simp only [rustShort, rustRoom] at h; rw [rustSigned, rustSeen, if_pos h]
  | shake_256 => simp only [rustShort, rustRoom] at h; rw [rustSigned, rustSeen, if_pos h]

theorem rustSigned_long {hf : HashFn} {m : Bytes} (h : rustLong hf m) (key : Bytes) : rustSigned hf key m = none := by
  cases hf with
  | sha2_256 => rw [rustSigned, if_neg]; rw [rustLong] at h; omega
  | shake_128 => simp only [rustLong, rustRoom] at h; rw [rustSigned, rustSeen, if_neg (by omega), if_neg (by omega)]
  | shake_256 => simp only [rustLong, rustRoom] at h; rw [rustSigned, rustSeen, if_neg (by omega), if_neg (by omega)]

theorem rustSigned_cut {hf : HashFn} {m : Bytes} (h : rustCut hf m) (key : Bytes) : rustSigned hf key m =
    some (m.take (rustRoom hf) ++ (be 32 2 ++ key ++ m.take (rustRoom hf)).take (m.length - rustRoom hf)) := by
  obtain ⟨h0, h1, h2⟩ := h
  cases hf with
  | sha2_256 => exact absurd rfl h0
  | shake_128 => simp only [rustRoom] at *; rw [rustSigned, rustSeen, if_neg (by omega), if_pos (by omega)]
  | shake_256 => simp only [rustRoom] at *; rw [rustSigned, rustSeen, if_neg (by omega), if_pos (by omega)]

/-- C53. Every message is short, cut or long. -/
theorem C53_message_classes (hf : HashFn) (m : Bytes) :
    (rustShort hf m ∨ rustCut hf m ∨ rustLong hf m) ∧ ¬ (rustShort hf m ∧ rustLong hf m) ∧ ¬ (rustCut hf m ∧ rustLong hf m) := by
  cases hf <;> simp only [rustShort, rustCut, rustLong, rustRoom] <;> simp <;> omega

/-- C53. Two messages with the same length and the same first bytes are replaced by the same message. -/
theorem rustSigned_same {hf : HashFn} {m m' : Bytes} (h : rustCut hf m) (hl : m.length = m'.length)
    (hp : m.take (rustRoom hf) = m'.take (rustRoom hf)) (key : Bytes) : rustSigned hf key m = rustSigned hf key m' := by
  have h' : rustCut hf m' := ⟨h.1, hl ▸ h.2.1, hl ▸ h.2.2⟩
  rw [rustSigned_cut h, rustSigned_cut h', hp, hl]

/-- C53. The complete acceptance condition: `verify` returns `Ok` exactly if the key has address format 0 and the C++
`verify` accepts, with the same signature and key, the message that the Rust hash sees in place of the given one. -/
theorem C53_accepts_iff (b : Rs.Build) (S : Sha256) (msg sig epk : Bytes) (w : Nat) (hw : w = 2 ∨ w = 4 ∨ w = 16 ∨ w = 256) :
    Rs.verify b S msg sig epk w = .ret () msg ↔
      (epk.getD 1 0).toNat / 16 = 0 ∧ ∃ hf msg', HashFn.ofNat? (keyHash epk) = some hf ∧
        rustSigned hf (keyInSig sig (keyRoot epk)) msg = some msg' ∧ verify S msg' sig epk w = .ok true := by
  have hv := Rs.verify_rs (S := S) b msg sig epk w hw
  rw [Rs.verifySpec] at hv
  by_cases hc : WellFormed w sig epk ∧ (epk.getD 1 0).toNat / 16 = 0
  · rw [if_pos hc] at hv
    cases hf : HashFn.ofNat? (keyHash epk) with
    | none =>
      rw [hf] at hv
      obtain ⟨e, he⟩ := hv
      rw [he]
      constructor
      · intro h; cases h
      · rintro ⟨_, f, _, h, _⟩; cases h
    | some f =>
      rw [hf] at hv
      simp only [Option.map_some] at hv
      rw [hv]
      cases hm : rustSigned f (keyInSig sig (keyRoot epk)) msg with
      | none =>
        constructor
        · intro h; cases h
        · rintro ⟨_, f', m', h1, h2, _⟩; cases h1; rw [hm] at h2; cases h2
      | some m' =>
        dsimp only
        have hcpp : verify S m' sig epk w = .ok (decide (rootFromSig (f.prim S) w (keyHeight epk) (keyRoot epk)
            (keySeed epk) m' sig = keyRoot epk)) := by
          rw [C20_verify_spec S m' sig epk w hw, if_pos hc.1, hf]
        by_cases hr : rootFromSig (f.prim S) w (keyHeight epk) (keyRoot epk) (keySeed epk) m' sig = keyRoot epk
        · rw [if_pos hr]
          refine ⟨fun _ => ⟨hc.2, f, m', rfl, hm, ?_⟩, fun _ => rfl⟩
          rw [hcpp, decide_eq_true hr]
        · rw [if_neg hr]
          constructor
          · intro h; cases h
          · rintro ⟨_, f', m'', h1, h2, h3⟩
            cases h1
            rw [hm] at h2
            cases h2
            rw [hcpp, decide_eq_false hr] at h3
            cases h3
  · rw [if_neg hc] at hv
    obtain ⟨e, he⟩ := hv
    rw [he]
    constructor
    · intro h; cases h
    · rintro ⟨h1, f, m', _, _, h2⟩
      exact absurd ⟨(verify_true_iff hw h2).1, h1⟩ hc

/-- C53. `verify` panics exactly on well-formed input (key of 67 bytes with address format 0 and a supported hash function,
signature of the right size) with a long message. -/
theorem C53_panics_iff (b : Rs.Build) (S : Sha256) (msg sig epk : Bytes) (w : Nat) (hw : w = 2 ∨ w = 4 ∨ w = 16 ∨ w = 256) :
    Rs.verify b S msg sig epk w = .panic ↔
      WellFormed w sig epk ∧ (epk.getD 1 0).toNat / 16 = 0 ∧ ∃ hf, HashFn.ofNat? (keyHash epk) = some hf ∧ rustLong hf msg := by
  have hv := Rs.verify_rs (S := S) b msg sig epk w hw
  rw [Rs.verifySpec] at hv
  by_cases hc : WellFormed w sig epk ∧ (epk.getD 1 0).toNat / 16 = 0
  · rw [if_pos hc] at hv
    cases hf : HashFn.ofNat? (keyHash epk) with
    | none =>
      rw [hf] at hv
      obtain ⟨e, he⟩ := hv
      rw [he]
      constructor
      · intro h; cases h
      · rintro ⟨_, _, f, h, _⟩; cases h
    | some f =>
      rw [hf] at hv
      simp only [Option.map_some] at hv
      rw [hv]
      obtain ⟨h1, h2, h3⟩ := C53_message_classes f msg
      by_cases hl : rustLong f msg
      · rw [rustSigned_long hl]
        exact ⟨fun _ => ⟨hc.1, hc.2, f, rfl, hl⟩, fun _ => rfl⟩
      · have : ∃ m', rustSigned f (keyInSig sig (keyRoot epk)) msg = some m' := by
          rcases h1 with h1 | h1 | h1
          · exact ⟨_, rustSigned_short h1 _⟩
          · exact ⟨_, rustSigned_cut h1 _⟩
          · exact absurd h1 hl
        obtain ⟨m', hm'⟩ := this
        rw [hm']
        dsimp only
        constructor
        · intro h; split at h <;> cases h
        · rintro ⟨_, _, f', h4, h5⟩; cases h4; exact absurd h5 hl
  · rw [if_neg hc] at hv
    obtain ⟨e, he⟩ := hv
    rw [he]
    constructor
    · intro h; cases h
    · rintro ⟨h1, h2, _⟩; exact absurd ⟨h1, h2⟩ hc

/-- C53. In every other case it returns `Err`; it never changes the message. -/
theorem C53_outcomes (b : Rs.Build) (S : Sha256) (msg sig epk : Bytes) (w : Nat) (hw : w = 2 ∨ w = 4 ∨ w = 16 ∨ w = 256) :
    Rs.verify b S msg sig epk w = .ret () msg ∨ (∃ e, Rs.verify b S msg sig epk w = .fail e msg) ∨
      Rs.verify b S msg sig epk w = .panic := by
  have hv := Rs.verify_rs (S := S) b msg sig epk w hw
  cases hs : Rs.verifySpec S msg sig epk w with
  | none => rw [hs] at hv; exact Or.inr (Or.inl hv)
  | some r =>
    rw [hs] at hv
    dsimp only at hv
    rw [hv]
    rw [Rs.verifySpec] at hs
    split at hs
    · cases hf : HashFn.ofNat? (keyHash epk) with
      | none => rw [hf] at hs; cases hs
      | some f =>
        rw [hf] at hs
        simp only [Option.map_some, Option.some.injEq] at hs
        rw [← hs]
        split
        · exact Or.inr (Or.inr rfl)
        · split
          · exact Or.inl rfl
          · exact Or.inr (Or.inl ⟨_, rfl⟩)
    · cases hs

/-- C53. On short messages Rust and C++ accept the same signatures, for keys with address format 0 and a supported hash
function. -/
theorem C53_agrees_short (b : Rs.Build) (S : Sha256) (msg sig epk : Bytes) (w : Nat) (hw : w = 2 ∨ w = 4 ∨ w = 16 ∨ w = 256)
    (hfm : (epk.getD 1 0).toNat / 16 = 0) (hf : HashFn) (hh : HashFn.ofNat? (keyHash epk) = some hf)
    (hm : rustShort hf msg) : Rs.verify b S msg sig epk w = .ret () msg ↔ verify S msg sig epk w = .ok true := by
  rw [C53_accepts_iff b S msg sig epk w hw]
  constructor
  · rintro ⟨_, f, m', h1, h2, h3⟩
    rw [hh] at h1
    cases h1
    rw [rustSigned_short hm] at h2
    cases h2
    exact h3
  · intro h
    exact ⟨hfm, hf, msg, hh, rustSigned_short hm _, h⟩

/-- C53. **Forgery.** If Rust accepts a signature for a message of medium length (SHAKE128: 40 to 207 bytes, SHAKE256: 8 to
143 bytes), it accepts the same signature for every other message of that length with the same first 40 (8) bytes. -/
theorem C53_forgery (b : Rs.Build) (S : Sha256) (msg msg' sig epk : Bytes) (w : Nat) (hw : w = 2 ∨ w = 4 ∨ w = 16 ∨ w = 256)
    (hf : HashFn) (hh : HashFn.ofNat? (keyHash epk) = some hf) (hc : rustCut hf msg) (hl : msg.length = msg'.length)
    (hp : msg.take (rustRoom hf) = msg'.take (rustRoom hf)) (h : Rs.verify b S msg sig epk w = .ret () msg) :
    Rs.verify b S msg' sig epk w = .ret () msg' := by
  rw [C53_accepts_iff b S _ sig epk w hw] at h ⊢
  obtain ⟨h0, f, m', h1, h2, h3⟩ := h
  rw [hh] at h1
  cases h1
  exact ⟨h0, hf, m', hh, (rustSigned_same hc hl hp _) ▸ h2, h3⟩

/-- C53. Rust answers with `Err` where C++ runs into undefined behaviour (a key naming hash function 3 to 15) and where
C++ accepts any address format. -/
theorem C53_refuses (b : Rs.Build) (S : Sha256) (msg sig epk : Bytes) (w : Nat) (hw : w = 2 ∨ w = 4 ∨ w = 16 ∨ w = 256)
    (h : 2 < keyHash epk ∨ (epk.getD 1 0).toNat / 16 ≠ 0 ∨ ¬ WellFormed w sig epk) :
    ∃ e, Rs.verify b S msg sig epk w = .fail e msg := by
  rcases C53_outcomes b S msg sig epk w hw with h1 | h1 | h1
  · exfalso
    obtain ⟨a, f, m', b, c, d⟩ := (C53_accepts_iff b S msg sig epk w hw).mp h1
    obtain ⟨x1, x2, x3, x4, x5, x6⟩ := C20_verify_true S m' sig epk w hw d
    rcases h with h | h | h
    · omega
    · exact h a
    · exact h ⟨x1, x3, x6⟩
  · exact h1
  · exfalso
    obtain ⟨a, b, f, c, d⟩ := (C53_panics_iff b S msg sig epk w hw).mp h1
    rcases h with h | h | h
    · generalize keyHash epk = k at *
      match k, h, c with
      | k + 3, _, c => cases c
    · exact h b
    · exact h a

end Qrl.Props
