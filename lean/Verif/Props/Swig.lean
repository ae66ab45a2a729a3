import Verif.Spec.Swig
import Verif.Props.Fast
import Verif.Props.Basic
import Verif.Props.Hex
import Verif.Props.Mnemonic
import Verif.Props.Hashing
import Verif.Props.Descriptor
import Verif.Props.Verify
/-!
# C73: what Python and Go programs see of errors
-/

namespace Qrl.Props

open Outcome Spec

theorem counterRun_threw (limit : Nat) (σ : Nat → Bytes → Bytes) (cs : List Call) : ∀ (i : Nat) (e : Exc),
    Reply.threw e ∈ (counterRun limit σ i cs).1 → e = .invalidArgument := by
  induction cs with
  | nil => intro i e h; simp [counterRun] at h
  | cons c cs ih =>
    intro i e h
    simp only [counterRun, List.mem_cons] at h
    rcases h with h | h
    · cases c with
      | setIndex n =>
        simp only [counterCall] at h
        split at h
        · cases h
        · cases h; rfl
      | sign m =>
        simp only [counterCall] at h
        split at h
        · cases h
        · cases h; rfl
    · exact ih _ _ h

theorem pyRun_of (S : Sha256) (cs : List Call) : ∀ (o o' : XmssFast) (rs : List Reply), runCalls (XmssFast.call S) o cs = some (rs, o') →
    (∀ e, Reply.threw e ∈ rs → e = .invalidArgument) → pyRun S o cs = (rs.map pyReply, o') ∧ goRun S o cs = (rs.map goReply, o') := by
  induction cs with
  | nil => intro o o' rs h _; cases h; exact ⟨rfl, rfl⟩
  | cons c cs ih =>
    intro o o' rs h he
    rw [runCalls] at h
    cases hc : XmssFast.call S o c with
    | none => rw [hc] at h; cases h
    | some x =>
      obtain ⟨r, o1⟩ := x
      rw [hc] at h
      simp only at h
      cases hr : runCalls (XmssFast.call S) o1 cs with
      | none => rw [hr] at h; cases h
      | some y =>
        obtain ⟨rs1, o2⟩ := y
        rw [hr] at h
        cases h
        obtain ⟨h1, h2⟩ := ih o1 o' rs1 hr (fun e hm => he e (List.mem_cons_of_mem _ hm))
        have key : pySigner S o c = (pyReply r, o1) ∧ goSigner S o c = (goReply r, o1) := by
          cases c with
          | setIndex n =>
            rw [XmssFast.call] at hc
            rw [pySigner, goSigner]
            cases hs : o.setIndex S n.toNat with
            | ret i o3 => rw [hs] at hc; cases hc; exact ⟨rfl, rfl⟩
            | raise e o3 =>
              rw [hs] at hc
              cases hc
              cases he e (List.mem_cons_self ..)
              exact ⟨rfl, rfl⟩
            | ub => rw [hs] at hc; cases hc
          | sign m =>
            rw [XmssFast.call] at hc
            rw [pySigner, goSigner]
            cases hs : o.sign S m with
            | ret i o3 => rw [hs] at hc; cases hc; exact ⟨rfl, rfl⟩
            | raise e o3 =>
              rw [hs] at hc
              cases hc
              cases he e (List.mem_cons_self ..)
              exact ⟨rfl, rfl⟩
            | ub => rw [hs] at hc; cases hc
        constructor
        · rw [pyRun, key.1]; simp only; rw [h1]; rfl
        · rw [goRun, key.2]; simp only; rw [h2]; rfl

/-- C73. A Python program that builds an `XmssFast` and catches what its calls raise sees the ideal counter over any history: a
result, or a `ValueError` after which the signer is as it was. It never gets another exception. A Go program that recovers sees
the same with panics. -/
theorem C73_signer_history (S : Sha256) (seed : Bytes) (height : UInt8) (hf : HashFn) (af : Nat) (hs : seed.length = 48)
    (hh : GoodHeight height) :
    ∃ o0, pyCall (XmssFast.new S seed height hf.toNat af) = .value o0 ∧ goCall (XmssFast.new S seed height hf.toNat af) = .value o0 ∧
      ∀ cs : List Call, ∃ o,
        pyRun S o0 cs = ((counterRun (2 ^ height.toNat) (seedSignature S hf 16 height.toNat seed) 0 cs).1.map pyReply, o) ∧
        goRun S o0 cs = ((counterRun (2 ^ height.toNat) (seedSignature S hf 16 height.toNat seed) 0 cs).1.map goReply, o) ∧
        o.getIndex = ok (counterRun (2 ^ height.toNat) (seedSignature S hf 16 height.toNat seed) 0 cs).2 := by
  obtain ⟨o0, h⟩ := (C39_fast_succeeds S seed height hf.toNat af).mpr ⟨hs, hh, by cases hf <;> decide⟩
  refine ⟨o0, by rw [h]; rfl, by rw [h]; rfl, fun cs => ?_⟩
  obtain ⟨o, h1, h2⟩ := C19_fast_refines_counter S seed height hf af o0 h cs
  obtain ⟨h3, h4⟩ := pyRun_of S cs o0 o _ h1 (counterRun_threw _ _ cs 0)
  exact ⟨o, h3, h4, h2⟩

theorem pyCall_valueError {α : Type} (x : Outcome α) : pyCall x = .valueError ↔ x = .throw .invalidArgument := by
  cases x with
  | ok a => simp [pyCall]
  | ub => simp [pyCall]
  | throw e => cases e <;> simp [pyCall, pyException]

theorem pyCall_runtimeError {α : Type} (x : Outcome α) : pyCall x = .runtimeError ↔ x = .throw .runtimeError := by
  cases x with
  | ok a => simp [pyCall]
  | ub => simp [pyCall]
  | throw e => cases e <;> simp [pyCall, pyException]

theorem goCall_panic {α : Type} (x : Outcome α) : goCall x = .panic ↔ ∃ e, x = .throw e := by
  cases x <;> simp [goCall]

/-- C73. A wrong argument is a `ValueError` in Python and a panic in Go, exactly for the arguments listed. -/
theorem C73_wrong_arguments (S : Sha256) :
    (∀ (seed : Bytes) (height : UInt8) (hf af : Nat),
      (pyCall (XmssFast.new S seed height hf af) = .valueError ↔ seed.length ≠ 48 ∨ height.toNat < 4 ∨ height.toNat % 2 = 1) ∧
      (goCall (XmssFast.new S seed height hf af) = .panic ↔ seed.length ≠ 48 ∨ height.toNat < 4 ∨ height.toNat % 2 = 1)) ∧
    (∀ (seed : Bytes) (height : UInt8) (hf af w : Nat), w = 2 ∨ w = 4 ∨ w = 16 ∨ w = 256 →
      (pyCall (XmssBasic.new S seed height hf af w) = .valueError ↔ seed.length ≠ 48 ∨ height.toNat < 4 ∨ height.toNat % 2 = 1) ∧
      (goCall (XmssBasic.new S seed height hf af w) = .panic ↔ seed.length ≠ 48 ∨ height.toNat < 4 ∨ height.toNat % 2 = 1)) ∧
    (∀ e : Bytes, (pyCall (XmssFast.fromExtendedSeed S e) = .valueError ↔ e.length ≠ 51 ∨ ∃ b, e[1]? = some b ∧ b.toNat % 16 < 2) ∧
      (goCall (XmssFast.fromExtendedSeed S e) = .panic ↔ e.length ≠ 51 ∨ ∃ b, e[1]? = some b ∧ b.toNat % 16 < 2)) ∧
    (∀ s : Bytes, (∀ c ∈ s, c < 128) →
      (pyCall (hstr2bin s) = .valueError ↔ ¬ (s.length % 2 = 0 ∧ ∀ c ∈ s, c ∈ hexAlphabet)) ∧
      (goCall (hstr2bin s) = .panic ↔ ¬ (s.length % 2 = 0 ∧ ∀ c ∈ s, c ∈ hexAlphabet))) ∧
    (∀ s : Bytes, (pyCall (mnemonic2bin s) = .valueError ↔ ¬ (s.count 32 % 2 = 1 ∧ ∀ w ∈ wordsOf s, w ∈ wordlist)) ∧
      (goCall (mnemonic2bin s) = .panic ↔ ¬ (s.count 32 % 2 = 1 ∧ ∀ w ∈ wordsOf s, w ∈ wordlist))) ∧
    (∀ epk : Bytes, (pyCall (getAddress S epk) = .valueError ↔ ¬ (epk.length = 67 ∧ ∃ b, epk[1]? = some b ∧ b.toNat / 16 = 0)) ∧
      (goCall (getAddress S epk) = .panic ↔ ¬ (epk.length = 67 ∧ ∃ b, epk[1]? = some b ∧ b.toNat / 16 = 0))) := by
  have either : ∀ {α : Type} (x : Outcome α) (p : Prop), ((∃ a, x = ok a) ↔ p) → ((∃ a, x = ok a) ∨ x = .throw .invalidArgument) →
      (pyCall x = .valueError ↔ ¬ p) ∧ (goCall x = .panic ↔ ¬ p) := by
    intro α x p h1 h2
    rw [pyCall_valueError, goCall_panic, ← h1]
    rcases h2 with ⟨a, rfl⟩ | rfl
    · refine ⟨⟨fun h => (by cases h), fun h => absurd ⟨a, rfl⟩ h⟩, ⟨fun ⟨e, h⟩ => (by cases h), fun h => absurd ⟨a, rfl⟩ h⟩⟩
    · exact ⟨⟨fun _ ⟨a, h⟩ => (by cases h), fun _ => rfl⟩, ⟨fun _ ⟨a, h⟩ => (by cases h), fun _ => ⟨_, rfl⟩⟩⟩
  have thr : ∀ {α : Type} (x : Outcome α) (p : Prop), (∀ e, x = .throw e ↔ e = .invalidArgument ∧ p) →
      (pyCall x = .valueError ↔ p) ∧ (goCall x = .panic ↔ p) := by
    intro α x p h
    rw [pyCall_valueError, goCall_panic]
    refine ⟨⟨fun hx => ((h _).mp hx).2, fun hp => (h _).mpr ⟨rfl, hp⟩⟩, ⟨fun ⟨e, hx⟩ => ((h e).mp hx).2, fun hp => ⟨_, (h _).mpr ⟨rfl, hp⟩⟩⟩⟩
  refine ⟨fun seed height hf af => thr _ _ (C39_fast_throws S seed height hf af),
    fun seed height hf af w hw => thr _ _ (C39_basic_throws S seed height hf af w hw),
    fun e => thr _ _ (C39_extended_seed_throws S e),
    fun s h7 => either _ _ (C02_hex_accepts s h7).1 (C02_hex_accepts s h7).2,
    fun s => either _ _ (C05_mnemonic_accepts s).1 (C05_mnemonic_accepts s).2,
    fun epk => either _ _ (C10_address_throws S epk).1 (C10_address_throws S epk).2⟩

/-- C73. Only `getRandomSeed` raises a `RuntimeError`, exactly when the device cannot be opened or gives too few bytes, and it raises
nothing else. -/
theorem C73_runtime_error (S : Sha256) :
    (∀ (n : Nat) (entropy : Bytes), pyCall (getRandomSeed .openFailed n entropy) = .runtimeError ∧
      ∀ avail : Bytes, if avail.length < n then pyCall (getRandomSeed (.stream avail) n entropy) = .runtimeError
        else ∃ out, pyCall (getRandomSeed (.stream avail) n entropy) = .value out ∧ out.length = n) ∧
    (∀ (seed : Bytes) (height : UInt8) (hf af : Nat), pyCall (XmssFast.new S seed height hf af) ≠ .runtimeError) ∧
    (∀ (seed : Bytes) (height : UInt8) (hf af w : Nat), w = 2 ∨ w = 4 ∨ w = 16 ∨ w = 256 →
      pyCall (XmssBasic.new S seed height hf af w) ≠ .runtimeError) ∧
    (∀ e : Bytes, pyCall (XmssFast.fromExtendedSeed S e) ≠ .runtimeError) ∧
    (∀ s : Bytes, pyCall (hstr2bin s) ≠ .runtimeError ∧ pyCall (mnemonic2bin s) ≠ .runtimeError ∧ pyCall (bin2mnemonic s) ≠ .runtimeError ∧
      pyCall (getAddress S s) ≠ .runtimeError) ∧
    (∀ (x : Bytes) (c : Nat), pyCall (sha2_256_n S x c) ≠ .runtimeError) := by
  refine ⟨fun n entropy => ?_, fun seed height hf af => ?_, fun seed height hf af w hw => ?_, fun e => ?_, fun s => ⟨?_, ?_, ?_, ?_⟩,
    fun x c => ?_⟩
  · obtain ⟨h1, h2, h3⟩ := C42_random_seed n entropy
    refine ⟨(pyCall_runtimeError _).mpr h1, fun avail => ?_⟩
    split
    · rename_i h; exact (pyCall_runtimeError _).mpr (h2 avail h)
    · rename_i h
      obtain ⟨out, h4, h5, _⟩ := h3 avail (Nat.le_of_not_lt h)
      exact ⟨out, by rw [h4]; rfl, h5⟩
  · rw [Ne, pyCall_runtimeError, C39_fast_throws]; rintro ⟨h, _⟩; cases h
  · rw [Ne, pyCall_runtimeError, C39_basic_throws S seed height hf af w hw]; rintro ⟨h, _⟩; cases h
  · rw [Ne, pyCall_runtimeError, C39_extended_seed_throws]; rintro ⟨h, _⟩; cases h
  · rw [Ne, pyCall_runtimeError]
    intro h
    have := C02_hex_outcome s
    rw [h] at this
    split at this
    · cases this
    · split at this
      · obtain ⟨v, h, _⟩ := this; cases h
      · split at this <;> cases this
  · rw [Ne, pyCall_runtimeError]
    intro h
    rcases (C05_mnemonic_accepts s).2 with ⟨v, h2⟩ | h2 <;> rw [h2] at h <;> cases h
  · rw [Ne, pyCall_runtimeError]
    intro h
    by_cases h3 : s.length % 3 ≠ 0
    · rw [(C04_mnemonic_throws s).1.mpr h3] at h; cases h
    · rw [C04_mnemonic_encoding s (Decidable.not_not.mp h3)] at h; cases h
  · rw [Ne, pyCall_runtimeError]
    intro h
    rcases (C10_address_throws S s).2 with ⟨v, h2⟩ | h2 <;> rw [h2] at h <;> cases h
  · rw [Ne, pyCall_runtimeError]
    intro h
    cases c with
    | zero => rw [(C34_sha2_n S x 0).1] at h; cases h
    | succ c => rw [((C34_sha2_n S x (c + 1)).2 (Nat.succ_pos _)).1] at h; cases h

/-- C73. `verify` raises nothing in Python and does not panic in Go. -/
theorem C73_verify_silent (S : Sha256) (msg sig epk : Bytes) (w : Nat) (hw : w = 2 ∨ w = 4 ∨ w = 16 ∨ w = 256) :
    pyCall (verify S msg sig epk w) ≠ .valueError ∧ pyCall (verify S msg sig epk w) ≠ .runtimeError ∧
      goCall (verify S msg sig epk w) ≠ .panic := by
  have h := C20_verify_no_throw S msg sig epk w hw
  rw [Ne, Ne, Ne, pyCall_valueError, pyCall_runtimeError, goCall_panic]
  exact ⟨h _, h _, fun ⟨e, he⟩ => h e he⟩

/-- A Python program that tries to rewind: the second `setIndex` raises a `ValueError`, and the signer goes on. -/
example (S : Sha256) (seed : Bytes) (hf : HashFn) (hs : seed.length = 48) (m : Bytes) :
    ∃ o0 o, pyCall (XmssFast.new S seed 4 hf.toNat 0) = .value o0 ∧
      pyRun S o0 [.setIndex 9, .setIndex 3, .sign m, .setIndex 16] =
        ([.value (.inl 9), .valueError, .value (.inr (seedSignature S hf 16 4 seed 9 m)), .valueError], o) := by
  obtain ⟨o0, h1, _, h2⟩ := C73_signer_history S seed 4 hf 0 hs goodHeight4
  obtain ⟨o, h3, _⟩ := h2 [.setIndex 9, .setIndex 3, .sign m, .setIndex 16]
  refine ⟨o0, o, h1, h3.trans ?_⟩
  simp [counterRun, counterCall, pyReply]

end Qrl.Props
