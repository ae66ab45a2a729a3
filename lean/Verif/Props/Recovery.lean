import Verif.Props.Fast
import Verif.Spec.Crash
/-!
# C08 (refutation) and C62: crash recovery from the extended seed and a saved index
-/

namespace Qrl.Props

open Outcome Spec

/-- C08. The natural property is refuted for every signer, history and message: the signature also verifies under
every public key with another signature-type nibble, address-format nibble or third byte (65536 spellings of each
key). -/
theorem C08_other_sigtype_refuted (S : Sha256) (seed : Bytes) (height : UInt8) (hf af : Nat) (o0 : XmssFast)
    (hnew : XmssFast.new S seed height hf af = ok o0) (cs : List Call) (rs : List Reply) (o : XmssFast)
    (hrun : runCalls (XmssFast.call S) o0 cs = some (rs, o)) (i : Nat) (hi : o.getIndex = ok i)
    (hlt : i < 2 ^ height.toNat) (msg : Bytes) :
    ∃ sig o' b0 b1 b2 rest, o.sign S msg = .ret sig o' ∧ o.getPK = ok (b0 :: b1 :: b2 :: rest) ∧
      ∀ b0' b1' b2' : UInt8, b0'.toNat % 16 = b0.toNat % 16 → b1'.toNat % 16 = b1.toNat % 16 →
        verify S msg sig (b0' :: b1' :: b2' :: rest) 16 = ok true := by
  obtain ⟨f, sig, o', pk, _, h1, _, _, _, h2, h3, _⟩ :=
    C12_fast_sign_verifies S seed height hf af o0 hnew cs rs o hrun i hi hlt msg
  have hl := (C20_verify_true S msg sig pk 16 (by omega) h3).1
  match pk, hl with
  | b0 :: b1 :: b2 :: rest, _ =>
    refine ⟨sig, o', b0, b1, b2, rest, h1, h2, fun b0' b1' b2' e0 e1 => ?_⟩
    rw [C08_verify_descriptor_nibbles S msg sig 16 (by omega) b0' b0 b1' b1 b2' b2 rest e0 e1]
    exact h3

/-- C62. Rebuilding from the extended seed and calling `setIndex` with the index at the crash gives back the very
object that was lost, whatever calls were made on it before. -/
theorem C62_restore_identical (S : Sha256) (seed : Bytes) (height : UInt8) (hf af : Nat) (haf : af < 16)
    (o0 : XmssFast) (hnew : XmssFast.new S seed height hf af = ok o0) (cs : List Call) (rs : List Reply)
    (o : XmssFast) (hrun : runCalls (XmssFast.call S) o0 cs = some (rs, o)) (i : Nat) (hi : o.getIndex = ok i)
    (hlt : i < 2 ^ height.toNat) :
    ∃ o1, XmssFast.fromExtendedSeed S o.getExtendedSeed = ok o1 ∧ o1.setIndex S i = .ret i o := by
  refine ⟨o0, C09_extended_seed_roundtrip S seed height hf af haf o0 hnew cs rs o hrun, ?_⟩
  have hgi0 : o0.getIndex = ok 0 := by
    obtain ⟨_, _, _, _, _, _, _, _, _, _, _, _, _, _, H⟩ := fast_fresh hnew
    have := H.getIndex 0 (Nat.zero_le _)
    rwa [fastAt_zero H] at this
  have hset := C17_fast_setIndex S seed height hf af o0 hnew [] [] o0 rfl 0 hgi0 i
  rw [if_neg (by omega)] at hset
  obtain ⟨o', h1, h2⟩ := hset
  have h32 : 2 ^ height.toNat ≤ 2 ^ 30 := by
    obtain ⟨_, hg, _⟩ := fast_fresh hnew
    exact Nat.pow_le_pow_right (by omega) hg.2.1
  have hn : (UInt32.ofNat i).toNat = i := by
    rw [UInt32.toNat_ofNat']; exact Nat.mod_eq_of_lt (by omega)
  have : o' = o := C43_history_independent S seed height hf af o0 hnew [.setIndex (UInt32.ofNat i)] cs [.index i] rs o' o
    (by simp only [runCalls, XmssFast.call, hn, h1]) hrun (by rw [h2, hi])
  rw [h1, this]

/-- The wallet at counter value `i` with `j` on disk. -/
def walletAt (S : Sha256) (f : HashFn) (K : KeyParts) (o0 : XmssFast) (es : Bytes) (x : Nat × UInt32) : Wallet :=
  { object := fastAt S f K o0 x.1, extendedSeed := es, saved := x.2 }

theorem wallet_step {S : Sha256} {f : HashFn} {K : KeyParts} {p : WotsParams} {k q : Nat} {o0 : XmssFast}
    (H : FastOk S f 16 K p k q o0) {es : Bytes} (hes : XmssFast.fromExtendedSeed S es = ok o0) (i : Nat)
    (hi : i ≤ 2 ^ o0.height.toNat) (j : UInt32) (e : Event) :
    (walletAt S f K o0 es (i, j)).step S e =
      some ((walletStep (2 ^ o0.height.toNat) (signature (f.prim S) 16 o0.height.toNat K.skSeed K.skPrf K.ps) i j e).1,
        (walletStep (2 ^ o0.height.toNat) (signature (f.prim S) 16 o0.height.toNat K.skSeed K.skPrf K.ps) i j e).2.map
          (walletAt S f K o0 es)) := by
  cases e with
  | call c =>
    rw [Wallet.step, show (walletAt S f K o0 es (i, j)).object = fastAt S f K o0 i from rfl, H.call i hi c]
    rfl
  | save n => rfl
  | crash =>
    rw [Wallet.step, show (walletAt S f K o0 es (i, j)).extendedSeed = es from rfl, hes]
    simp only [walletStep]
    rw [show (walletAt S f K o0 es (i, j)).saved = j from rfl]
    have e0 := fastAt_zero H
    by_cases hj : j.toNat < 2 ^ o0.height.toNat
    · have := H.setIndex_ok 0 j.toNat (Nat.zero_le _) hj
      rw [e0] at this
      rw [this, if_pos hj]; rfl
    · have := H.setIndex_throw 0 j.toNat (Nat.zero_le _) (by omega)
      rw [e0] at this
      rw [this, if_neg hj]; rfl

theorem walletStep_le (limit : Nat) (σ : Nat → Bytes → Bytes) (i : Nat) (hi : i ≤ limit) (j : UInt32) (e : Event)
    (r : Option Reply) (i' : Nat) (j' : UInt32) (h : walletStep limit σ i j e = (r, some (i', j'))) : i' ≤ limit := by
  cases e with
  | call c =>
    cases c with
    | setIndex n =>
      simp only [walletStep, counterCall] at h
      split at h
      · cases h; omega
      · cases h; exact hi
    | sign m =>
      simp only [walletStep, counterCall] at h
      split at h
      · cases h; omega
      · cases h; exact hi
  | save n => cases h; exact hi
  | crash =>
    simp only [walletStep] at h
    split at h
    · cases h; omega
    · cases h

theorem wallet_run {S : Sha256} {f : HashFn} {K : KeyParts} {p : WotsParams} {k q : Nat} {o0 : XmssFast}
    (H : FastOk S f 16 K p k q o0) {es : Bytes} (hes : XmssFast.fromExtendedSeed S es = ok o0) (evs : List Event) :
    ∀ (i : Nat) (_ : i ≤ 2 ^ o0.height.toNat) (j : UInt32),
    (walletAt S f K o0 es (i, j)).run S evs =
      some ((walletRun (2 ^ o0.height.toNat) (signature (f.prim S) 16 o0.height.toNat K.skSeed K.skPrf K.ps) i j evs).1,
        (walletRun (2 ^ o0.height.toNat) (signature (f.prim S) 16 o0.height.toNat K.skSeed K.skPrf K.ps) i j evs).2.map
          (walletAt S f K o0 es)) ∧
    ∀ x, (walletRun (2 ^ o0.height.toNat) (signature (f.prim S) 16 o0.height.toNat K.skSeed K.skPrf K.ps) i j evs).2 =
      some x → x.1 ≤ 2 ^ o0.height.toNat := by
  induction evs with
  | nil => intro i hi j; exact ⟨rfl, fun x hx => by cases hx; exact hi⟩
  | cons e evs ih =>
    intro i hi j
    rw [Wallet.run, wallet_step H hes i hi j e]
    rw [walletRun]
    match hst : walletStep (2 ^ o0.height.toNat)
        (signature (f.prim S) 16 o0.height.toNat K.skSeed K.skPrf K.ps) i j e with
    | (r, none) => exact ⟨rfl, fun x hx => by cases hx⟩
    | (r, some (i', j')) =>
      obtain ⟨h1, h2⟩ := ih i' (walletStep_le _ _ i hi j e r i' j' hst) j'
      refine ⟨?_, h2⟩
      simp only [Option.map_some, h1]

/-- C62. A wallet that can crash at any point behaves, call by call, as the ideal wallet: one counter, which a
restart sets to the index on disk; a restart with an index that is not below `2^height` stops the wallet. In
particular no call is ever undefined. -/
theorem C62_wallet_refines (S : Sha256) (seed : Bytes) (height : UInt8) (hf : HashFn) (af : Nat) (haf : af < 16)
    (o0 : XmssFast) (hnew : XmssFast.new S seed height hf.toNat af = ok o0) (j : UInt32) (evs : List Event) :
    ∃ last, (Wallet.mk o0 o0.getExtendedSeed j).run S evs =
        some ((walletRun (2 ^ height.toNat) (seedSignature S hf 16 height.toNat seed) 0 j evs).1, last) ∧
      (match (walletRun (2 ^ height.toNat) (seedSignature S hf 16 height.toNat seed) 0 j evs).2 with
      | none => last = none
      | some (i, j') => ∃ v, last = some v ∧ v.object.getIndex = ok i ∧ v.saved = j' ∧
          v.extendedSeed = o0.getExtendedSeed) := by
  have hes := C09_extended_seed_roundtrip S seed height hf.toNat af haf o0 hnew [] [] o0 rfl
  obtain ⟨hs, hg, f, hf1, hf2, rfl, e2, e3, e4, p, k, q, hp, e5, H⟩ := fast_fresh hnew
  rw [ofNat?_toNat] at hf2
  cases hf2
  obtain ⟨h1, h2⟩ := wallet_run H hes evs 0 (Nat.zero_le _) j
  have e0 : walletAt S hf (keyOf S hf 16 o0.height.toNat (lenW_pos (by omega)) seed) o0 o0.getExtendedSeed (0, j) =
      Wallet.mk o0 o0.getExtendedSeed j := by
    rw [walletAt, fastAt_zero H]
  rw [e0] at h1
  refine ⟨_, h1, ?_⟩
  have h3 : seedSignature S hf 16 o0.height.toNat seed = signature (hf.prim S) 16 o0.height.toNat
    (keyOf S hf 16 o0.height.toNat (lenW_pos (by omega)) seed).skSeed
    (keyOf S hf 16 o0.height.toNat (lenW_pos (by omega)) seed).skPrf
    (keyOf S hf 16 o0.height.toNat (lenW_pos (by omega)) seed).ps := rfl
  rw [h3]
  match hr : (walletRun (2 ^ o0.height.toNat) (signature (hf.prim S) 16 o0.height.toNat
    (keyOf S hf 16 o0.height.toNat (lenW_pos (by omega)) seed).skSeed
    (keyOf S hf 16 o0.height.toNat (lenW_pos (by omega)) seed).skPrf
    (keyOf S hf 16 o0.height.toNat (lenW_pos (by omega)) seed).ps) 0 j evs).2 with
  | none => rfl
  | some (i, j') => exact ⟨_, rfl, H.getIndex i (h2 _ hr), rfl, rfl⟩

theorem signatures_append (a b : List Reply) : signatures (a ++ b) = signatures a ++ signatures b := by
  induction a with
  | nil => rfl
  | cons r a ih => cases r <;> simp [signatures, ih]

theorem wallet_no_reuse {S : Sha256} {f : HashFn} {K : KeyParts} {p : WotsParams} {k q : Nat} {o0 : XmssFast}
    (H : FastOk S f 16 K p k q o0) {es : Bytes} (hes : XmssFast.fromExtendedSeed S es = ok o0) (evs : List Event) :
    ∀ (i : Nat) (_ : i ≤ 2 ^ o0.height.toNat) (j : UInt32),
    Wallet.WritesAhead S (walletAt S f K o0 es (i, j)) evs →
    let rs := (walletRun (2 ^ o0.height.toNat)
      (signature (f.prim S) 16 o0.height.toNat K.skSeed K.skPrf K.ps) i j evs).1
    ((signatures rs).map sigIndex).Pairwise (· < ·) ∧
      ∀ s ∈ signatures rs, min i j.toNat ≤ sigIndex s ∧ sigIndex s < 2 ^ o0.height.toNat := by
  have h32 := H.pow_lt
  induction evs with
  | nil => intro i hi j _; simp [walletRun, signatures]
  | cons e evs ih =>
    intro i hi j hw
    rw [Wallet.WritesAhead.eq_def] at hw
    simp only at hw
    rw [wallet_step H hes i hi j e] at hw
    obtain ⟨hw1, hw2⟩ := hw
    rw [walletRun]
    match hst : walletStep (2 ^ o0.height.toNat)
        (signature (f.prim S) 16 o0.height.toNat K.skSeed K.skPrf K.ps) i j e with
    | (r, none) =>
      have : r = none := by
        cases e with
        | call c => cases hst
        | save n => cases hst
        | crash =>
          simp only [walletStep] at hst
          split at hst <;> cases hst
          rfl
      subst this
      simp [signatures]
    | (r, some (i', j')) =>
      rw [hst] at hw2
      obtain ⟨h1, h2⟩ := ih i' (walletStep_le _ _ i hi j e r i' j' hst) j' hw2
      simp only [signatures_append]
      cases e with
      | save n =>
        cases hst
        refine ⟨h1, fun s hs => ?_⟩
        have := h2 s hs
        simp only at hw1
        have hjn : j.toNat ≤ j'.toNat := hw1
        omega
      | crash =>
        simp only [walletStep] at hst
        split at hst
        · cases hst
          refine ⟨h1, fun s hs => ?_⟩
          have := h2 s hs
          omega
        · cases hst
      | call c =>
        cases c with
        | setIndex n =>
          simp only [walletStep, counterCall] at hst
          split at hst
          · cases hst
            refine ⟨h1, fun s hs => ?_⟩
            have := h2 s hs
            omega
          · cases hst; exact ⟨h1, h2⟩
        | sign m =>
          have hij : i < j.toNat := hw1 i (H.getIndex i hi)
          simp only [walletStep, counterCall] at hst
          split at hst
          · rename_i hlt
            cases hst
            have hsi := sigIndex_signature S f 16 o0.height.toNat K.skSeed K.skPrf K.ps i m (by omega)
            simp only [Option.toList_some, signatures, List.cons_append, List.nil_append, List.map_cons,
              List.pairwise_cons, List.mem_cons, List.mem_map, hsi]
            refine ⟨⟨?_, h1⟩, ?_⟩
            · rintro a ⟨s, hs, rfl⟩
              have := h2 s hs
              omega
            · rintro s (rfl | hs)
              · rw [hsi]; omega
              · have := h2 s hs; omega
          · cases hst; exact ⟨h1, h2⟩

/-- The discipline, read on the ideal counter. -/
def aheadOn (limit : Nat) : Nat → UInt32 → List Event → Bool
  | _, _, [] => true
  | i, j, .call (.sign _) :: es => decide (i < j.toNat) && aheadOn limit (if i < limit then i + 1 else i) j es
  | i, j, .call (.setIndex n) :: es => aheadOn limit (if i ≤ n.toNat ∧ n.toNat < limit then n.toNat else i) j es
  | i, j, .save n :: es => decide (j.toNat ≤ n.toNat) && aheadOn limit i n es
  | _, j, .crash :: es => if j.toNat < limit then aheadOn limit j.toNat j es else true

theorem ahead_of {S : Sha256} {f : HashFn} {K : KeyParts} {p : WotsParams} {k q : Nat} {o0 : XmssFast}
    (H : FastOk S f 16 K p k q o0) {es : Bytes} (hes : XmssFast.fromExtendedSeed S es = ok o0) (evs : List Event) :
    ∀ (i : Nat) (_ : i ≤ 2 ^ o0.height.toNat) (j : UInt32), aheadOn (2 ^ o0.height.toNat) i j evs = true →
    Wallet.WritesAhead S (walletAt S f K o0 es (i, j)) evs := by
  induction evs with
  | nil => intro i hi j _; trivial
  | cons e evs ih =>
    intro i hi j ha
    rw [Wallet.WritesAhead.eq_def]
    simp only
    rw [wallet_step H hes i hi j e]
    cases e with
    | save n =>
      rw [aheadOn, Bool.and_eq_true, decide_eq_true_iff] at ha
      exact ⟨ha.1, ih i hi n ha.2⟩
    | crash =>
      rw [aheadOn] at ha
      refine ⟨trivial, ?_⟩
      simp only [walletStep]
      by_cases hj : j.toNat < 2 ^ o0.height.toNat
      · rw [if_pos hj] at ha ⊢; exact ih _ (by omega) j ha
      · rw [if_neg hj]; trivial
    | call c =>
      cases c with
      | setIndex n =>
        rw [aheadOn] at ha
        refine ⟨trivial, ?_⟩
        simp only [walletStep, counterCall, Option.map_some]
        split at ha
        · rename_i h; rw [if_pos h]; exact ih _ (by omega) j ha
        · rename_i h; rw [if_neg h]; exact ih _ hi j ha
      | sign m =>
        rw [aheadOn, Bool.and_eq_true, decide_eq_true_iff] at ha
        refine ⟨fun i' hi' => ?_, ?_⟩
        · have : (fastAt S f K o0 i).getIndex = ok i' := hi'
          rw [H.getIndex i hi] at this
          cases this; exact ha.1
        · simp only [walletStep, counterCall, Option.map_some]
          have ha2 := ha.2
          split at ha2
          · rename_i h; rw [if_pos h]; exact ih _ (by omega) j ha2
          · rename_i h; rw [if_neg h]; exact ih _ hi j ha2

/-- C62. If the wallet writes ahead, then whatever the calls, saves and crashes, no one-time key is used twice: the
indices of all signatures it ever gives are strictly increasing, and below `2^height`. -/
theorem C62_no_reuse_across_crashes (S : Sha256) (seed : Bytes) (height : UInt8) (hf af : Nat) (haf : af < 16)
    (o0 : XmssFast) (hnew : XmssFast.new S seed height hf af = ok o0) (j : UInt32) (evs : List Event)
    (hw : Wallet.WritesAhead S (Wallet.mk o0 o0.getExtendedSeed j) evs) (rs : List Reply) (last : Option Wallet)
    (hrun : (Wallet.mk o0 o0.getExtendedSeed j).run S evs = some (rs, last)) :
    ((signatures rs).map sigIndex).Pairwise (· < ·) ∧ ∀ s ∈ signatures rs, sigIndex s < 2 ^ height.toNat := by
  have hes := C09_extended_seed_roundtrip S seed height hf af haf o0 hnew [] [] o0 rfl
  obtain ⟨hs, hg, f, hf1, hf2, rfl, e2, e3, e4, p, k, q, hp, e5, H⟩ := fast_fresh hnew
  have e0 : walletAt S f (keyOf S f 16 o0.height.toNat (lenW_pos (by omega)) seed) o0 o0.getExtendedSeed (0, j) =
      Wallet.mk o0 o0.getExtendedSeed j := by
    rw [walletAt, fastAt_zero H]
  have h1 := (wallet_run H hes evs 0 (Nat.zero_le _) j).1
  rw [e0, hrun] at h1
  cases h1
  obtain ⟨h2, h3⟩ := wallet_no_reuse H hes evs 0 (Nat.zero_le _) j (by rw [e0]; exact hw)
  exact ⟨h2, fun s hs => (h3 s hs).2⟩

/-- C62. Saving after signing is not enough (the natural discipline is refuted): a crash between `sign` and the save
makes the next signature use the same one-time key. -/
theorem C62_save_after_sign_refuted (S : Sha256) (seed : Bytes) (height : UInt8) (hf af : Nat) (haf : af < 16)
    (o0 : XmssFast) (hnew : XmssFast.new S seed height hf af = ok o0) (m1 m2 : Bytes) :
    ∃ s1 s2 v, (Wallet.mk o0 o0.getExtendedSeed 0).run S [.call (.sign m1), .crash, .call (.sign m2), .save 1] =
      some ([.sig s1, .sig s2], some v) ∧ sigIndex s1 = 0 ∧ sigIndex s2 = 0 := by
  obtain ⟨_, hg, f, hf1, _⟩ := fast_fresh hnew
  subst hf1
  obtain ⟨last, h1, h2⟩ := C62_wallet_refines S seed height f af haf o0 hnew 0
    [.call (.sign m1), .crash, .call (.sign m2), .save 1]
  have hp : 0 < 2 ^ height.toNat := Nat.two_pow_pos _
  have e : walletRun (2 ^ height.toNat) (seedSignature S f 16 height.toNat seed) 0 0
      [.call (.sign m1), .crash, .call (.sign m2), .save 1] =
      ([.sig (seedSignature S f 16 height.toNat seed 0 m1), .sig (seedSignature S f 16 height.toNat seed 0 m2)],
        some (1, 1)) := by
    simp [walletRun, walletStep, counterCall]
  rw [e] at h1 h2
  obtain ⟨v, rfl, _⟩ := h2
  exact ⟨_, _, v, h1, sigIndex_signature S f 16 _ _ _ _ 0 m1 (by omega), sigIndex_signature S f 16 _ _ _ _ 0 m2 (by omega)⟩

/-- C62. A used-up signer cannot be restored as such (refuted): its index `2^height` is refused by `setIndex`, and the
rebuilt object the caller is left with stands at index 0, so that its next signature uses one-time key 0 again. -/
theorem C62_exhausted_restore_refuted (S : Sha256) (seed : Bytes) (height : UInt8) (hf af : Nat) (haf : af < 16)
    (o0 : XmssFast) (hnew : XmssFast.new S seed height hf af = ok o0) (cs : List Call) (rs : List Reply)
    (o : XmssFast) (hrun : runCalls (XmssFast.call S) o0 cs = some (rs, o))
    (hi : o.getIndex = ok (2 ^ height.toNat)) (msg : Bytes) :
    ∃ o1, XmssFast.fromExtendedSeed S o.getExtendedSeed = ok o1 ∧
      o1.setIndex S (2 ^ height.toNat) = .raise .invalidArgument o1 ∧ o.sign S msg = .raise .invalidArgument o ∧
      ∃ sig o2, o1.sign S msg = .ret sig o2 ∧ sigIndex sig = 0 := by
  have hgi0 : o0.getIndex = ok 0 := by
    obtain ⟨_, _, _, _, _, _, _, _, _, _, _, _, _, _, H⟩ := fast_fresh hnew
    have := H.getIndex 0 (Nat.zero_le _)
    rwa [fastAt_zero H] at this
  have hset := C17_fast_setIndex S seed height hf af o0 hnew [] [] o0 rfl 0 hgi0 (2 ^ height.toNat)
  rw [if_pos (by omega)] at hset
  obtain ⟨i, a1, a2, a3, a4⟩ := C17_fast_exhaustion S seed height hf af o0 hnew cs rs o hrun
  rw [hi] at a1
  cases a1
  have a4 := a4 msg
  rw [if_pos rfl] at a4
  obtain ⟨_, sig, o2, _, _, b1, _, _, b2, _⟩ := C12_fast_sign_verifies S seed height hf af o0 hnew [] [] o0 rfl 0 hgi0
    (Nat.two_pow_pos _) msg
  exact ⟨o0, C09_extended_seed_roundtrip S seed height hf af haf o0 hnew cs rs o hrun, hset, a4, sig, o2, b1, b2⟩

/-- The hypotheses are met: save 1, sign, crash, save 9, setIndex 8, sign, crash, save 12, sign; the signatures use
keys 0, 8 and 9. -/
example : ∃ o0, XmssFast.new toySha zeroSeed 4 1 0 = ok o0 ∧
    ∃ rs last, (Wallet.mk o0 o0.getExtendedSeed 0).run toySha [.save 1, .call (.sign [1]), .crash, .save 9,
        .call (.setIndex 8), .call (.sign [2]), .crash, .save 12, .call (.sign [3])] = some (rs, last) ∧
      (signatures rs).length = 3 ∧
      Wallet.WritesAhead toySha (Wallet.mk o0 o0.getExtendedSeed 0) [.save 1, .call (.sign [1]), .crash, .save 9,
        .call (.setIndex 8), .call (.sign [2]), .crash, .save 12, .call (.sign [3])] := by
  obtain ⟨o0, h⟩ := (C39_fast_succeeds toySha zeroSeed 4 1 0).mpr ⟨rfl, goodHeight4, by omega⟩
  obtain ⟨last, h1, h2⟩ := C62_wallet_refines toySha zeroSeed 4 .shake_128 0 (by omega) o0 h 0
    [.save 1, .call (.sign [1]), .crash, .save 9, .call (.setIndex 8), .call (.sign [2]), .crash, .save 12,
      .call (.sign [3])]
  refine ⟨o0, h, _, last, h1, rfl, ?_⟩
  have hes := C09_extended_seed_roundtrip toySha zeroSeed 4 1 0 (by omega) o0 h [] [] o0 rfl
  obtain ⟨hs, hg, f, hf1, hf2, e1, e2, e3, e4, p, k, q, hp, e5, H⟩ := fast_fresh h
  have e0 := fastAt_zero H
  have e0' : walletAt toySha f (keyOf toySha f 16 (4 : UInt8).toNat (lenW_pos (by omega)) zeroSeed) o0 o0.getExtendedSeed (0, 0) =
      Wallet.mk o0 o0.getExtendedSeed 0 := by
    rw [walletAt, e0]
  rw [← e0']
  refine ahead_of H hes _ 0 (Nat.zero_le _) 0 ?_
  rw [e1]
  decide

end Qrl.Props
