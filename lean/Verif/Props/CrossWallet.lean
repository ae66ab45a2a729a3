import Verif.Spec.CrossWallet
import Verif.Props.Recovery
import Verif.Props.Reinit
import Verif.Props.RustAnyW
/-!
# C71: one wallet, two implementations, crashes at any point
-/

namespace Qrl.Props

open Outcome Spec

/-- What the two implementations answer to signing at an index. -/
def crossSignature (S : Sha256) (hf : HashFn) (h : Nat) (seed : Bytes) : Program → Nat → Bytes → Option Bytes
  | .cpp, i, m => some (seedSignature S hf 16 h seed i m)
  | .rust _, i, m => rustSignature S hf 16 h seed i m

/-- The extended seed of a key with address format 0. -/
def extendedSeedOf (hf : HashFn) (height : UInt8) (seed : Bytes) : Bytes :=
  [UInt8.ofNat hf.toNat, UInt8.ofNat (height.toNat / 2), 0] ++ seed

/-- The signer is the canonical one of its program at its index. -/
def SignerAt (S : Sha256) (hf : HashFn) (seed : Bytes) (height : UInt8) : Signer → Program × Nat → Prop
  | .cpp o, (.cpp, i) => Canon S hf seed height 0 16 i o
  | .rust b o, (.rust b', i) => b = b' ∧ RsCanonW S hf seed height 16 i o
  | _, _ => False

def SignerIs (S : Sha256) (hf : HashFn) (seed : Bytes) (height : UInt8) : Option Signer → Option (Program × Nat) → Prop
  | none, none => True
  | some s, some x => SignerAt S hf seed height s x
  | _, _ => False

theorem signerAt_facts {S : Sha256} {hf : HashFn} {seed : Bytes} {height : UInt8} {s : Signer} {x : Program × Nat}
    (h : SignerAt S hf seed height s x) : s.program = x.1 ∧ s.index = some x.2 ∧ x.2 ≤ 2 ^ height.toNat := by
  obtain ⟨p, i⟩ := x
  cases s with
  | cpp o =>
    cases p with
    | cpp =>
      obtain ⟨hw, p, k, q, o1, H, rfl, e2, e3, hi, rfl⟩ := h
      exact ⟨rfl, by rw [Signer.index, H.getIndex i hi], hi⟩
    | rust b => exact h.elim
  | rust b o =>
    cases p with
    | cpp => exact h.elim
    | rust b' =>
      obtain ⟨rfl, h⟩ := h
      refine ⟨rfl, by rw [Signer.index, rsCanonW_index h], ?_⟩
      obtain ⟨hw, o1, H, rfl, rfl, e3, hi, rfl⟩ := h
      exact hi

theorem rs_call {b : Rs.Build} {S : Sha256} {f : HashFn} {seed : Bytes} {height : UInt8} {i : Nat} {o : Rs.XMSSFast}
    (h : RsCanonW S f seed height 16 i o) (n : UInt32) :
    if i ≤ n.toNat ∧ n.toNat < 2 ^ height.toNat then
      ∃ o', o.setIndex b S n.toNat = .ret n.toNat o' ∧ RsCanonW S f seed height 16 n.toNat o'
    else o.setIndex b S n.toNat = .fail .invalidArgument o := by
  obtain ⟨hw, o1, H, rfl, rfl, e3, hi, rfl⟩ := h
  split
  · rename_i hc
    exact ⟨_, H.setIndex_ok b i n.toNat hc.1 hc.2, hw, o1, H, rfl, rfl, e3, by omega, rfl⟩
  · rename_i hc
    exact H.setIndex_fail b i n.toNat hi (by omega)

theorem cpp_extendedSeed {S : Sha256} {hf : HashFn} {seed : Bytes} {height : UInt8} {o0 : XmssFast}
    (h : XmssFast.new S seed height hf.toNat 0 = ok o0) : o0.getExtendedSeed = extendedSeedOf hf height seed := by
  obtain ⟨_, hh, f, hf1, hf2, e1, e2, e3, e4, _⟩ := fast_fresh h
  have hmod : height.toNat / 2 % 16 = height.toNat / 2 := Nat.mod_eq_of_lt (by have := hh.2.1; omega)
  have hn : hf.toNat < 16 := by cases hf <;> decide
  rw [XmssBase.getExtendedSeed, XmssBase.getDescriptorBytes, getBytes_eq, XmssBase.getDescriptor, descriptorBytes]
  simp only [e1, e2, e3, e4]
  rw [Nat.mod_eq_of_lt hn, hmod, show sigTypeXMSS = 0 from rfl, Nat.mul_zero, Nat.zero_add, Nat.zero_add]
  rfl

/-- Both implementations restore from the extended seed. -/
theorem restore_ok {S : Sha256} {hf : HashFn} {seed : Bytes} {height : UInt8} (hs : seed.length = 48) (hh : GoodHeight height)
    (n : UInt32) (p : Program) :
    ∃ s, p.restore S (extendedSeedOf hf height seed) n.toNat = some s ∧
      SignerIs S hf seed height s (if n.toNat < 2 ^ height.toNat then some (p, n.toNat) else none) := by
  have hmod : height.toNat / 2 % 16 = height.toNat / 2 := Nat.mod_eq_of_lt (by have := hh.2.1; omega)
  cases p with
  | cpp =>
    obtain ⟨o0, h⟩ := (C39_fast_succeeds S seed height hf.toNat 0).mpr ⟨hs, hh, by cases hf <;> decide⟩
    have hes := C09_extended_seed_roundtrip S seed height hf.toNat 0 (by omega) o0 h [] [] o0 rfl
    have he := cpp_extendedSeed h
    rw [he] at hes
    have hc := canon_fresh h
    obtain ⟨hw, p, k, q, o1, H, rfl, e2, e3, hi, h0⟩ := hc
    rw [Program.restore, hes]
    simp only
    rw [h0]
    by_cases hn : n.toNat < 2 ^ o1.height.toNat
    · rw [H.setIndex_ok 0 n.toNat (Nat.zero_le _) hn, if_pos hn]
      exact ⟨_, rfl, hw, p, k, q, o1, H, rfl, e2, e3, by omega, rfl⟩
    · rw [H.setIndex_throw 0 n.toNat (Nat.zero_le _) (by omega), if_neg hn]
      exact ⟨_, rfl, trivial⟩
  | rust b =>
    have hd : Rs.Descriptor.fromBytes [UInt8.ofNat hf.toNat, UInt8.ofNat (height.toNat / 2), 0] = .ok ⟨hf, height⟩ := by
      have := C54_roundtrip ⟨hf, height⟩ hh.2.2 (Nat.lt_succ_of_le (Nat.le_succ_of_le hh.2.1))
      rw [rs_getBytes] at this
      simp only [hmod] at this
      exact this
    have hes := C51_from_extended_seed b S ⟨hf, height⟩ _ seed hd hs
    obtain ⟨o, h1, h2⟩ := rsCanonW_new b S seed height hf 16 (by decide) hs hh
    rw [Program.restore, show extendedSeedOf hf height seed = [UInt8.ofNat hf.toNat, UInt8.ofNat (height.toNat / 2), 0] ++ seed from rfl,
      hes]
    simp only
    rw [h1]
    simp only
    have := rs_call (b := b) h2 n
    by_cases hn : n.toNat < 2 ^ height.toNat
    · rw [if_pos ⟨Nat.zero_le _, hn⟩] at this
      obtain ⟨o', g1, g2⟩ := this
      rw [g1, if_pos hn]
      exact ⟨_, rfl, rfl, g2⟩
    · rw [if_neg (fun h => hn h.2)] at this
      rw [this, if_neg hn]
      exact ⟨_, rfl, trivial⟩

theorem cross_step {S : Sha256} {hf : HashFn} {seed : Bytes} {height : UInt8} (hs : seed.length = 48) (hh : GoodHeight height)
    (s : Option Signer) (x : Option (Program × Nat)) (hx : SignerIs S hf seed height s x) (j : UInt32) (e : CrossEvent) :
    ∃ s', (CrossWallet.mk s (extendedSeedOf hf height seed) j).step S e =
        some ((crossStep (2 ^ height.toNat) (crossSignature S hf height.toNat seed) x j e).1,
          CrossWallet.mk s' (extendedSeedOf hf height seed) (crossStep (2 ^ height.toNat) (crossSignature S hf height.toNat seed) x j e).2.2) ∧
      SignerIs S hf seed height s' (crossStep (2 ^ height.toNat) (crossSignature S hf height.toNat seed) x j e).2.1 := by
  cases e with
  | save n => exact ⟨s, rfl, hx⟩
  | crash => exact ⟨none, rfl, trivial⟩
  | start p =>
    obtain ⟨s', h1, h2⟩ := restore_ok (S := S) (hf := hf) hs hh j p
    refine ⟨s', ?_, h2⟩
    rw [CrossWallet.step]
    simp only
    rw [h1]
    rfl
  | call c =>
    cases s with
    | none =>
      cases x with
      | none => exact ⟨none, rfl, trivial⟩
      | some x => exact hx.elim
    | some s =>
      cases x with
      | none => exact hx.elim
      | some x =>
        obtain ⟨p, i⟩ := x
        cases s with
        | cpp o =>
          cases p with
          | rust b => exact hx.elim
          | cpp =>
            have hcan : Canon S hf seed height 0 16 i o := hx
            obtain ⟨o', h1, h2⟩ := canon_call hs hcan (.basic c) (by intro w hw; simp at hw)
            have h1' : XmssFast.call S o c = some ((counterCall (2 ^ height.toNat) (seedSignature S hf 16 height.toNat seed) i c).1, o') := by
              rw [XmssFast.fullCall] at h1
              cases hx : XmssFast.call S o c with
              | none => rw [hx] at h1; cases h1
              | some y =>
                obtain ⟨r, o2⟩ := y
                rw [hx] at h1
                have h3 : some (some r, o2) = some (some (counterCall (2 ^ height.toNat) (seedSignature S hf 16 height.toNat seed) i c).1, o') := h1
                simp only [Option.some.injEq, Prod.mk.injEq] at h3
                rw [h3.1, h3.2]
            have h2' : Canon S hf seed height 0 16 (counterCall (2 ^ height.toNat) (seedSignature S hf 16 height.toNat seed) i c).2 o' := h2
            rw [CrossWallet.step]
            simp only [Signer.call, h1']
            cases c with
            | setIndex n =>
              simp only [counterCall, crossStep] at h2' ⊢
              by_cases hc : i ≤ n.toNat ∧ n.toNat < 2 ^ height.toNat
              · rw [if_pos hc] at h2' ⊢; rw [if_pos hc]
                exact ⟨_, rfl, h2'⟩
              · rw [if_neg hc] at h2' ⊢; rw [if_neg hc]
                exact ⟨_, rfl, h2'⟩
            | sign m =>
              simp only [counterCall, crossStep, crossSignature] at h2' ⊢
              by_cases hc : i < 2 ^ height.toNat
              · rw [if_pos hc] at h2' ⊢; rw [if_pos hc]
                exact ⟨_, rfl, h2'⟩
              · rw [if_neg hc] at h2' ⊢; rw [if_neg hc]
                exact ⟨_, rfl, h2'⟩
        | rust b o =>
          cases p with
          | cpp => exact hx.elim
          | rust b' =>
            obtain ⟨rfl, hcan⟩ := hx
            cases c with
            | setIndex n =>
              have := rs_call (b := b) hcan n
              rw [CrossWallet.step]
              simp only [Signer.call, Rs.XMSSFast.call, crossStep]
              by_cases hc : i ≤ n.toNat ∧ n.toNat < 2 ^ height.toNat
              · rw [if_pos hc] at this
                obtain ⟨o', g1, g2⟩ := this
                rw [g1, if_pos hc]
                exact ⟨_, rfl, rfl, g2⟩
              · rw [if_neg hc] at this
                rw [this, if_neg hc]
                exact ⟨_, rfl, rfl, hcan⟩
            | sign m =>
              obtain ⟨h1, h2⟩ := rsCanonW_sign (b := b) hcan m
              rw [C69_supported_agree b S hf 16 (by omega)] at h1
              rw [CrossWallet.step]
              simp only [Signer.call, Rs.XMSSFast.call, crossStep, crossSignature]
              by_cases hc : i < 2 ^ height.toNat
              · have h1 := h1 hc
                rw [if_pos hc]
                cases hsig : rustSignature S hf 16 height.toNat seed i m with
                | none =>
                  rw [hsig] at h1
                  simp only at h1
                  rw [h1]
                  exact ⟨none, rfl, trivial⟩
                | some sg =>
                  rw [hsig] at h1
                  obtain ⟨o', g1, g2⟩ := h1
                  rw [g1]
                  exact ⟨_, rfl, rfl, g2⟩
              · rw [h2 hc, if_neg hc]
                exact ⟨_, rfl, rfl, hcan⟩

theorem cross_run {S : Sha256} {hf : HashFn} {seed : Bytes} {height : UInt8} (hs : seed.length = 48) (hh : GoodHeight height)
    (evs : List CrossEvent) : ∀ (s : Option Signer) (x : Option (Program × Nat)) (_ : SignerIs S hf seed height s x) (j : UInt32),
    ∃ s', (CrossWallet.mk s (extendedSeedOf hf height seed) j).run S evs =
        some ((crossRun (2 ^ height.toNat) (crossSignature S hf height.toNat seed) x j evs).1,
          CrossWallet.mk s' (extendedSeedOf hf height seed) (crossRun (2 ^ height.toNat) (crossSignature S hf height.toNat seed) x j evs).2.2) ∧
      SignerIs S hf seed height s' (crossRun (2 ^ height.toNat) (crossSignature S hf height.toNat seed) x j evs).2.1 := by
  induction evs with
  | nil => intro s x hx j; exact ⟨s, rfl, hx⟩
  | cons e evs ih =>
    intro s x hx j
    obtain ⟨s1, h1, h2⟩ := cross_step hs hh s x hx j e
    obtain ⟨s2, h3, h4⟩ := ih s1 _ h2 (crossStep (2 ^ height.toNat) (crossSignature S hf height.toNat seed) x j e).2.2
    rw [CrossWallet.run, h1]
    simp only
    rw [h3]
    exact ⟨s2, rfl, h4⟩

/-- C71. The two implementations write the same extended seed for the same seed, height and hash function. -/
theorem C71_same_extended_seed (b : Rs.Build) (S : Sha256) (seed : Bytes) (height : UInt8) (hf : HashFn) (hs : seed.length = 48)
    (hh : GoodHeight height) :
    ∃ c o, XmssFast.new S seed height hf.toNat 0 = ok c ∧ Rs.XMSSFast.new b S seed height hf 16 = .ok o ∧
      c.getExtendedSeed = extendedSeedOf hf height seed ∧ o.getExtendedSeed = extendedSeedOf hf height seed := by
  obtain ⟨o, c, h1, h2, h3, hl, _⟩ := C51_fast_same_key b S seed height hf hs hh
  have he := cpp_extendedSeed h2
  exact ⟨c, o, h2, h1, he, ((C51_same_getters _ _ h3 hl).2.2.2.2.2.2).trans he⟩

/-- C71. **Refinement.** A wallet whose process may be killed at any point and restarted on either implementation behaves, call
by call, as the ideal wallet: one counter, which a start sets to the index on disk. Nothing is ever undefined. -/
theorem C71_refines (S : Sha256) (seed : Bytes) (height : UInt8) (hf : HashFn) (hs : seed.length = 48) (hh : GoodHeight height)
    (j : UInt32) (evs : List CrossEvent) :
    ∃ v, (CrossWallet.mk none (extendedSeedOf hf height seed) j).run S evs =
        some ((crossRun (2 ^ height.toNat) (crossSignature S hf height.toNat seed) none j evs).1, v) ∧
      v.extendedSeed = extendedSeedOf hf height seed ∧
      v.saved = (crossRun (2 ^ height.toNat) (crossSignature S hf height.toNat seed) none j evs).2.2 ∧
      (match (crossRun (2 ^ height.toNat) (crossSignature S hf height.toNat seed) none j evs).2.1 with
      | none => v.signer = none
      | some (p, i) => ∃ s, v.signer = some s ∧ s.program = p ∧ s.index = some i) := by
  obtain ⟨s, h1, h2⟩ := cross_run (S := S) (hf := hf) hs hh evs none none trivial j
  refine ⟨_, h1, rfl, rfl, ?_⟩
  cases hx : (crossRun (2 ^ height.toNat) (crossSignature S hf height.toNat seed) none j evs).2.1 with
  | none =>
    rw [hx] at h2
    cases s with
    | none => rfl
    | some s => exact h2.elim
  | some x =>
    rw [hx] at h2
    cases s with
    | none => exact h2.elim
    | some s => exact ⟨s, rfl, (signerAt_facts h2).1, (signerAt_facts h2).2.1⟩

theorem crossSignature_index {S : Sha256} {hf : HashFn} {h : Nat} {seed : Bytes} {p : Program} {i : Nat} {m s : Bytes} (hi : i < 2 ^ 32)
    (hsg : crossSignature S hf h seed p i m = some s) : sigIndex s = i := by
  cases p with
  | cpp => cases hsg; exact sigIndex_signature S hf 16 _ _ _ _ i m hi
  | rust b =>
    rw [crossSignature, rustSignature] at hsg
    cases hr : rustSigned hf (seedSignKey S hf 16 h seed i) m with
    | none => rw [hr] at hsg; cases hsg
    | some m' => rw [hr] at hsg; cases hsg; exact sigIndex_signature S hf 16 _ _ _ _ i m' hi

/-- The lowest index the ideal wallet can still use. -/
def lowest (x : Option (Program × Nat)) (j : UInt32) : Nat :=
  match x with
  | none => j.toNat
  | some (_, i) => min i j.toNat

theorem cross_no_reuse {S : Sha256} {hf : HashFn} {seed : Bytes} {height : UInt8} (hs : seed.length = 48) (hh : GoodHeight height)
    (evs : List CrossEvent) : ∀ (s : Option Signer) (x : Option (Program × Nat)) (_ : SignerIs S hf seed height s x) (j : UInt32),
    CrossWallet.WritesAhead S (CrossWallet.mk s (extendedSeedOf hf height seed) j) evs →
    let rs := (crossRun (2 ^ height.toNat) (crossSignature S hf height.toNat seed) x j evs).1
    ((signatures rs).map sigIndex).Pairwise (· < ·) ∧
      ∀ s ∈ signatures rs, lowest x j ≤ sigIndex s ∧ sigIndex s < 2 ^ height.toNat := by
  have h32 : 2 ^ height.toNat ≤ 2 ^ 30 := Nat.pow_le_pow_right (by omega) hh.2.1
  induction evs with
  | nil => intro s x hx j _; simp [crossRun, signatures]
  | cons e evs ih =>
    intro s x hx j hw
    rw [CrossWallet.WritesAhead.eq_def] at hw
    simp only at hw
    obtain ⟨s1, h1, h2⟩ := cross_step hs hh s x hx j e
    rw [h1] at hw
    obtain ⟨hw1, hw2⟩ := hw
    obtain ⟨g1, g2⟩ := ih s1 _ h2 _ hw2
    rw [crossRun]
    simp only [signatures_append]
    cases e with
    | save n =>
      refine ⟨g1, fun t ht => ?_⟩
      have g3 := g2 t ht
      have hjn : j.toNat ≤ n.toNat := hw1
      refine ⟨?_, g3.2⟩
      have g4 : lowest x n ≤ sigIndex t := g3.1
      cases x with
      | none => simp only [lowest] at g4 ⊢; omega
      | some x => obtain ⟨p, i⟩ := x; simp only [lowest] at g4 ⊢; omega
    | crash =>
      refine ⟨g1, fun t ht => ?_⟩
      have g3 := g2 t ht
      refine ⟨?_, g3.2⟩
      have g4 : lowest none j ≤ sigIndex t := g3.1
      cases x with
      | none => exact g4
      | some x => obtain ⟨p, i⟩ := x; simp only [lowest] at g4 ⊢; omega
    | start p =>
      refine ⟨g1, fun t ht => ?_⟩
      have g3 := g2 t ht
      refine ⟨?_, g3.2⟩
      have g4 : lowest (if j.toNat < 2 ^ height.toNat then some (p, j.toNat) else none) j ≤ sigIndex t := g3.1
      have g5 : j.toNat ≤ sigIndex t := by
        split at g4 <;> simp only [lowest] at g4 <;> omega
      cases x with
      | none => exact g5
      | some x => obtain ⟨p, i⟩ := x; simp only [lowest]; omega
    | call c =>
      cases x with
      | none => exact ⟨g1, g2⟩
      | some x =>
        obtain ⟨p, i⟩ := x
        cases c with
        | setIndex n =>
          simp only [crossStep] at g1 g2 ⊢
          by_cases hc : i ≤ n.toNat ∧ n.toNat < 2 ^ height.toNat
          · rw [if_pos hc] at g1 g2 ⊢
            refine ⟨g1, fun t ht => ?_⟩
            have g3 := g2 t ht
            simp only [lowest] at g3 ⊢
            omega
          · rw [if_neg hc] at g1 g2 ⊢
            exact ⟨g1, g2⟩
        | sign m =>
          have hij : i < j.toNat := by
            cases s with
            | none => exact hx.elim
            | some s => exact hw1 s i rfl (signerAt_facts hx).2.1
          simp only [crossStep] at g1 g2 ⊢
          by_cases hc : i < 2 ^ height.toNat
          · rw [if_pos hc] at g1 g2 ⊢
            cases hsg : crossSignature S hf height.toNat seed p i m with
            | none =>
              rw [hsg] at g1 g2
              refine ⟨g1, fun t ht => ?_⟩
              have g3 := g2 t ht
              simp only [lowest] at g3 ⊢
              omega
            | some sg =>
              rw [hsg] at g1 g2
              have hsi := crossSignature_index (show i < 2 ^ 32 by omega) hsg
              simp only [Option.toList_some, signatures, List.cons_append, List.nil_append, List.map_cons,
                List.pairwise_cons, List.mem_cons, List.mem_map, hsi]
              simp only [lowest] at g2 ⊢
              refine ⟨⟨?_, g1⟩, ?_⟩
              · rintro a ⟨t, ht, rfl⟩
                have := g2 t ht
                omega
              · rintro t (rfl | ht)
                · rw [hsi]; omega
                · have := g2 t ht; omega
          · rw [if_neg hc] at g1 g2 ⊢
            exact ⟨g1, g2⟩

/-- C71. If the wallet writes ahead, then whatever the calls, saves, kills, panics and changes of implementation, no one-time key
is used twice: the indices of all signatures it ever gives are strictly increasing, and below `2^height`. -/
theorem C71_no_reuse (S : Sha256) (seed : Bytes) (height : UInt8) (hf : HashFn) (hs : seed.length = 48) (hh : GoodHeight height)
    (j : UInt32) (evs : List CrossEvent)
    (hw : CrossWallet.WritesAhead S (CrossWallet.mk none (extendedSeedOf hf height seed) j) evs) (rs : List Reply) (v : CrossWallet)
    (hrun : (CrossWallet.mk none (extendedSeedOf hf height seed) j).run S evs = some (rs, v)) :
    ((signatures rs).map sigIndex).Pairwise (· < ·) ∧ ∀ s ∈ signatures rs, j.toNat ≤ sigIndex s ∧ sigIndex s < 2 ^ height.toNat := by
  obtain ⟨s, h1, _⟩ := cross_run (S := S) (hf := hf) hs hh evs none none trivial j
  rw [hrun] at h1
  have e : rs = (crossRun (2 ^ height.toNat) (crossSignature S hf height.toNat seed) none j evs).1 := by
    injection h1 with h1; exact congrArg Prod.fst h1
  rw [e]
  exact cross_no_reuse hs hh evs none none trivial j hw

/-- The discipline, read on the ideal wallet. -/
def aheadIn (limit : Nat) (σ : Program → Nat → Bytes → Option Bytes) : Option (Program × Nat) → UInt32 → List CrossEvent → Prop
  | _, _, [] => True
  | x, j, e :: es =>
    (match e with
      | .call (.sign _) => ∀ y, x = some y → y.2 < j.toNat
      | .save n => j.toNat ≤ n.toNat
      | _ => True) ∧
    aheadIn limit σ (crossStep limit σ x j e).2.1 (crossStep limit σ x j e).2.2 es

theorem writesAhead_of {S : Sha256} {hf : HashFn} {seed : Bytes} {height : UInt8} (hs : seed.length = 48) (hh : GoodHeight height)
    (evs : List CrossEvent) : ∀ (s : Option Signer) (x : Option (Program × Nat)) (_ : SignerIs S hf seed height s x) (j : UInt32),
    aheadIn (2 ^ height.toNat) (crossSignature S hf height.toNat seed) x j evs →
    CrossWallet.WritesAhead S (CrossWallet.mk s (extendedSeedOf hf height seed) j) evs := by
  induction evs with
  | nil => intro _ _ _ _ _; trivial
  | cons e evs ih =>
    intro s x hx j ha
    obtain ⟨s1, h1, h2⟩ := cross_step hs hh s x hx j e
    rw [CrossWallet.WritesAhead.eq_def]
    simp only
    rw [h1]
    refine ⟨?_, ih s1 _ h2 _ ha.2⟩
    have h3 := ha.1
    cases e with
    | save n => exact h3
    | crash => trivial
    | start p => trivial
    | call c =>
      cases c with
      | setIndex n => trivial
      | sign m =>
        intro t i ht hi
        cases x with
        | none =>
          cases s with
          | none => cases ht
          | some s => exact hx.elim
        | some y =>
          cases s with
          | none => exact hx.elim
          | some s =>
            cases ht
            have h4 := (signerAt_facts hx).2.1
            rw [hi] at h4
            cases h4
            exact h3 y rfl

/-- A wallet that starts in C++, is killed after a signature, goes on in Rust, is killed in mid-signature or not, and comes back in
C++. -/
def demoEvents (b : Rs.Build) (m1 m2 m3 : Bytes) : List CrossEvent :=
  [.start .cpp, .save 2, .call (.sign m1), .crash, .start (.rust b), .save 5, .call (.sign m2), .start .cpp, .save 6, .call (.sign m3)]

theorem cross_demo (b : Rs.Build) (S : Sha256) (seed : Bytes) (height : UInt8) (hf : HashFn) (hs : seed.length = 48) (hh : GoodHeight height)
    (m1 m2 m3 : Bytes) (hm : rustShort hf m2) :
    CrossWallet.WritesAhead S (CrossWallet.mk none (extendedSeedOf hf height seed) 0) (demoEvents b m1 m2 m3) ∧
    ∃ v, (CrossWallet.mk none (extendedSeedOf hf height seed) 0).run S (demoEvents b m1 m2 m3) =
      some ([.sig (seedSignature S hf 16 height.toNat seed 0 m1), .sig (seedSignature S hf 16 height.toNat seed 2 m2),
        .sig (seedSignature S hf 16 height.toNat seed 5 m3)], v) := by
  have h16 : 2 ^ 4 ≤ 2 ^ height.toNat := Nat.pow_le_pow_right (by omega) hh.1
  have a0 : (0 : Nat) < 2 ^ height.toNat := by omega
  have a2 : (2 : Nat) < 2 ^ height.toNat := by omega
  have a5 : (5 : Nat) < 2 ^ height.toNat := by omega
  have b2 : (2 : UInt32).toNat = 2 := rfl
  have b5 : (5 : UInt32).toNat = 5 := rfl
  have b6 : (6 : UInt32).toNat = 6 := rfl
  have b0 : (0 : UInt32).toNat = 0 := rfl
  have hr : crossSignature S hf height.toNat seed (.rust b) 2 m2 = some (seedSignature S hf 16 height.toNat seed 2 m2) := by
    show rustSignature S hf 16 height.toNat seed 2 m2 = _
    rw [rustSignature, rustSigned_short hm]; rfl
  have hc : ∀ i m, crossSignature S hf height.toNat seed .cpp i m = some (seedSignature S hf 16 height.toNat seed i m) := fun _ _ => rfl
  constructor
  · apply writesAhead_of hs hh _ none none trivial
    simp [demoEvents, aheadIn, crossStep, b0, b2, b5, b6, a0, a2, a5, hr, hc]
  · obtain ⟨v, h1, _⟩ := C71_refines S seed height hf hs hh 0 (demoEvents b m1 m2 m3)
    refine ⟨v, h1.trans ?_⟩
    simp [demoEvents, crossRun, crossStep, b0, b2, b5, a0, a2, a5, hr, hc]

example : CrossWallet.WritesAhead toySha (CrossWallet.mk none (extendedSeedOf .shake_128 4 zeroSeed) 0) (demoEvents .release [1] [2] [3]) ∧
    ∃ v, (CrossWallet.mk none (extendedSeedOf .shake_128 4 zeroSeed) 0).run toySha (demoEvents .release [1] [2] [3]) =
      some ([.sig (seedSignature toySha .shake_128 16 4 zeroSeed 0 [1]), .sig (seedSignature toySha .shake_128 16 4 zeroSeed 2 [2]),
        .sig (seedSignature toySha .shake_128 16 4 zeroSeed 5 [3])], v) :=
  cross_demo .release toySha zeroSeed 4 .shake_128 (by decide) goodHeight4 [1] [2] [3] (show (1 : Nat) < 40 by decide)

/-- The messages that are signed. -/
def signedMessages (evs : List CrossEvent) : List Bytes :=
  evs.filterMap fun e => match e with
    | .call (.sign m) => some m
    | _ => none

theorem crossRun_inCpp (S : Sha256) (hf : HashFn) (h : Nat) (seed : Bytes) (evs : List CrossEvent) :
    ∀ (x : Option (Program × Nat)) (j : UInt32) (_ : ∀ m ∈ signedMessages evs, rustShort hf m),
    (crossRun (2 ^ h) (crossSignature S hf h seed) x j evs).1 =
      (crossRun (2 ^ h) (crossSignature S hf h seed) (x.map fun y => (Program.cpp, y.2)) j (evs.map inCpp)).1 ∧
    (crossRun (2 ^ h) (crossSignature S hf h seed) x j evs).2.1.map Prod.snd =
      (crossRun (2 ^ h) (crossSignature S hf h seed) (x.map fun y => (Program.cpp, y.2)) j (evs.map inCpp)).2.1.map Prod.snd ∧
    (crossRun (2 ^ h) (crossSignature S hf h seed) x j evs).2.2 =
      (crossRun (2 ^ h) (crossSignature S hf h seed) (x.map fun y => (Program.cpp, y.2)) j (evs.map inCpp)).2.2 := by
  induction evs with
  | nil =>
    intro x j _
    refine ⟨rfl, ?_, rfl⟩
    cases x <;> rfl
  | cons e evs ih =>
    intro x j hm
    have hm' : ∀ m ∈ signedMessages evs, rustShort hf m := by
      intro m hmem
      refine hm m ?_
      rw [signedMessages, List.filterMap_cons]
      split
      · exact hmem
      · exact List.mem_cons_of_mem _ hmem
    have key : crossStep (2 ^ h) (crossSignature S hf h seed) (x.map fun y => (Program.cpp, y.2)) j (inCpp e) =
        ((crossStep (2 ^ h) (crossSignature S hf h seed) x j e).1,
          (crossStep (2 ^ h) (crossSignature S hf h seed) x j e).2.1.map (fun y => (Program.cpp, y.2)),
          (crossStep (2 ^ h) (crossSignature S hf h seed) x j e).2.2) := by
      cases e with
      | save n => rfl
      | crash => rfl
      | start p =>
        simp only [inCpp, crossStep]
        split <;> rfl
      | call c =>
        cases x with
        | none => rfl
        | some x =>
          obtain ⟨p, i⟩ := x
          cases c with
          | setIndex n =>
            simp only [inCpp, crossStep, Option.map_some]
            split <;> rfl
          | sign m =>
            have hs : crossSignature S hf h seed p i m = crossSignature S hf h seed .cpp i m := by
              cases p with
              | cpp => rfl
              | rust b =>
                show rustSignature S hf 16 h seed i m = some (seedSignature S hf 16 h seed i m)
                rw [rustSignature, rustSigned_short (hm m (by simp [signedMessages]))]
                rfl
            simp only [inCpp, crossStep, Option.map_some, hs]
            split
            · rfl
            · rfl
    obtain ⟨g1, g2, g3⟩ := ih (crossStep (2 ^ h) (crossSignature S hf h seed) x j e).2.1 (crossStep (2 ^ h) (crossSignature S hf h seed) x j e).2.2 hm'
    rw [List.map_cons, crossRun, crossRun, key]
    simp only
    exact ⟨by rw [g1], g2, g3⟩

/-- C71. As long as the messages are short enough for the Rust port to read in full, nobody can tell which implementation ran
when: the replies, the index on disk and the index of the running signer are those of the same events with every process running
the C++ library. -/
theorem C71_same_replies (S : Sha256) (seed : Bytes) (height : UInt8) (hf : HashFn) (hs : seed.length = 48) (hh : GoodHeight height)
    (j : UInt32) (evs : List CrossEvent) (hm : ∀ m ∈ signedMessages evs, rustShort hf m) :
    ∃ rs v v', (CrossWallet.mk none (extendedSeedOf hf height seed) j).run S evs = some (rs, v) ∧
      (CrossWallet.mk none (extendedSeedOf hf height seed) j).run S (evs.map inCpp) = some (rs, v') ∧
      v.saved = v'.saved ∧ v.signer.bind Signer.index = v'.signer.bind Signer.index := by
  obtain ⟨v, h1, h2, h3, h4⟩ := C71_refines S seed height hf hs hh j evs
  obtain ⟨v', g1, g2, g3, g4⟩ := C71_refines S seed height hf hs hh j (evs.map inCpp)
  obtain ⟨k1, k2, k3⟩ := crossRun_inCpp S hf height.toNat seed evs none j hm
  have k4 : ∀ (x : Option (Program × Nat)) (w : CrossWallet), (match x with
      | none => w.signer = none
      | some (p, i) => ∃ s, w.signer = some s ∧ s.program = p ∧ s.index = some i) → w.signer.bind Signer.index = x.map Prod.snd := by
    intro x w hx
    cases x with
    | none => rw [show w.signer = none from hx]; rfl
    | some x =>
      obtain ⟨p, i⟩ := x
      obtain ⟨s, e1, _, e3⟩ := hx
      rw [e1]
      exact e3
  refine ⟨_, v, v', h1, ?_, ?_, ?_⟩
  · rw [g1, k1]; rfl
  · rw [h3, g3, k3]; rfl
  · rw [k4 _ _ h4, k4 _ _ g4, k2]; rfl

/-- C71, refuted without the condition on the messages: a process that runs the Rust port dies on every message the port panics on
(from 208 bytes on for SHAKE128), where a process that runs the C++ library signs it. -/
theorem C71_long_message_refuted (b : Rs.Build) (S : Sha256) (seed : Bytes) (height : UInt8) (hf : HashFn) (hs : seed.length = 48)
    (hh : GoodHeight height) (m : Bytes) (hm : rustLong hf m) :
    (∃ v, (CrossWallet.mk none (extendedSeedOf hf height seed) 0).run S [.start (.rust b), .call (.sign m)] = some ([], v) ∧
      v.signer = none) ∧
    ∃ v, (CrossWallet.mk none (extendedSeedOf hf height seed) 0).run S [.start .cpp, .call (.sign m)] =
      some ([.sig (seedSignature S hf 16 height.toNat seed 0 m)], v) := by
  have hp : 0 < 2 ^ height.toNat := Nat.two_pow_pos _
  obtain ⟨v, h1, _, _, h4⟩ := C71_refines S seed height hf hs hh 0 [.start (.rust b), .call (.sign m)]
  obtain ⟨v', g1, _, _, g4⟩ := C71_refines S seed height hf hs hh 0 [.start .cpp, .call (.sign m)]
  have e1 : crossRun (2 ^ height.toNat) (crossSignature S hf height.toNat seed) none 0 [.start (.rust b), .call (.sign m)] =
      ([], none, 0) := by
    have : crossSignature S hf height.toNat seed (.rust b) 0 m = none := by
      rw [crossSignature, rustSignature, rustSigned_long hm]; rfl
    simp [crossRun, crossStep, this]
  have e2 : crossRun (2 ^ height.toNat) (crossSignature S hf height.toNat seed) none 0 [.start .cpp, .call (.sign m)] =
      ([.sig (seedSignature S hf 16 height.toNat seed 0 m)], some (.cpp, 1), 0) := by
    simp [crossRun, crossStep, crossSignature]
  rw [e1] at h1 h4
  rw [e2] at g1
  exact ⟨⟨v, h1, h4⟩, v', g1⟩

example : rustLong .shake_128 (List.replicate 208 1) := by
  show 2 * rustRoom .shake_128 + 128 ≤ _
  rw [List.length_replicate]
  decide

example : ∀ m ∈ signedMessages (demoEvents .debug [1] [2] [3]), rustShort .shake_256 m := by
  intro m hm
  simp only [signedMessages, demoEvents, List.filterMap_cons, List.filterMap_nil, List.mem_cons, List.not_mem_nil, or_false] at hm
  rcases hm with rfl | rfl | rfl <;> exact (show (1 : Nat) < 8 by decide)

end Qrl.Props
