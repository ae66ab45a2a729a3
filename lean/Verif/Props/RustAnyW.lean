import Verif.Proof.RustVerifyAny
import Verif.Props.RustReinit
import Verif.Props.LossyW
import Mathlib.Data.Fintype.Pigeonhole
/-!
# C69: the Rust port with any Winternitz parameter from 2 to 65535
-/

namespace Qrl.Props

open Qrl.Spec

/-- `rustSignatureAny` with the key derived from `seed`. -/
def rustSeedSignature (b : Rs.Build) (S : Sha256) (f : HashFn) (w h : Nat) (seed : Bytes) (i : Nat) (m : Bytes) : Option Bytes :=
  rustSignatureAny b S f w h ((shake256 96 seed).take 32) (((shake256 96 seed).drop 32).take 32) ((shake256 96 seed).drop 64) i m

/-- Every `initialize_tree(w)` in the history has `2 ≤ w < 2^16`. -/
def RangeWs (cs : List FullCall) : Prop := ∀ w, FullCall.initializeTree w ∈ cs → RangeW w

/-- The object is the canonical one for parameter `w` at index `i`. -/
def RsCanonW (S : Sha256) (f : HashFn) (seed : Bytes) (height : UInt8) (w i : Nat) (o : Rs.XMSSFast) : Prop :=
  ∃ (hw : RangeW w) (o1 : Rs.XMSSFast),
    Rs.FastW S w (keyP S f w (rustLen w) height.toNat (Rs.rustLen_pos hw) seed) o1 ∧ o1.hashFunction = f ∧
    o1.height = height ∧ o1.seed = seed ∧ i ≤ 2 ^ height.toNat ∧
    o = Rs.fastAt S (keyP S f w (rustLen w) height.toNat (Rs.rustLen_pos hw) seed) o1 i

theorem rsCanonW_index {S : Sha256} {f : HashFn} {seed : Bytes} {height : UInt8} {w i : Nat} {o : Rs.XMSSFast}
    (h : RsCanonW S f seed height w i o) : o.getIndex = .ok i := by
  obtain ⟨hw, o1, H, rfl, rfl, e3, hi, rfl⟩ := h
  exact H.getIndex i hi

theorem rsCanonW_new (b : Rs.Build) (S : Sha256) (seed : Bytes) (height : UInt8) (hf : HashFn) (w : Nat) (hw : RangeW w)
    (hs : seed.length = 48) (hh : GoodHeight height) :
    ∃ o, Rs.XMSSFast.new b S seed height hf w = .ok o ∧ RsCanonW S hf seed height w 0 o := by
  obtain ⟨o, e1, e2, e3, e4, H⟩ := Rs.fast_new_rsAny (S := S) b seed height hf hw hs hh
  exact ⟨o, e1, hw, o, H, e2, e3, e4, Nat.zero_le _, H.zero.symm⟩

theorem rsCanonW_sign {b : Rs.Build} {S : Sha256} {f : HashFn} {seed : Bytes} {height : UInt8} {w i : Nat} {o : Rs.XMSSFast}
    (h : RsCanonW S f seed height w i o) (m : Bytes) :
    (i < 2 ^ height.toNat →
      match rustSeedSignature b S f w height.toNat seed i m with
      | none => o.sign b S m = .panic
      | some s => ∃ o', o.sign b S m = .ret s o' ∧ RsCanonW S f seed height w (i + 1) o') ∧
    (¬ i < 2 ^ height.toNat → o.sign b S m = .fail .invalidArgument o) := by
  obtain ⟨hw, o1, H, rfl, rfl, e3, hi, rfl⟩ := h
  constructor
  · intro hlt
    have hsg := H.sign b i hlt m
    rw [show rustSeedSignature b S o1.hashFunction w o1.height.toNat seed i m = Rs.sigW b S o1.hashFunction w o1.height.toNat
      (keyP S o1.hashFunction w (rustLen w) o1.height.toNat (Rs.rustLen_pos hw) seed) i m from rfl]
    cases hx : Rs.sigW b S o1.hashFunction w o1.height.toNat
      (keyP S o1.hashFunction w (rustLen w) o1.height.toNat (Rs.rustLen_pos hw) seed) i m with
    | none => rw [hx] at hsg; exact hsg
    | some s => rw [hx] at hsg; exact ⟨_, hsg, hw, o1, H, rfl, rfl, e3, by omega, rfl⟩
  · intro hlt
    have hie : i = 2 ^ o1.height.toNat := by omega
    subst hie
    exact H.sign_fail b m

theorem rsCanonW_run {b : Rs.Build} {S : Sha256} {f : HashFn} {seed : Bytes} {height : UInt8} (hs : seed.length = 48)
    (hh : GoodHeight height) (cs : List FullCall) : ∀ {w i : Nat} {o : Rs.XMSSFast}, RsCanonW S f seed height w i o → RangeWs cs →
    match partialFull (2 ^ height.toNat) (fun w => rustSeedSignature b S f w height.toNat seed) w i cs with
    | some (rs, w', i') => ∃ o', Rs.runFull b S o cs = some (rs, o') ∧ RsCanonW S f seed height w' i' o'
    | none => Rs.runFull b S o cs = none := by
  induction cs with
  | nil => intro w i o h _; exact ⟨o, rfl, h⟩
  | cons c cs ih =>
    intro w i o h hc
    have hc' : RangeWs cs := fun w hw => hc w (List.mem_cons_of_mem _ hw)
    -- what remains once one step is known
    have go : ∀ (r : FullReply) (w' i' : Nat) (o' : Rs.XMSSFast), o.fullCall b S c = some (r, o') →
        RsCanonW S f seed height w' i' o' →
        match (partialFull (2 ^ height.toNat) (fun w => rustSeedSignature b S f w height.toNat seed) w' i' cs).map
            fun x => (r :: x.1, x.2) with
        | some (rs, w', i') => ∃ o', Rs.runFull b S o (c :: cs) = some (rs, o') ∧ RsCanonW S f seed height w' i' o'
        | none => Rs.runFull b S o (c :: cs) = none := by
      intro r w' i' o' e1 h1
      have := ih h1 hc'
      rw [Rs.runFull, e1]
      cases hx : partialFull (2 ^ height.toNat) (fun w => rustSeedSignature b S f w height.toNat seed) w' i' cs with
      | none => rw [hx] at this; dsimp only at this ⊢; rw [this]; rfl
      | some x =>
        rw [hx] at this
        obtain ⟨o2, e2, h2⟩ := this
        exact ⟨o2, by dsimp only; rw [e2], h2⟩
    cases c with
    | initializeTree w' =>
      rw [partialFull]
      have hw' := hc w' (List.mem_cons_self ..)
      obtain ⟨hw, o1, H, rfl, rfl, e3, hi, rfl⟩ := h
      obtain ⟨o2, f1, f2, f3, f4, H2⟩ := Rs.initializeTree_rsAny (S := S) b
        (Rs.fastAt S (keyP S o1.hashFunction w (rustLen w) o1.height.toNat (Rs.rustLen_pos hw) seed) o1 i) hw'
        (show o1.seed.length = 48 by rw [e3]; exact hs) hh
      refine go _ w' 0 o2 (by rw [Rs.XMSSFast.fullCall, f1]) ⟨hw', o2, ?_, f2, f3, f4.trans e3, Nat.zero_le _, ?_⟩
      · rw [← e3]; exact H2
      · rw [← e3]; exact H2.zero.symm
    | basic c =>
      cases c with
      | setIndex n =>
        rw [partialFull]
        obtain ⟨hw, o1, H, rfl, rfl, e3, hi, rfl⟩ := h
        by_cases hc : i ≤ n.toNat ∧ n.toNat < 2 ^ o1.height.toNat
        · rw [if_pos hc]
          exact go _ w n.toNat _ (by rw [Rs.XMSSFast.fullCall, Rs.XMSSFast.call, H.setIndex_ok b i n.toNat hc.1 hc.2])
            ⟨hw, o1, H, rfl, rfl, e3, by omega, rfl⟩
        · rw [if_neg hc]
          exact go _ w i _ (by rw [Rs.XMSSFast.fullCall, Rs.XMSSFast.call, H.setIndex_fail b i n.toNat hi (by omega)]; rfl)
            ⟨hw, o1, H, rfl, rfl, e3, hi, rfl⟩
      | sign m =>
        rw [partialFull]
        obtain ⟨h1, h2⟩ := rsCanonW_sign (b := b) h m
        by_cases hc : i < 2 ^ height.toNat
        · rw [if_pos hc]
          have h1 := h1 hc
          cases hσ : rustSeedSignature b S f w height.toNat seed i m with
          | none =>
            rw [hσ] at h1
            dsimp only at h1 ⊢
            rw [Rs.runFull, Rs.XMSSFast.fullCall, Rs.XMSSFast.call, h1]
          | some s =>
            rw [hσ] at h1
            obtain ⟨o', h1, h3⟩ := h1
            exact go _ w (i + 1) o' (by rw [Rs.XMSSFast.fullCall, Rs.XMSSFast.call, h1]) h3
        · rw [if_neg hc]
          exact go _ w i o (by rw [Rs.XMSSFast.fullCall, Rs.XMSSFast.call, h2 hc]; rfl) h

/-- C69. **Refinement.** For every `w` from 2 to 65535, on any history of `set_index`, `sign` and `initialize_tree(w')` with
`w'` in that range, in both build modes, a new `XMSSFast` behaves like the ideal object that signs with `rustSeedSignature`:
same replies, same final index, panic at the same call. -/
theorem C69_full_history (b : Rs.Build) (S : Sha256) (seed : Bytes) (height : UInt8) (hf : HashFn) (w : Nat)
    (hw : RangeW w) (hs : seed.length = 48) (hh : GoodHeight height) (cs : List FullCall) (hcs : RangeWs cs) :
    ∃ o0, Rs.XMSSFast.new b S seed height hf w = .ok o0 ∧
      match partialFull (2 ^ height.toNat) (fun w => rustSeedSignature b S hf w height.toNat seed) w 0 cs with
      | some (rs, _, i) => ∃ o, Rs.runFull b S o0 cs = some (rs, o) ∧ o.getIndex = .ok i
      | none => Rs.runFull b S o0 cs = none := by
  obtain ⟨o0, h0, hcan⟩ := rsCanonW_new b S seed height hf w hw hs hh
  refine ⟨o0, h0, ?_⟩
  have := rsCanonW_run (b := b) hs hh cs hcan hcs
  revert this
  cases partialFull (2 ^ height.toNat) (fun w => rustSeedSignature b S hf w height.toNat seed) w 0 cs with
  | none => exact id
  | some x => rintro ⟨o', h1, h2⟩; exact ⟨o', h1, rsCanonW_index h2⟩

/-- C69. For the four supported values this is what C52 and C60 say. -/
theorem C69_supported_agree (b : Rs.Build) (S : Sha256) (f : HashFn) (w : Nat) (hw : w = 2 ∨ w = 4 ∨ w = 16 ∨ w = 256) (h : Nat)
    (seed : Bytes) (i : Nat) (m : Bytes) :
    rustSeedSignature b S f w h seed i m = rustSignature S f w h seed i m := by
  have hu : UsableW w := by unfold UsableW; omega
  rw [rustSeedSignature, rustSignatureAny, rustSignature, seedSignKey, signKey, Rs.rustLen_usable hu]
  cases rustSigned f (PRF (f.prim S) (((shake256 96 seed).drop 32).take 32) (be 32 i) ++
      node (f.prim S) w (lenW w) ((shake256 96 seed).take 32) ((shake256 96 seed).drop 64) h 0 ++ be 32 i) m with
  | none => rfl
  | some m' =>
    rw [Option.bind_eq_bind, Option.bind_some, rustPositions.eq_def, if_pos hu, C67_supported_agree w hw _ (by
      rw [digest]; exact length_Hmsg ..), Option.bind_eq_bind, Option.bind_some, signatureFrom, Rs.rustLen_usable hu]
    rfl

/-- C69. The complete behaviour of `verify` for every `w` from 2 to 65535. -/
theorem C69_verify (b : Rs.Build) (S : Sha256) (msg sig epk : Bytes) (w : Nat) (hw : RangeW w) :
    (Rs.verify b S msg sig epk w = .ret () msg ↔
      RustWellFormed w sig epk ∧ (epk.getD 1 0).toNat / 16 = 0 ∧ ∃ hf, HashFn.ofNat? (keyHash epk) = some hf ∧
        rustRootAny b S hf w (keyHeight epk) (keyRoot epk) (keySeed epk) msg sig = some (keyRoot epk)) ∧
    (Rs.verify b S msg sig epk w = .panic ↔
      RustWellFormed w sig epk ∧ (epk.getD 1 0).toNat / 16 = 0 ∧ ∃ hf, HashFn.ofNat? (keyHash epk) = some hf ∧
        (rustLong hf msg ∨ (b = .debug ∧ ¬ UsableW w))) ∧
    (Rs.verify b S msg sig epk w = .ret () msg ∨ (∃ e, Rs.verify b S msg sig epk w = .fail e msg) ∨
      Rs.verify b S msg sig epk w = .panic) := by
  have hv := Rs.verify_rsAny (S := S) b msg sig epk w hw
  rw [Rs.verifySpecAny] at hv
  by_cases hc : RustWellFormed w sig epk ∧ (epk.getD 1 0).toNat / 16 = 0
  swap
  · rw [if_neg hc] at hv
    obtain ⟨e, he⟩ := hv
    rw [he]
    refine ⟨⟨fun h => (by cases h), ?_⟩, ⟨fun h => (by cases h), ?_⟩, Or.inr (Or.inl ⟨e, rfl⟩)⟩
    · rintro ⟨h1, h2, _⟩; exact absurd ⟨h1, h2⟩ hc
    · rintro ⟨h1, h2, _⟩; exact absurd ⟨h1, h2⟩ hc
  rw [if_pos hc] at hv
  cases hf : HashFn.ofNat? (keyHash epk) with
  | none =>
    rw [hf] at hv
    obtain ⟨e, he⟩ := hv
    rw [he]
    refine ⟨⟨fun h => (by cases h), ?_⟩, ⟨fun h => (by cases h), ?_⟩, Or.inr (Or.inl ⟨e, rfl⟩)⟩
    · rintro ⟨_, _, f, h, _⟩; cases h
    · rintro ⟨_, _, f, h, _⟩; cases h
  | some f =>
    rw [hf] at hv
    simp only [Option.map_some] at hv
    have hnone : rustRootAny b S f w (keyHeight epk) (keyRoot epk) (keySeed epk) msg sig = none ↔
        rustLong f msg ∨ (b = .debug ∧ ¬ UsableW w) := by
      rw [rustRootAny]
      obtain ⟨h1, h2, h3⟩ := C53_message_classes f msg
      have go : ∀ m', rustSigned f (keyInSig sig (keyRoot epk)) msg = some m' → ¬ rustLong f msg →
          (((rustSigned f (keyInSig sig (keyRoot epk)) msg).bind fun m' =>
            (rustPositions b w (digest (f.prim S) ((sig.drop 4).take 32) (keyRoot epk) (byteVal (sig.take 4)) m')).bind fun ds =>
              some (rootFromPositions (f.prim S) w (keyHeight epk) (keySeed epk) sig ds)) = none ↔
          rustLong f msg ∨ (b = .debug ∧ ¬ UsableW w)) := by
        intro m' hm' hl
        rw [hm', Option.bind_some, rustPositions.eq_def]
        by_cases hu : UsableW w
        · rw [if_pos hu]
          exact ⟨fun h => (by cases h), fun h => (by rcases h with h | h; exact absurd h hl; exact absurd hu h.2)⟩
        · rw [if_neg hu]
          cases b with
          | debug => exact ⟨fun _ => Or.inr ⟨rfl, hu⟩, fun _ => rfl⟩
          | release => exact ⟨fun h => (by cases h), fun h => (by rcases h with h | h; exact absurd h hl; exact nomatch h.1)⟩
      rcases h1 with h | h | h
      · exact go _ (rustSigned_short h _) (fun hl => h2 ⟨h, hl⟩)
      · exact go _ (rustSigned_cut h _) (fun hl => h3 ⟨h, hl⟩)
      · rw [rustSigned_long h]
        exact ⟨fun _ => Or.inl h, fun _ => rfl⟩
    rw [hv]
    cases hr : rustRootAny b S f w (keyHeight epk) (keyRoot epk) (keySeed epk) msg sig with
    | none =>
      dsimp only
      refine ⟨⟨fun h => (by cases h), ?_⟩, ⟨fun _ => ⟨hc.1, hc.2, f, rfl, hnone.mp hr⟩, fun _ => rfl⟩, Or.inr (Or.inr rfl)⟩
      rintro ⟨_, _, f', h1, h2⟩
      cases h1
      rw [hr] at h2; cases h2
    | some r =>
      dsimp only
      have hnn : ¬ (rustLong f msg ∨ (b = .debug ∧ ¬ UsableW w)) := fun h => by rw [hnone.mpr h] at hr; cases hr
      by_cases hk : r = keyRoot epk
      · rw [if_pos hk]
        refine ⟨⟨fun _ => ⟨hc.1, hc.2, f, rfl, by rw [hr, hk]⟩, fun _ => rfl⟩, ⟨fun h => (by cases h), ?_⟩, Or.inl rfl⟩
        rintro ⟨_, _, f', h1, h2⟩
        cases h1
        exact absurd h2 hnn
      · rw [if_neg hk]
        refine ⟨⟨fun h => (by cases h), ?_⟩, ⟨fun h => (by cases h), ?_⟩, Or.inr (Or.inl ⟨_, rfl⟩)⟩
        · rintro ⟨_, _, f', h1, h2⟩
          cases h1
          rw [hr] at h2
          exact absurd (Option.some.inj h2) hk
        · rintro ⟨_, _, f', h1, h2⟩
          cases h1
          exact absurd h2 hnn

/-- C69. A build with overflow checks cannot sign when `⌊log2 w⌋` does not divide 8: the constructor succeeds, every `sign`
within the index range panics, at every point of every history. -/
theorem C69_debug_unusable (S : Sha256) (seed : Bytes) (height : UInt8) (hf : HashFn) (w : Nat) (hw : RangeW w) (hu : ¬ UsableW w)
    (hs : seed.length = 48) (hh : GoodHeight height) :
    ∃ o0, Rs.XMSSFast.new .debug S seed height hf w = .ok o0 ∧ (∀ m, o0.sign .debug S m = .panic) ∧
      ∀ cs m, runCalls (Rs.XMSSFast.call .debug S) o0 (cs ++ [.sign m]) = none := by
  obtain ⟨o0, h0, hcan⟩ := rsCanonW_new .debug S seed height hf w hw hs hh
  have hnone : ∀ i m, rustSeedSignature .debug S hf w height.toNat seed i m = none := by
    intro i m
    rw [rustSeedSignature, rustSignatureAny]
    cases rustSigned hf _ m with
    | none => rfl
    | some m' => rw [Option.bind_eq_bind, Option.bind_some, rustPositions.eq_def, if_neg hu]; rfl
  have hsign : ∀ {i o}, RsCanonW S hf seed height w i o → i < 2 ^ height.toNat → ∀ m, o.sign .debug S m = .panic := by
    intro i o h hi m
    have := (rsCanonW_sign (b := .debug) h m).1 hi
    rw [hnone] at this
    exact this
  refine ⟨o0, h0, hsign hcan (Nat.two_pow_pos _), ?_⟩
  intro cs m
  -- the index never reaches the end
  have key : ∀ (cs : List Call) {i o}, RsCanonW S hf seed height w i o → i < 2 ^ height.toNat →
      runCalls (Rs.XMSSFast.call .debug S) o (cs ++ [.sign m]) = none := by
    intro cs
    induction cs with
    | nil => intro i o h hi; rw [List.nil_append, runCalls, Rs.XMSSFast.call, hsign h hi]
    | cons c cs ih =>
      intro i o h hi
      rw [List.cons_append, runCalls]
      cases c with
      | sign m => rw [Rs.XMSSFast.call, hsign h hi]
      | setIndex n =>
        obtain ⟨hw', o1, H, rfl, rfl, e3, hle, rfl⟩ := h
        by_cases hc : i ≤ n.toNat ∧ n.toNat < 2 ^ o1.height.toNat
        · rw [Rs.XMSSFast.call, H.setIndex_ok .debug i n.toNat hc.1 hc.2]
          dsimp only
          rw [ih ⟨hw', o1, H, rfl, rfl, e3, by omega, rfl⟩ hc.2]
        · rw [Rs.XMSSFast.call, H.setIndex_fail .debug i n.toNat hle (by omega)]
          dsimp only
          rw [ih ⟨hw', o1, H, rfl, rfl, e3, hle, rfl⟩ hi]
  exact key cs hcan (Nat.two_pow_pos _)

/-- The digest under which Rust signs message `m` with one-time key `i` (empty: it panics before). -/
def seedDigest (S : Sha256) (f : HashFn) (w h : Nat) (seed : Bytes) (i : Nat) (m : Bytes) : Bytes :=
  let r := PRF (f.prim S) (((shake256 96 seed).drop 32).take 32) (be 32 i)
  let root := node (f.prim S) w (rustLen w) ((shake256 96 seed).take 32) ((shake256 96 seed).drop 64) h 0
  match rustSigned f (r ++ root ++ be 32 i) m with
  | some m' => digest (f.prim S) r root i m'
  | none => []

/-- The signature exists and depends on the positions of the digest only. -/
theorem rustSeedSignature_digest (b : Rs.Build) (S : Sha256) (f : HashFn) (w h : Nat) (seed : Bytes) (i : Nat) (m : Bytes)
    (hm : ¬ rustLong f m) : rustSeedSignature b S f w h seed i m =
      (rustPositions b w (seedDigest S f w h seed i m)).map (signatureFrom (f.prim S) w h ((shake256 96 seed).take 32)
        (((shake256 96 seed).drop 32).take 32) ((shake256 96 seed).drop 64) i) := by
  rw [rustSeedSignature, rustSignatureAny, seedDigest]
  obtain ⟨m', hm'⟩ : ∃ m', rustSigned f (PRF (f.prim S) (((shake256 96 seed).drop 32).take 32) (be 32 i) ++
      node (f.prim S) w (rustLen w) ((shake256 96 seed).take 32) ((shake256 96 seed).drop 64) h 0 ++ be 32 i) m = some m' := by
    rcases (C53_message_classes f m).1 with h | h | h
    · exact ⟨_, rustSigned_short h _⟩
    · exact ⟨_, rustSigned_cut h _⟩
    · exact absurd h hm
  rw [hm', Option.bind_eq_bind, Option.bind_some]
  cases rustPositions b w (digest (f.prim S) (PRF (f.prim S) (((shake256 96 seed).drop 32).take 32) (be 32 i))
    (node (f.prim S) w (rustLen w) ((shake256 96 seed).take 32) ((shake256 96 seed).drop 64) h 0) i m') <;> rfl

/-- The public key of any object with the key of the seed. -/
theorem rust_pk_any (S : Sha256) (seed : Bytes) (height : UInt8) (hf : HashFn) (w : Nat) (hw : RangeW w) (hh : GoodHeight height)
    (o : Rs.XMSSBase) (j : Nat) (hsk : o.sk = (keyP S hf w (rustLen w) height.toNat (Rs.rustLen_pos hw) seed).sk j)
    (hhf : o.hashFunction = hf) (hht : o.height = height) :
    ∃ pk, o.getPk = .ok pk ∧ pk.length = 67 ∧ HashFn.ofNat? (keyHash pk) = some hf ∧ keyHeight pk = height.toNat ∧
      keyRoot pk = node (hf.prim S) w (rustLen w) ((shake256 96 seed).take 32) ((shake256 96 seed).drop 64) height.toNat 0 ∧
      keySeed pk = (shake256 96 seed).drop 64 ∧ (pk.getD 1 0).toNat / 16 = 0 ∧
      pk = Rs.Descriptor.getBytes { hashFunction := hf, height := height } ++ keyRoot pk ++ keySeed pk := by
  let K := keyP S hf w (rustLen w) height.toNat (Rs.rustLen_pos hw) seed
  let c : XmssBase := { params := ⟨Rs.wotsParams w, height.toNat⟩, hashFunction := hf.toNat, addrFormat := 0, height := height,
                        sk := K.sk j, seed := o.seed }
  have hsame : SameKey o c := ⟨hsk, rfl, hht, by rw [hhf], rfl⟩
  obtain ⟨_, _, _, _, _, ⟨pk, g1, g2⟩, _⟩ := C51_same_getters o c hsame (K.length_sk j)
  have hpk := getPK_eq K c j rfl
  rw [g2] at hpk
  obtain ⟨f1, f2, f3, f4, f5⟩ := pk_fields K c hf rfl hh
  rw [← Outcome.ok.inj hpk] at f1 f2 f3 f4 f5
  refine ⟨pk, g1, f1, by rw [f2, ofNat?_toNat], f3, f4, f5, ?_, ?_⟩
  · rw [Outcome.ok.inj hpk, ← rs_descBytes hsame, Rs.XMSSBase.getDescriptorBytes, rs_getBytes]
    simp only [List.cons_append, List.getD_cons_succ, List.getD_cons_zero, UInt8.toNat_ofNat']
    omega
  · rw [f4, f5, Outcome.ok.inj hpk, ← rs_descBytes hsame, Rs.XMSSBase.getDescriptorBytes, hhf, hht]

/-- What a verifier of the same kind (`b'`) answers to what the signer (`b`) returns. -/
theorem rust_sig_any (b b' : Rs.Build) (S : Sha256) (seed : Bytes) (height : UInt8) (hf : HashFn) (w : Nat) (hw : RangeW w)
    (hh : GoodHeight height) (i : Nat) (hi : i < 2 ^ height.toNat) (m sig : Bytes)
    (hsig : rustSeedSignature b S hf w height.toNat seed i m = some sig) (pk : Bytes) (hl : pk.length = 67)
    (hpf : HashFn.ofNat? (keyHash pk) = some hf) (hph : keyHeight pk = height.toNat)
    (hpr : keyRoot pk = node (hf.prim S) w (rustLen w) ((shake256 96 seed).take 32) ((shake256 96 seed).drop 64) height.toNat 0)
    (hps : keySeed pk = (shake256 96 seed).drop 64) (hpa : (pk.getD 1 0).toNat / 16 = 0) (m2 : Bytes) (hm2 : ¬ rustLong hf m2)
    (hsame : rustPositions b' w (seedDigest S hf w height.toNat seed i m2) = rustPositions b w (seedDigest S hf w height.toNat seed i m)) :
    Rs.verify b' S m2 sig pk w = .ret () m2 := by
  have h30 : 2 ^ height.toNat ≤ 2 ^ 30 := Nat.pow_le_pow_right (by omega) hh.2.1
  have h4 := hh.1
  have hm : ¬ rustLong hf m := by
    intro hl
    rw [rustSeedSignature, rustSignatureAny] at hsig
    rw [rustSigned_long hl] at hsig
    cases hsig
  rw [rustSeedSignature_digest b S hf w height.toNat seed i m hm] at hsig
  obtain ⟨ds, hds, rfl⟩ := Option.map_eq_some_iff.mp hsig
  have hd32 : (seedDigest S hf w height.toNat seed i m).length = 32 := by
    rw [seedDigest]
    obtain ⟨m', hm'⟩ : ∃ m', rustSigned hf (PRF (hf.prim S) (((shake256 96 seed).drop 32).take 32) (be 32 i) ++
        node (hf.prim S) w (rustLen w) ((shake256 96 seed).take 32) ((shake256 96 seed).drop 64) height.toNat 0 ++ be 32 i) m = some m' := by
      rcases (C53_message_classes hf m).1 with h | h | h
      · exact ⟨_, rustSigned_short h _⟩
      · exact ⟨_, rustSigned_cut h _⟩
      · exact absurd h hm
    rw [hm']; exact length_Hmsg ..
  obtain ⟨hdl, hdlt⟩ := Rs.rustPositions_props hw hd32 hds
  obtain ⟨c1, c2, c3⟩ := Rs.rootFromPositions_honest (S := S) hf hw height.toNat ((shake256 96 seed).take 32)
    (((shake256 96 seed).drop 32).take 32) ((shake256 96 seed).drop 64) i hi (by omega) ds hdl hdlt
  refine (C69_verify b' S m2 _ pk w hw).1.mpr ⟨⟨hl, by omega, ?_⟩, hpa, hf, hpf, ?_⟩
  · have hlen : ∀ x ∈ wotsSig (hf.prim S) ((shake256 96 seed).take 32) ((shake256 96 seed).drop 64) i ds, x.length = 32 := mem_wotsSig S hf _ _ i ds
    rw [signatureFrom]
    simp only [List.length_append, length_be, length_PRF, length_flatten32 _ hlen,
      length_flatten32 _ (mem_authPath S hf w (rustLen w) _ _ height.toNat i (Rs.rustLen_pos hw))]
    simp only [wotsSig, authPath, List.length_map, List.length_zipIdx, List.length_range, hdl, hph]
  · rw [rustRootAny, keyInSig, c2, c3, byteVal_be, Nat.mod_eq_of_lt (by omega), hpr, hps, hph]
    obtain ⟨m', hm'⟩ : ∃ m', rustSigned hf (PRF (hf.prim S) (((shake256 96 seed).drop 32).take 32) (be 32 i) ++
        node (hf.prim S) w (rustLen w) ((shake256 96 seed).take 32) ((shake256 96 seed).drop 64) height.toNat 0 ++ be 32 i) m2 = some m' := by
      rcases (C53_message_classes hf m2).1 with h | h | h
      · exact ⟨_, rustSigned_short h _⟩
      · exact ⟨_, rustSigned_cut h _⟩
      · exact absurd h hm2
    have hdg : seedDigest S hf w height.toNat seed i m2 = digest (hf.prim S) (PRF (hf.prim S) (((shake256 96 seed).drop 32).take 32) (be 32 i))
        (node (hf.prim S) w (rustLen w) ((shake256 96 seed).take 32) ((shake256 96 seed).drop 64) height.toNat 0) i m' := by
      rw [seedDigest]; rw [hm']
    rw [hm', Option.bind_eq_bind, Option.bind_some, ← hdg, hsame, hds, Option.bind_eq_bind, Option.bind_some, c1]

/-! ## Signatures are accepted -/

/-- The Winternitz parameter the object has after a history of calls. -/
def paramAfter : Nat → List FullCall → Nat
  | w, [] => w
  | _, .initializeTree w' :: cs => paramAfter w' cs
  | w, .basic _ :: cs => paramAfter w cs

theorem partialFull_param (limit : Nat) (σ : Nat → Nat → Bytes → Option Bytes) (cs : List FullCall) :
    ∀ (w i : Nat) (x : List FullReply × Nat × Nat), partialFull limit σ w i cs = some x → x.2.1 = paramAfter w cs := by
  induction cs with
  | nil => intro w i x h; cases h; rfl
  | cons c cs ih =>
    intro w i x h
    cases c with
    | initializeTree w' =>
      rw [partialFull] at h
      obtain ⟨y, hy, rfl⟩ := Option.map_eq_some_iff.mp h
      exact ih _ _ y hy
    | basic c =>
      rw [paramAfter]
      cases c with
      | setIndex n =>
        rw [partialFull] at h
        split at h
        · obtain ⟨y, hy, rfl⟩ := Option.map_eq_some_iff.mp h
          exact ih _ _ y hy
        · obtain ⟨y, hy, rfl⟩ := Option.map_eq_some_iff.mp h
          exact ih _ _ y hy
      | sign m =>
        rw [partialFull] at h
        split at h
        · split at h
          · cases h
          · obtain ⟨y, hy, rfl⟩ := Option.map_eq_some_iff.mp h
            exact ih _ _ y hy
        · obtain ⟨y, hy, rfl⟩ := Option.map_eq_some_iff.mp h
          exact ih _ _ y hy

theorem paramAfter_range {w : Nat} {cs : List FullCall} (hw : RangeW w) (hcs : RangeWs cs) : RangeW (paramAfter w cs) := by
  induction cs generalizing w with
  | nil => exact hw
  | cons c cs ih =>
    have hc' : RangeWs cs := fun w hw => hcs w (List.mem_cons_of_mem _ hw)
    cases c with
    | initializeTree w' => exact ih (hcs w' (List.mem_cons_self ..)) hc'
    | basic c => exact ih hw hc'

/-- Every reachable object is canonical. -/
theorem rsCanonW_reach {b : Rs.Build} {S : Sha256} {f : HashFn} {seed : Bytes} {height : UInt8} {w : Nat} {o0 : Rs.XMSSFast}
    (hs : seed.length = 48) (hh : GoodHeight height) (hw : RangeW w) (hnew : Rs.XMSSFast.new b S seed height f w = .ok o0)
    {cs : List FullCall} (hcs : RangeWs cs) {rs : List FullReply} {o : Rs.XMSSFast} (hrun : Rs.runFull b S o0 cs = some (rs, o)) :
    ∃ i, RsCanonW S f seed height (paramAfter w cs) i o := by
  obtain ⟨o1, h1, hcan⟩ := rsCanonW_new b S seed height f w hw hs hh
  rw [hnew] at h1
  cases h1
  have h := rsCanonW_run (b := b) hs hh cs hcan hcs
  cases hx : partialFull (2 ^ height.toNat) (fun w => rustSeedSignature b S f w height.toNat seed) w 0 cs with
  | none => rw [hx] at h; dsimp only at h; rw [hrun] at h; cases h
  | some x =>
    have hp := partialFull_param _ _ cs w 0 x hx
    rw [hx] at h
    obtain ⟨o', e1, e2⟩ := h
    rw [hrun] at e1
    cases e1
    exact ⟨x.2.2, hp ▸ e2⟩

/-- What a successful `sign` says about the object. -/
theorem rsCanonW_signed {b : Rs.Build} {S : Sha256} {f : HashFn} {seed : Bytes} {height : UInt8} {w i : Nat} {o o' : Rs.XMSSFast}
    (h : RsCanonW S f seed height w i o) {m sig : Bytes} (hsign : o.sign b S m = .ret sig o') :
    i < 2 ^ height.toNat ∧ rustSeedSignature b S f w height.toNat seed i m = some sig ∧ RsCanonW S f seed height w (i + 1) o' := by
  obtain ⟨h1, h2⟩ := rsCanonW_sign (b := b) h m
  by_cases hi : i < 2 ^ height.toNat
  · have h1 := h1 hi
    cases hσ : rustSeedSignature b S f w height.toNat seed i m with
    | none => rw [hσ] at h1; dsimp only at h1; rw [hsign] at h1; cases h1
    | some s =>
      rw [hσ] at h1
      obtain ⟨o2, e1, e2⟩ := h1
      rw [hsign] at e1
      cases e1
      exact ⟨hi, rfl, e2⟩
  · rw [h2 hi] at hsign; cases hsign

/-- The public key of a canonical object. -/
theorem rsCanonW_pk {S : Sha256} {f : HashFn} {seed : Bytes} {height : UInt8} {w i : Nat} {o : Rs.XMSSFast}
    (hh : GoodHeight height) (h : RsCanonW S f seed height w i o) :
    ∃ pk, o.getPk = .ok pk ∧ pk.length = 67 ∧ HashFn.ofNat? (keyHash pk) = some f ∧ keyHeight pk = height.toNat ∧
      keyRoot pk = node (f.prim S) w (rustLen w) ((shake256 96 seed).take 32) ((shake256 96 seed).drop 64) height.toNat 0 ∧
      keySeed pk = (shake256 96 seed).drop 64 ∧ (pk.getD 1 0).toNat / 16 = 0 ∧
      pk = Rs.Descriptor.getBytes { hashFunction := f, height := height } ++ keyRoot pk ++ keySeed pk := by
  obtain ⟨hw, o1, H, rfl, rfl, e3, hi, rfl⟩ := h
  exact rust_pk_any S seed o1.height o1.hashFunction w hw hh _ i rfl rfl rfl

theorem rsCanonW_range {S : Sha256} {f : HashFn} {seed : Bytes} {height : UInt8} {w i : Nat} {o : Rs.XMSSFast}
    (h : RsCanonW S f seed height w i o) : RangeW w := h.1

/-- The public key does not depend on the index. -/
theorem rsCanonW_same_pk {S : Sha256} {f : HashFn} {seed : Bytes} {height : UInt8} {w i j : Nat} {o o' : Rs.XMSSFast}
    (hh : GoodHeight height) (h : RsCanonW S f seed height w i o) (h' : RsCanonW S f seed height w j o') : o.getPk = o'.getPk := by
  obtain ⟨pk, e1, _, _, _, e2, e3, _, e4⟩ := rsCanonW_pk hh h
  obtain ⟨pk', f1, _, _, _, f2, f3, _, f4⟩ := rsCanonW_pk hh h'
  rw [e1, f1, e4, f4, e2, e3, f2, f3]

theorem not_long_of_signed {b : Rs.Build} {S : Sha256} {f : HashFn} {w h : Nat} {seed : Bytes} {i : Nat} {m sig : Bytes}
    (hsig : rustSeedSignature b S f w h seed i m = some sig) : ¬ rustLong f m := by
  intro hl
  rw [rustSeedSignature, rustSignatureAny, rustSigned_long hl] at hsig
  cases hsig

/-- A build with overflow checks signs only with usable parameters. -/
theorem usable_of_debug_signed {S : Sha256} {f : HashFn} {w h : Nat} {seed : Bytes} {i : Nat} {m sig : Bytes}
    (hsig : rustSeedSignature .debug S f w h seed i m = some sig) : UsableW w := by
  rw [rustSeedSignature_digest _ _ _ _ _ _ _ _ (not_long_of_signed hsig)] at hsig
  obtain ⟨ds, hds, _⟩ := Option.map_eq_some_iff.mp hsig
  rw [rustPositions.eq_def] at hds
  by_cases hu : UsableW w
  · exact hu
  · rw [if_neg hu] at hds; cases hds

/-- The signature of a usable parameter is the same in both kinds of build. -/
theorem rustPositions_usable {w : Nat} (hu : UsableW w) (b b' : Rs.Build) (m : Bytes) : rustPositions b w m = rustPositions b' w m := by
  rw [rustPositions.eq_def, rustPositions.eq_def, if_pos hu, if_pos hu]

/-- C69. **Correctness.** A signer of any build, with any parameter from 2 to 65535, after any history (parameter `w'` now):
what `sign` returns has the size `36 + 32 * (chains of w' + height)` and is accepted by a verifier of any build under the
object's public key, which `sign` does not change; except that a verifier built with overflow checks panics if `⌊log2 w'⌋` does
not divide 8. -/
theorem C69_sign_verifies (b b' : Rs.Build) (S : Sha256) (seed : Bytes) (height : UInt8) (hf : HashFn) (w : Nat)
    (hw : RangeW w) (hs : seed.length = 48) (hh : GoodHeight height) (o0 : Rs.XMSSFast)
    (hnew : Rs.XMSSFast.new b S seed height hf w = .ok o0) (cs : List FullCall) (hcs : RangeWs cs) (rs : List FullReply)
    (o : Rs.XMSSFast) (hrun : Rs.runFull b S o0 cs = some (rs, o)) (m sig : Bytes) (o' : Rs.XMSSFast)
    (hsign : o.sign b S m = .ret sig o') :
    ∃ pk, o.getPk = .ok pk ∧ o'.getPk = .ok pk ∧ sig.length = 36 + 32 * (rustLen (paramAfter w cs) + height.toNat) ∧
      Rs.verify b' S m sig pk (paramAfter w cs) = if b' = .debug ∧ ¬ UsableW (paramAfter w cs) then .panic else .ret () m := by
  obtain ⟨i, hcan⟩ := rsCanonW_reach hs hh hw hnew hcs hrun
  obtain ⟨hi, hsig, hcan'⟩ := rsCanonW_signed hcan hsign
  have hr := paramAfter_range hw hcs
  revert hcan hcan' hsig hr
  generalize paramAfter w cs = w
  intro hcan hsig hcan' hr
  obtain ⟨pk, e1, hl, hpf, hph, hpr, hps, hpa, _⟩ := rsCanonW_pk hh hcan
  have hm := not_long_of_signed hsig
  have ok : ∀ b2, (b = b2 ∨ UsableW w) → Rs.verify b2 S m sig pk w = .ret () m := by
    intro b2 hb2
    refine rust_sig_any b b2 S seed height hf w hr hh i hi m sig hsig pk hl hpf hph hpr hps hpa m hm ?_
    rcases hb2 with rfl | hu
    · rfl
    · exact rustPositions_usable hu _ _ _
  have hwf := ((C69_verify b S m sig pk w hr).1.mp (ok b (Or.inl rfl))).1
  refine ⟨pk, e1, by rw [← rsCanonW_same_pk hh hcan hcan', e1], by rw [hwf.2.2, hph]; omega, ?_⟩
  by_cases hc : b' = .debug ∧ ¬ UsableW w
  · rw [if_pos hc]
    exact (C69_verify b' S m sig pk w hr).2.1.mpr ⟨hwf, hpa, hf, hpf, Or.inr hc⟩
  · rw [if_neg hc]
    apply ok
    by_cases hu : UsableW w
    · exact Or.inr hu
    · left
      cases b with
      | debug => exact absurd (usable_of_debug_signed hsig) hu
      | release =>
        cases b' with
        | debug => exact absurd ⟨rfl, hu⟩ hc
        | release => rfl

/-! ## What a build without overflow checks signs -/

/-- Two messages whose digests have the same positions: one signature, accepted for both. -/
theorem same_positions (S : Sha256) (seed : Bytes) (height : UInt8) (hf : HashFn) (w : Nat) (hh : GoodHeight height)
    (b : Rs.Build) (hb : b = .release ∨ UsableW w) {i : Nat} {o : Rs.XMSSFast} (hcan : RsCanonW S hf seed height w i o)
    (hi : i < 2 ^ height.toNat) (m m' : Bytes) (hm : ¬ rustLong hf m) (hm' : ¬ rustLong hf m')
    (hsame : rustPositions b w (seedDigest S hf w height.toNat seed i m) = rustPositions b w (seedDigest S hf w height.toNat seed i m')) :
    ∃ sig o1 o2 pk, o.sign b S m = .ret sig o1 ∧ o.sign b S m' = .ret sig o2 ∧ o.getPk = .ok pk ∧
      Rs.verify b S m sig pk w = .ret () m ∧ Rs.verify b S m' sig pk w = .ret () m' := by
  have hsome : ∃ sig, rustSeedSignature b S hf w height.toNat seed i m = some sig := by
    rw [rustSeedSignature_digest _ _ _ _ _ _ _ _ hm, rustPositions.eq_def]
    by_cases hu : UsableW w
    · rw [if_pos hu]; exact ⟨_, rfl⟩
    · rw [if_neg hu]
      rcases hb with rfl | h
      · exact ⟨_, rfl⟩
      · exact absurd h hu
  obtain ⟨sig, hsig⟩ := hsome
  have hsig' : rustSeedSignature b S hf w height.toNat seed i m' = some sig := by
    rw [← hsig, rustSeedSignature_digest _ _ _ _ _ _ _ _ hm, rustSeedSignature_digest _ _ _ _ _ _ _ _ hm', hsame]
  have h1 := (rsCanonW_sign (b := b) hcan m).1 hi
  have h2 := (rsCanonW_sign (b := b) hcan m').1 hi
  rw [hsig] at h1
  rw [hsig'] at h2
  obtain ⟨o1, h1, _⟩ := h1
  obtain ⟨o2, h2, _⟩ := h2
  obtain ⟨pk, e1, hl, hpf, hph, hpr, hps, hpa, _⟩ := rsCanonW_pk hh hcan
  exact ⟨sig, o1, o2, pk, h1, h2, e1,
    rust_sig_any b b S seed height hf w hcan.1 hh i hi m sig hsig pk hl hpf hph hpr hps hpa m hm rfl,
    rust_sig_any b b S seed height hf w hcan.1 hh i hi m sig hsig pk hl hpf hph hpr hps hpa m' hm' hsame.symm⟩

/-- The positions of an unusable parameter depend on the first byte of the digest only. -/
theorem stuck_first {w : Nat} {d d' : Bytes} (h : d.headD 0 = d'.headD 0) : stuckPositions w d = stuckPositions w d' := by
  rw [stuckPositions, stuckPositions, h]

/-- C69, refuted: the natural property that a signature stands for its message. In a build without overflow checks, with a
parameter whose `⌊log2 w⌋` does not divide 8, of any 257 messages (short enough to be signed at all) two get the same
signature, and `verify` accepts it for both. No hash collision is involved. -/
theorem C69_release_forgery_refuted (S : Sha256) (seed : Bytes) (height : UInt8) (hf : HashFn) (w : Nat) (hw : RangeW w)
    (hu : ¬ UsableW w) (hs : seed.length = 48) (hh : GoodHeight height) (o0 : Rs.XMSSFast)
    (hnew : Rs.XMSSFast.new .release S seed height hf w = .ok o0) (ms : Fin 257 → Bytes) (hms : ∀ k, ¬ rustLong hf (ms k)) :
    ∃ k l sig o1 o2 pk, k ≠ l ∧ o0.sign .release S (ms k) = .ret sig o1 ∧ o0.sign .release S (ms l) = .ret sig o2 ∧
      o0.getPk = .ok pk ∧ Rs.verify .release S (ms k) sig pk w = .ret () (ms k) ∧
      Rs.verify .release S (ms l) sig pk w = .ret () (ms l) := by
  obtain ⟨o, h1, hcan⟩ := rsCanonW_new .release S seed height hf w hw hs hh
  rw [hnew] at h1
  cases h1
  obtain ⟨k, l, hkl, heq⟩ := Fintype.exists_ne_map_eq_of_card_lt
    (fun k : Fin 257 => (⟨((seedDigest S hf w height.toNat seed 0 (ms k)).headD 0).toNat, UInt8.toNat_lt _⟩ : Fin 256)) (by simp)
  have hb : (seedDigest S hf w height.toNat seed 0 (ms k)).headD 0 = (seedDigest S hf w height.toNat seed 0 (ms l)).headD 0 :=
    UInt8.toNat_inj.mp (Fin.mk.inj heq)
  obtain ⟨sig, o1, o2, pk, r⟩ := same_positions S seed height hf w hh .release (Or.inl rfl) hcan (Nat.two_pow_pos _) (ms k) (ms l)
    (hms k) (hms l) (by rw [rustPositions.eq_def, rustPositions.eq_def, if_neg hu, if_neg hu, stuck_first hb])
  exact ⟨k, l, sig, o1, o2, pk, hkl, r⟩

/-- The positions when `w - 1` has no bit in the low byte. -/
theorem and_high {w : Nat} (hw : w % 256 = 1) (x : UInt8) (s : Nat) : (x.toNat / 2 ^ s) &&& (w - 1) = 0 := by
  have h := x.toNat_lt
  have hle : x.toNat / 2 ^ s < 2 ^ 8 := Nat.lt_of_le_of_lt (Nat.div_le_self _ _) h
  obtain ⟨q, hq⟩ : ∃ q, w - 1 = 2 ^ 8 * q := ⟨w / 256, by omega⟩
  rw [hq]
  apply Nat.eq_of_testBit_eq
  intro i
  rw [Nat.testBit_and, Nat.zero_testBit, Nat.testBit_two_pow_mul]
  by_cases hi : 8 ≤ i
  · rw [Nat.testBit_lt_two_pow (Nat.lt_of_lt_of_le hle (Nat.pow_le_pow_right (by omega) hi))]; rfl
  · simp [hi]

theorem independent_positions {w : Nat} (h1 : w % 256 = 1) (b : Rs.Build) {d d' : Bytes} (hd : d.length = d'.length) :
    rustPositions b w d = rustPositions b w d' := by
  have hc : ∀ x y : UInt8, cutByte w x = cutByte w y := by
    intro x y
    rw [cutByte, cutByte]
    apply List.map_congr_left
    intro j _
    rw [and_high h1, and_high h1]
  have ho : ∀ (k : Nat) (x y : UInt8), oneByte w k x = oneByte w k y := by
    intro k x y
    rw [oneByte, oneByte]
    apply List.map_congr_left
    intro j _
    rw [and_high h1, and_high h1]
  have hfm : d.flatMap (cutByte w) = d'.flatMap (cutByte w) := by
    revert d'
    induction d with
    | nil => intro d' hd; rw [List.length_eq_zero_iff.mp hd.symm]
    | cons x d ih =>
      intro d' hd
      cases d' with
      | nil => cases hd
      | cons y d' => rw [List.flatMap_cons, List.flatMap_cons, hc x y, ih (Nat.succ.inj hd)]
  have hp : positions w d = positions w d' := by rw [positions, positions, hfm]
  have hst : stuckPositions w d = stuckPositions w d' := by
    rw [stuckPositions, stuckPositions, ho _ (d.headD 0) (d'.headD 0)]
  rw [rustPositions.eq_def, rustPositions.eq_def, hp, hst]

theorem length_seedDigest {S : Sha256} {f : HashFn} {w h : Nat} {seed : Bytes} {i : Nat} {m : Bytes} (hm : ¬ rustLong f m) :
    (seedDigest S f w h seed i m).length = 32 := by
  rw [seedDigest]
  obtain ⟨m', hm'⟩ : ∃ m', rustSigned f (PRF (f.prim S) (((shake256 96 seed).drop 32).take 32) (be 32 i) ++
      node (f.prim S) w (rustLen w) ((shake256 96 seed).take 32) ((shake256 96 seed).drop 64) h 0 ++ be 32 i) m = some m' := by
    rcases (C53_message_classes f m).1 with h | h | h
    · exact ⟨_, rustSigned_short h _⟩
    · exact ⟨_, rustSigned_cut h _⟩
    · exact absurd h hm
  rw [hm']; exact length_Hmsg ..

/-- C69, refuted: the same, at its worst. If `w mod 256 = 1` (in a build with overflow checks: `w = 257`), at every point of
every history where there is an index left, all messages short enough to be signed get one and the same signature, and it is
accepted for all of them. -/
theorem C69_message_independent_refuted (b : Rs.Build) (S : Sha256) (seed : Bytes) (height : UInt8) (hf : HashFn) (w : Nat)
    (hw : RangeW w) (hs : seed.length = 48) (hh : GoodHeight height) (o0 : Rs.XMSSFast)
    (hnew : Rs.XMSSFast.new b S seed height hf w = .ok o0) (cs : List FullCall) (hcs : RangeWs cs) (rs : List FullReply)
    (o : Rs.XMSSFast) (hrun : Rs.runFull b S o0 cs = some (rs, o)) (h1 : paramAfter w cs % 256 = 1)
    (hb : b = .release ∨ paramAfter w cs = 257) (i : Nat) (hidx : o.getIndex = .ok i) (hi : i < 2 ^ height.toNat) (m m' : Bytes)
    (hm : ¬ rustLong hf m) (hm' : ¬ rustLong hf m') :
    ∃ sig o1 o2 pk, o.sign b S m = .ret sig o1 ∧ o.sign b S m' = .ret sig o2 ∧ o.getPk = .ok pk ∧
      Rs.verify b S m sig pk (paramAfter w cs) = .ret () m ∧ Rs.verify b S m' sig pk (paramAfter w cs) = .ret () m' := by
  obtain ⟨j, hcan⟩ := rsCanonW_reach hs hh hw hnew hcs hrun
  rw [rsCanonW_index hcan] at hidx
  cases hidx
  exact same_positions S seed height hf _ hh b (hb.imp id fun h => h ▸ usable257) hcan hi m m' hm hm'
    (independent_positions h1 b ((length_seedDigest hm).trans (length_seedDigest hm').symm))

/-- C69. Rust rounds the number of chains up, C++ down: the two languages agree on the number of chains, and so on the size of
a signature, exactly if `⌊log2 w⌋` divides 8; otherwise Rust has more. -/
theorem C69_sizes (w : Nat) (hw : RangeW w) :
    (UsableW w → rustLen w = lenW w) ∧ (¬ UsableW w → lenW w < rustLen w) := by
  refine ⟨Rs.rustLen_usable, fun hu => ?_⟩
  obtain ⟨h2, h16⟩ := hw
  have hlog : lgW w = Nat.log2 w := rfl
  have hl : (8 ≤ w ∧ w < 16 ∧ lgW w = 3) ∨ (32 ≤ w ∧ w < 64 ∧ lgW w = 5) ∨ (64 ≤ w ∧ w < 128 ∧ lgW w = 6) ∨
      (128 ≤ w ∧ w < 256 ∧ lgW w = 7) ∨ (512 ≤ w ∧ 9 ≤ lgW w ∧ lgW w ≤ 15) := by
    have hlo := Nat.log2_self_le (n := w) (by omega)
    have hhi := Nat.lt_log2_self (n := w)
    rw [hlog]
    unfold UsableW at hu
    have h15 : Nat.log2 w ≤ 15 := by
      have := (Nat.log2_lt (n := w) (k := 16) (by omega)).mpr h16
      omega
    revert hlo hhi
    generalize Nat.log2 w = L at *
    intro hlo hhi
    have : L = 0 ∨ L = 1 ∨ L = 2 ∨ L = 3 ∨ L = 4 ∨ L = 5 ∨ L = 6 ∨ L = 7 ∨ L = 8 ∨ L = 9 ∨ L = 10 ∨ L = 11 ∨ L = 12 ∨ L = 13 ∨
      L = 14 ∨ L = 15 := by omega
    rcases this with rfl | rfl | rfl | rfl | rfl | rfl | rfl | rfl | rfl | rfl | rfl | rfl | rfl | rfl | rfl | rfl <;>
      simp at hlo hhi <;> omega
  have h1 : rustLen1 w = len1 w + 1 := by
    rw [rustLen1, len1]
    have : lgW w = 3 ∨ lgW w = 5 ∨ lgW w = 6 ∨ lgW w = 7 ∨ lgW w = 9 ∨ lgW w = 10 ∨ lgW w = 11 ∨ lgW w = 12 ∨ lgW w = 13 ∨
      lgW w = 14 ∨ lgW w = 15 := by omega
    rcases this with h | h | h | h | h | h | h | h | h | h | h <;> rw [h]
  have h3 : len2 w ≤ rustLen2 w := by
    rw [rustLen2, len2, h1]
    apply Nat.add_le_add_right
    apply Nat.div_le_div_right
    have hne : len1 w * (w - 1) ≠ 0 ∨ len1 w * (w - 1) = 0 := by omega
    rcases hne with hne | h0
    · rw [Nat.le_log2 (by
        have : 0 < (len1 w + 1) * (w - 1) := Nat.mul_pos (by omega) (by omega)
        omega)]
      exact Nat.le_trans (Nat.log2_self_le hne) (Nat.mul_le_mul_right _ (by omega))
    · rw [h0]; simp
  rw [lenW, rustLen]
  omega

/-! ## The hypotheses are met -/

example : RangeW 3 ∧ RangeW 8 ∧ RangeW 513 ∧ RangeW 65535 ∧ UsableW 3 ∧ ¬ UsableW 8 ∧ ¬ UsableW 513 ∧ 513 % 256 = 1 ∧
    rustLen 8 = 90 ∧ lenW 8 = 89 := by decide +kernel

/-- A release build signs with `w = 8`, moves to `w = 513` and signs again; the history does not panic. -/
theorem demo_any (S : Sha256) (hf : HashFn) (m m' : Bytes) (hm : ¬ rustLong hf m) (hm' : ¬ rustLong hf m') :
    ∃ o0 rs o, Rs.XMSSFast.new .release S zeroSeed 4 hf 8 = .ok o0 ∧
      Rs.runFull .release S o0 [.basic (.sign m), .initializeTree 513, .basic (.setIndex 3), .basic (.sign m')] = some (rs, o) ∧
      o.getIndex = .ok 4 := by
  have hcs : RangeWs [.basic (.sign m), .initializeTree 513, .basic (.setIndex 3), .basic (.sign m')] := by
    intro w hw
    simp at hw
    subst hw
    decide
  obtain ⟨o0, h0, h⟩ := C69_full_history .release S zeroSeed 4 hf 8 (by decide) (by decide) goodHeight4 _ hcs
  have hsome : ∀ w i (x : Bytes), ¬ rustLong hf x → ∃ sig, rustSeedSignature .release S hf w (UInt8.toNat 4) zeroSeed i x = some sig := by
    intro w i x hx
    rw [rustSeedSignature_digest _ _ _ _ _ _ _ _ hx, rustPositions.eq_def]
    by_cases hu : UsableW w
    · rw [if_pos hu]; exact ⟨_, rfl⟩
    · rw [if_neg hu]; exact ⟨_, rfl⟩
  obtain ⟨s1, h1⟩ := hsome 8 0 m hm
  obtain ⟨s2, h2⟩ := hsome 513 3 m' hm'
  have hp : partialFull (2 ^ (UInt8.toNat 4)) (fun w => rustSeedSignature .release S hf w (UInt8.toNat 4) zeroSeed) 8 0
      [.basic (.sign m), .initializeTree 513, .basic (.setIndex 3), .basic (.sign m')] =
      some ([some (.sig s1), none, some (.index 3), some (.sig s2)], 513, 4) := by
    simp only [partialFull, h1]
    have h2' : rustSeedSignature .release S hf 513 4 zeroSeed 3 m' = some s2 := h2
    simp [h2']
  rw [hp] at h
  obtain ⟨o, e1, e2⟩ := h
  exact ⟨o0, _, o, h0, e1, e2⟩

theorem short_not_long {hf : HashFn} {m : Bytes} (h : rustShort hf m) : ¬ rustLong hf m :=
  fun hl => (C53_message_classes hf m).2.1 ⟨h, hl⟩

example : ∃ o0 rs o, Rs.XMSSFast.new .release toySha zeroSeed 4 .shake_128 8 = .ok o0 ∧
    Rs.runFull .release toySha o0 [.basic (.sign [1, 2]), .initializeTree 513, .basic (.setIndex 3), .basic (.sign [7])] =
      some (rs, o) ∧ o.getIndex = .ok 4 :=
  demo_any toySha .shake_128 [1, 2] [7] (short_not_long (by simp only [rustShort, rustRoom]; decide))
    (short_not_long (by simp only [rustShort, rustRoom]; decide))

/-- Its second key signs everything alike. -/
example : ∃ o0 rs o, Rs.XMSSFast.new .release toySha zeroSeed 4 .sha2_256 8 = .ok o0 ∧
    Rs.runFull .release toySha o0 [.basic (.sign [1, 2]), .initializeTree 513, .basic (.setIndex 3), .basic (.sign [7])] =
      some (rs, o) ∧ ∃ sig o1 o2 pk, o.sign .release toySha [1] = .ret sig o1 ∧ o.sign .release toySha [2] = .ret sig o2 ∧
      o.getPk = .ok pk ∧ Rs.verify .release toySha [1] sig pk 513 = .ret () [1] ∧
      Rs.verify .release toySha [2] sig pk 513 = .ret () [2] := by
  have hn : ∀ m, m.length ≤ 3 → ¬ rustLong .sha2_256 m := fun m h => short_not_long (by simp only [rustShort]; omega)
  obtain ⟨o0, rs, o, h1, h2, h3⟩ := demo_any toySha .sha2_256 [1, 2] [7] (hn _ (by decide)) (hn _ (by decide))
  refine ⟨o0, rs, o, h1, h2, ?_⟩
  exact C69_message_independent_refuted .release toySha zeroSeed 4 .sha2_256 8 (by decide) (by decide) goodHeight4 o0 h1
    [.basic (.sign [1, 2]), .initializeTree 513, .basic (.setIndex 3), .basic (.sign [7])] (by
      intro w hw
      simp at hw
      subst hw
      decide) rs o h2 (by decide) (Or.inl rfl) 4 h3 (by decide) [1] [2] (hn _ (by decide)) (hn _ (by decide))

/-- 257 messages for the pigeonhole. -/
example : ∃ o0, Rs.XMSSFast.new .release toySha zeroSeed 4 .sha2_256 8 = .ok o0 ∧
    ∃ (k l : Fin 257) (sig : Bytes) (o1 o2 : Rs.XMSSFast) (pk : Bytes), k ≠ l ∧ o0.sign .release toySha (be 2 k.val) = .ret sig o1 ∧
      o0.sign .release toySha (be 2 l.val) = .ret sig o2 ∧ o0.getPk = .ok pk ∧
      Rs.verify .release toySha (be 2 k.val) sig pk 8 = .ret () (be 2 k.val) ∧
      Rs.verify .release toySha (be 2 l.val) sig pk 8 = .ret () (be 2 l.val) := by
  obtain ⟨o0, h0, _⟩ := rsCanonW_new .release toySha zeroSeed 4 .sha2_256 8 (by decide) (by decide) goodHeight4
  exact ⟨o0, h0, C69_release_forgery_refuted toySha zeroSeed 4 .sha2_256 8 (by decide) (by decide) (by decide) goodHeight4 o0 h0
    (fun k => be 2 k.val) (fun k => short_not_long (by simp only [rustShort, length_be]; decide))⟩

example : ∃ o0, Rs.XMSSFast.new .debug toySha zeroSeed 4 .shake_256 8 = .ok o0 ∧ o0.sign .debug toySha [1] = .panic := by
  obtain ⟨o0, h0, h1, _⟩ := C69_debug_unusable toySha zeroSeed 4 .shake_256 8 (by decide) (by decide) (by decide) goodHeight4
  exact ⟨o0, h0, h1 [1]⟩

/-- The verifier panics or answers: a key of 67 zero bytes but for the height, and a signature of the right size. -/
example : RustWellFormed 8 (List.replicate (36 + 32 * 90 + 32 * 4) 0) ([0, 2] ++ List.replicate 65 0) ∧
    Rs.verify .debug toySha [5] (List.replicate (36 + 32 * 90 + 32 * 4) 0) ([0, 2] ++ List.replicate 65 0) 8 = .panic := by
  have hwf : RustWellFormed 8 (List.replicate (36 + 32 * 90 + 32 * 4) 0) ([0, 2] ++ List.replicate 65 0) := by
    refine ⟨by decide, by decide, ?_⟩
    rw [List.length_replicate]
    decide +kernel
  exact ⟨hwf, (C69_verify .debug toySha [5] _ _ 8 (by decide)).2.1.mpr ⟨hwf, by decide, .sha2_256, by decide, Or.inr ⟨rfl, by decide⟩⟩⟩

end Qrl.Props
