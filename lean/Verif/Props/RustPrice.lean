import Verif.Spec.RustPrice
import Verif.Props.Price
import Verif.Props.RustSign
/-!
# C80: what acceptance by the Rust port means
-/

namespace Qrl.Props

open Qrl.Spec

theorem rustSeen_length {room : Nat} {key m y : Bytes} (hk : key.length = 96) (h : rustSeen room key m = some y) :
    y.length = m.length := by
  rw [rustSeen] at h
  by_cases h1 : m.length < room
  · rw [if_pos h1] at h; cases h; rfl
  · rw [if_neg h1] at h
    by_cases h2 : m.length < 2 * room + 128
    · rw [if_pos h2] at h
      cases h
      simp only [List.length_append, List.length_take, length_be, hk]
      omega
    · rw [if_neg h2] at h; cases h

/-- The message hash of the port takes two messages for the same only if they are alike. -/
theorem rustSigned_inj {hf : HashFn} {key m m' y : Bytes} (hk : key.length = 96) (h : rustSigned hf key m = some y)
    (h' : rustSigned hf key m' = some y) : rustAlike hf m m' := by
  have main : ∀ room, hf ≠ .sha2_256 → rustRoom hf = room → rustSeen room key m = some y → rustSeen room key m' = some y →
      rustAlike hf m m' := by
    intro room hne hroom h h'
    have e1 := rustSeen_length hk h
    have e2 := rustSeen_length hk h'
    rw [rustSeen] at h h'
    by_cases h1 : m.length < room
    · rw [if_pos h1] at h
      rw [if_pos (by omega)] at h'
      cases h; cases h'
      exact Or.inl rfl
    · rw [if_neg h1] at h
      rw [if_neg (by omega)] at h'
      by_cases h2 : m.length < 2 * room + 128
      · rw [if_pos h2] at h
        rw [if_pos (by omega)] at h'
        right
        refine ⟨⟨hne, by rw [hroom]; omega, by rw [hroom]; omega⟩, by omega, ?_⟩
        have e := h.trans h'.symm
        have e := Option.some.inj e
        rw [hroom]
        exact (List.append_inj e (by rw [List.length_take, List.length_take]; omega)).1
      · rw [if_neg h2] at h; cases h
  cases hf with
  | sha2_256 =>
    simp only [rustSigned] at h h'
    by_cases h1 : m.length + 128 < 2 ^ 32
    · rw [if_pos h1] at h
      by_cases h2 : m'.length + 128 < 2 ^ 32
      · rw [if_pos h2] at h'
        cases h; cases h'
        exact Or.inl rfl
      · rw [if_neg h2] at h'; cases h'
    · rw [if_neg h1] at h; cases h
  | shake_128 => exact main 40 (by decide) rfl h h'
  | shake_256 => exact main 8 (by decide) rfl h h'

/-- C80. Acceptance by the port is acceptance by the C++ library of the message it reads. -/
theorem C80_accepts_read (b : Rs.Build) (S : Sha256) (hf : HashFn) (w : Nat) (hw : w = 2 ∨ w = 4 ∨ w = 16 ∨ w = 256)
    (msg sig pk : Bytes) (hh : HashFn.ofNat? (keyHash pk) = some hf) (h : Rs.verify b S msg sig pk w = .ret () msg) :
    rustSigned hf (keyInSig sig (keyRoot pk)) msg = some (rustRead hf (keyRoot pk) msg sig) ∧
      verify S (rustRead hf (keyRoot pk) msg sig) sig pk w = .ok true := by
  obtain ⟨_, hf', msg', h1, h2, h3⟩ := (C53_accepts_iff b S msg sig pk w hw).mp h
  rw [hh] at h1
  cases h1
  rw [rustRead, h2]
  exact ⟨rfl, h3⟩

/-- C80. **The price on the Rust port.** Let `published` be pairs made with the keys of a seed. If the port accepts a pair
under the public key of that seed, then two of the listed hash calls collide; or the message it reads is covered by the
published signatures with the same index; or the pair carries a value strictly before all published ones of some chain. -/
theorem C80_price (b : Rs.Build) (S : Sha256) (hf : HashFn) (w : Nat) (hw : w = 2 ∨ w = 4 ∨ w = 16 ∨ w = 256) (seed pk : Bytes)
    (hh : HashFn.ofNat? (keyHash pk) = some hf) (hseed : keySeed pk = (shake256 96 seed).drop 64)
    (hheight : keyHeight pk ≤ 31)
    (hroot : keyRoot pk = Spec.node (hf.prim S) w (lenW w) ((shake256 96 seed).take 32) ((shake256 96 seed).drop 64)
      (keyHeight pk) 0)
    (published : List (Bytes × Bytes))
    (hk : ∀ x ∈ published, ∃ i, i < 2 ^ keyHeight pk ∧ rustSignature S hf w (keyHeight pk) seed i x.1 = some x.2)
    (msg sig : Bytes) (h : Rs.verify b S msg sig pk w = .ret () msg) :
    Collides (hf.prim S) (verifyCalls (hf.prim S) w (rustRead hf (keyRoot pk) msg sig) sig pk ++
      nodeCalls (hf.prim S) w (lenW w) ((shake256 96 seed).take 32) ((shake256 96 seed).drop 64) (keyHeight pk) 0) ∨
    (sigIndex sig < 2 ^ keyHeight pk ∧
     (Covered (hf.prim S) w (keyRoot pk) ((published.map fun x => (rustRead hf (keyRoot pk) x.1 x.2, x.2)).filter
        fun x => sigIndex x.2 = sigIndex sig) (rustRead hf (keyRoot pk) msg sig) sig ∨
      ∃ ch d, (positionsUnder (hf.prim S) w (keyRoot pk) (rustRead hf (keyRoot pk) msg sig) sig)[ch]? = some d ∧ d < w - 1 ∧
        LeadsTo (hf.prim S) (keySeed pk) (sigIndex sig) ch d (sigChain sig ch) (w - 1)
          (chain (hf.prim S) (keySeed pk) (sigIndex sig) ch 0 (w - 1)
            (wotsSecret (hf.prim S) ((shake256 96 seed).take 32) (sigIndex sig) ch)) ∧
        ∀ x ∈ published, sigIndex x.2 = sigIndex sig →
          ∃ e, (positionsUnder (hf.prim S) w (keyRoot pk) (rustRead hf (keyRoot pk) x.1 x.2) x.2)[ch]? = some e ∧ d < e ∧
            LeadsTo (hf.prim S) (keySeed pk) (sigIndex sig) ch d (sigChain sig ch) e (sigChain x.2 ch))) := by
  have hv := (C80_accepts_read b S hf w hw msg sig pk hh h).2
  have h32 : 2 ^ keyHeight pk ≤ 2 ^ 31 := Nat.pow_le_pow_right (by omega) hheight
  have hpub : ∀ x ∈ published.map fun x => (rustRead hf (keyRoot pk) x.1 x.2, x.2), ∃ i, i < 2 ^ keyHeight pk ∧
      x.2.take (36 + 32 * lenW w) = (seedSignature S hf w (keyHeight pk) seed i x.1).take (36 + 32 * lenW w) := by
    intro x hx
    obtain ⟨y, hy, rfl⟩ := List.mem_map.mp hx
    obtain ⟨i, hi, e⟩ := hk y hy
    refine ⟨i, hi, ?_⟩
    rw [rustSignature] at e
    obtain ⟨m', hm', e⟩ := Option.map_eq_some_iff.mp e
    simp only
    have hkey : keyInSig y.2 (keyRoot pk) = seedSignKey S hf w (keyHeight pk) seed i := by
      rw [← e, hroot]
      exact keyInSig_signature S hf w _ _ _ _ i m' (by omega)
    rw [rustRead, hkey, hm', ← e]
    rfl
  rcases C77_price S hf w hw seed pk hh hseed hroot _ hpub _ sig hv with hc | ⟨hi, hcov | ⟨ch, d, g1, g2, g3, g4⟩⟩
  · exact Or.inl hc
  · exact Or.inr ⟨hi, Or.inl hcov⟩
  · refine Or.inr ⟨hi, Or.inr ⟨ch, d, g1, g2, g3, ?_⟩⟩
    intro x hx hxi
    have hm : (rustRead hf (keyRoot pk) x.1 x.2, x.2) ∈ published.map fun x => (rustRead hf (keyRoot pk) x.1 x.2, x.2) :=
      List.mem_map.mpr ⟨x, hx, rfl⟩
    exact g4 (rustRead hf (keyRoot pk) x.1 x.2, x.2) hm hxi

/-- C80. The same when no index was used twice (w = 2, 4, 16): the signature is a published one, and the message is the one
it was made for or one the port cannot tell from it; or two of the listed calls collide; or the pair carries an earlier
value. -/
theorem C80_once (b : Rs.Build) (S : Sha256) (hf : HashFn) (w : Nat) (hw : w = 2 ∨ w = 4 ∨ w = 16) (seed pk : Bytes)
    (hh : HashFn.ofNat? (keyHash pk) = some hf) (hseed : keySeed pk = (shake256 96 seed).drop 64)
    (hheight : keyHeight pk ≤ 31)
    (hroot : keyRoot pk = Spec.node (hf.prim S) w (lenW w) ((shake256 96 seed).take 32) ((shake256 96 seed).drop 64)
      (keyHeight pk) 0)
    (published : List (Bytes × Bytes))
    (hk : ∀ x ∈ published, ∃ i, i < 2 ^ keyHeight pk ∧ rustSignature S hf w (keyHeight pk) seed i x.1 = some x.2)
    (hacc : ∀ x ∈ published, Rs.verify b S x.1 x.2 pk w = .ret () x.1)
    (honce : (published.map fun x => sigIndex x.2).Nodup)
    (msg sig : Bytes) (h : Rs.verify b S msg sig pk w = .ret () msg) :
    (∃ m0, (m0, sig) ∈ published ∧ rustAlike hf m0 msg) ∨
    Collides (hf.prim S) (verifyCalls (hf.prim S) w (rustRead hf (keyRoot pk) msg sig) sig pk ++
      published.flatMap (fun x => verifyCalls (hf.prim S) w (rustRead hf (keyRoot pk) x.1 x.2) x.2 pk) ++
      nodeCalls (hf.prim S) w (lenW w) ((shake256 96 seed).take 32) ((shake256 96 seed).drop 64) (keyHeight pk) 0) ∨
    ∃ ch d, (positionsUnder (hf.prim S) w (keyRoot pk) (rustRead hf (keyRoot pk) msg sig) sig)[ch]? = some d ∧ d < w - 1 ∧
      LeadsTo (hf.prim S) (keySeed pk) (sigIndex sig) ch d (sigChain sig ch) (w - 1)
        (chain (hf.prim S) (keySeed pk) (sigIndex sig) ch 0 (w - 1)
          (wotsSecret (hf.prim S) ((shake256 96 seed).take 32) (sigIndex sig) ch)) ∧
      ∀ x ∈ published, sigIndex x.2 = sigIndex sig →
        ∃ e, (positionsUnder (hf.prim S) w (keyRoot pk) (rustRead hf (keyRoot pk) x.1 x.2) x.2)[ch]? = some e ∧ d < e ∧
          LeadsTo (hf.prim S) (keySeed pk) (sigIndex sig) ch d (sigChain sig ch) e (sigChain x.2 ch) := by
  have hw4 : w = 2 ∨ w = 4 ∨ w = 16 ∨ w = 256 := by omega
  obtain ⟨hread, hv⟩ := C80_accepts_read b S hf w hw4 msg sig pk hh h
  rcases C80_price b S hf w hw4 seed pk hh hseed hheight hroot published hk msg sig h with hc | ⟨_, hcov | hbef⟩
  · right; left
    refine hc.mono ?_
    intro z hz
    rcases List.mem_append.mp hz with hz | hz
    · exact List.mem_append_left _ (List.mem_append_left _ hz)
    · exact List.mem_append_right _ hz
  · obtain ⟨p, k, q, hp, hsp, _⟩ := base_ok hw4
    have hG := out32 S hf
    have hL : ∀ (r : Bytes) i m, (digest (hf.prim S) r (keyRoot pk) i m).length = 32 := fun r i m => hG _
    have hlen := length_wotsDigits hsp (digest (hf.prim S) ((sig.drop 4).take 32) (keyRoot pk) (byteVal (sig.take 4))
      (rustRead hf (keyRoot pk) msg sig)) (hL _ _ _)
    have hpos : 0 < (positionsUnder (hf.prim S) w (keyRoot pk) (rustRead hf (keyRoot pk) msg sig) sig).length := by
      rw [positionsUnder, hlen]
      have := lenW_pos hw4
      rw [← hsp.len]
      omega
    obtain ⟨x', hx, _⟩ := hcov 0 _ (List.getElem?_eq_getElem hpos)
    obtain ⟨hx1, hx2⟩ := List.mem_filter.mp hx
    obtain ⟨x, hxm, rfl⟩ := List.mem_map.mp hx1
    have hx2 : sigIndex x.2 = sigIndex sig := by simpa using hx2
    have huniq : ∀ y ∈ published, sigIndex y.2 = sigIndex sig → y = x := fun y hy hyi =>
      List.inj_on_of_nodup_map honce hy hxm (hyi.trans hx2.symm)
    obtain ⟨hreadx, hvx⟩ := C80_accepts_read b S hf w hw4 x.1 x.2 pk hh (hacc x hxm)
    obtain ⟨hf', hh', hor⟩ := C25_no_second_message S _ _ sig x.2 pk w hw hv hvx hx2.symm
    rw [hh] at hh'
    cases hh'
    rcases hor with ⟨e1, e2⟩ | hc | ⟨ch, d, d', f1, f2, f3, f4⟩
    · left
      refine ⟨x.1, by rw [e2]; exact hxm, ?_⟩
      obtain ⟨wf, _⟩ := verify_true_iff hw4 hv
      have hkl : (keyInSig sig (keyRoot pk)).length = 96 := by
        obtain ⟨w1, w2, w3⟩ := wf
        have := lenW_pos hw4
        rw [keyInSig, keyRoot]
        simp only [List.length_append, length_be, List.length_take, List.length_drop]
        omega
      rw [e1] at hread
      rw [← e2] at hreadx
      exact rustSigned_inj hkl hreadx (by rw [← e2] at hread; exact hread)
    · right; left
      refine hc.mono ?_
      intro z hz
      rcases List.mem_append.mp hz with hz | hz
      · exact List.mem_append_left _ (List.mem_append_left _ hz)
      · exact List.mem_append_left _ (List.mem_append_right _ (List.mem_flatMap.mpr ⟨x, hxm, hz⟩))
    · obtain ⟨y, hy, e, g1, g2⟩ := hcov ch d f1
      obtain ⟨hy1, hy2⟩ := List.mem_filter.mp hy
      obtain ⟨y', hym, rfl⟩ := List.mem_map.mp hy1
      rw [huniq y' hym (by simpa using hy2)] at g1
      have : e = d' := Option.some.inj (g1.symm.trans f2)
      omega
  · exact Or.inr (Or.inr hbef)

theorem partialRun_pairs (limit : Nat) (σ : Nat → Bytes → Option Bytes) (cs : List Call) : ∀ i y, partialRun limit σ i cs = some y →
    (∀ x ∈ signedPairs cs y.1, ∃ k, k < limit ∧ σ k x.1 = some x.2) ∧ (signedPairs cs y.1).map (·.2) = signatures y.1 := by
  induction cs with
  | nil => intro i y h; rw [partialRun] at h; cases h; exact ⟨fun x hx => by simp [signedPairs] at hx, rfl⟩
  | cons c cs ih =>
    intro i y h
    have skip : ∀ (k : Nat) (r : Reply), (∀ s, r ≠ .sig s) → ((partialRun limit σ k cs).map fun x => (r :: x.1, x.2)) = some y →
        (∀ x ∈ signedPairs (c :: cs) y.1, ∃ k, k < limit ∧ σ k x.1 = some x.2) ∧
          (signedPairs (c :: cs) y.1).map (·.2) = signatures y.1 := by
      intro k r hr h
      obtain ⟨z, hz, rfl⟩ := Option.map_eq_some_iff.mp h
      have := ih k z hz
      have e1 : signedPairs (c :: cs) (r :: z.1) = signedPairs cs z.1 := by
        cases c <;> cases r <;> first | rfl | exact absurd rfl (hr _)
      have e2 : signatures (r :: z.1) = signatures z.1 := by
        cases r <;> first | rfl | exact absurd rfl (hr _)
      simp only
      rw [e1, e2]
      exact this
    cases c with
    | setIndex n =>
      rw [partialRun] at h
      split at h
      · exact skip _ _ (by simp) h
      · exact skip _ _ (by simp) h
    | sign m =>
      rw [partialRun] at h
      split at h
      · rename_i hl
        cases hs : σ i m with
        | none => rw [hs] at h; cases h
        | some s =>
          rw [hs] at h
          obtain ⟨z, hz, rfl⟩ := Option.map_eq_some_iff.mp h
          obtain ⟨i1, i2⟩ := ih _ z hz
          refine ⟨?_, ?_⟩
          · intro x hx
            rcases List.mem_cons.mp (show x ∈ (m, s) :: signedPairs cs z.1 from hx) with rfl | hx
            · exact ⟨i, hl, hs⟩
            · exact i1 x hx
          · show s :: (signedPairs cs z.1).map (·.2) = s :: signatures z.1
            rw [i2]
      · exact skip _ _ (by simp) h

theorem partialLoose_pairs (limit : Nat) (σ : Nat → Bytes → Option Bytes) (cs : List Call) : ∀ i y, partialLoose limit σ i cs = some y →
    ∀ x ∈ signedPairs cs y.1, ∃ k, k < limit ∧ σ k x.1 = some x.2 := by
  induction cs with
  | nil => intro i y h x hx; rw [partialLoose] at h; cases h; simp [signedPairs] at hx
  | cons c cs ih =>
    intro i y h
    cases c with
    | setIndex n =>
      rw [partialLoose] at h
      obtain ⟨z, hz, rfl⟩ := Option.map_eq_some_iff.mp h
      exact ih _ z hz
    | sign m =>
      rw [partialLoose] at h
      split at h
      · rename_i hl
        cases hs : σ i m with
        | none => rw [hs] at h; cases h
        | some s =>
          rw [hs] at h
          obtain ⟨z, hz, rfl⟩ := Option.map_eq_some_iff.mp h
          intro x hx
          rcases List.mem_cons.mp (show x ∈ (m, s) :: signedPairs cs z.1 from hx) with rfl | hx
          · exact ⟨i, hl, hs⟩
          · exact ih _ z hz x hx
      · cases h

theorem rust_pk_fields (S : Sha256) (seed : Bytes) (height : UInt8) (hf : HashFn) (w : Nat)
    (hw : w = 2 ∨ w = 4 ∨ w = 16 ∨ w = 256) (hh : GoodHeight height) (o : Rs.XMSSBase) (j : Nat)
    (hsk : o.sk = (keyOf S hf w height.toNat (lenW_pos hw) seed).sk j) (hhf : o.hashFunction = hf) (hht : o.height = height) :
    ∃ pk, o.getPk = .ok pk ∧ HashFn.ofNat? (keyHash pk) = some hf ∧ keyHeight pk = height.toNat ∧
      keySeed pk = (shake256 96 seed).drop 64 ∧
      keyRoot pk = Spec.node (hf.prim S) w (lenW w) ((shake256 96 seed).take 32) ((shake256 96 seed).drop 64) height.toNat 0 := by
  let K := keyOf S hf w height.toNat (lenW_pos hw) seed
  let c : XmssBase := { params := ⟨Rs.wotsParams w, height.toNat⟩, hashFunction := hf.toNat, addrFormat := 0, height := height,
                        sk := K.sk j, seed := o.seed }
  have hsame : SameKey o c := ⟨hsk, rfl, hht, by rw [hhf], rfl⟩
  obtain ⟨_, _, _, _, _, ⟨pk, g1, g2⟩, _⟩ := C51_same_getters o c hsame (K.length_sk j)
  refine ⟨pk, g1, ?_⟩
  have hpk := getPK_eq K c j rfl
  rw [g2] at hpk
  obtain ⟨f1, f2, f3, f4, f5⟩ := pk_fields K c hf rfl hh
  rw [← Outcome.ok.inj hpk] at f1 f2 f3 f4 f5
  exact ⟨by rw [f2, ofNat?_toNat], f3, f5, f4⟩

/-- C80. **The Rust `XMSSFast`** (w = 2, 4, 16), after any history of calls: if the port accepts a pair under the public key
of the signer, then the signature is one that was returned, for this message or for one the port cannot tell from it; or two of
the listed hash calls collide; or the pair carries a chain value strictly before the published one. -/
theorem C80_fast (b b' : Rs.Build) (S : Sha256) (seed : Bytes) (height : UInt8) (hf : HashFn) (w : Nat)
    (hw : w = 2 ∨ w = 4 ∨ w = 16) (hs : seed.length = 48) (hh : GoodHeight height) (o0 o : Rs.XMSSFast)
    (hnew : Rs.XMSSFast.new b S seed height hf w = .ok o0) (cs : List Call) (rs : List Reply)
    (hrun : runCalls (Rs.XMSSFast.call b S) o0 cs = some (rs, o)) (pk : Bytes) (hpk : o0.getPk = .ok pk)
    (msg sig : Bytes) (h : Rs.verify b' S msg sig pk w = .ret () msg) :
    (∃ m0, (m0, sig) ∈ signedPairs cs rs ∧ rustAlike hf m0 msg) ∨
    Collides (hf.prim S) (verifyCalls (hf.prim S) w (rustRead hf (keyRoot pk) msg sig) sig pk ++
      (signedPairs cs rs).flatMap (fun x => verifyCalls (hf.prim S) w (rustRead hf (keyRoot pk) x.1 x.2) x.2 pk) ++
      nodeCalls (hf.prim S) w (lenW w) ((shake256 96 seed).take 32) ((shake256 96 seed).drop 64) height.toNat 0) ∨
    ∃ ch d, (positionsUnder (hf.prim S) w (keyRoot pk) (rustRead hf (keyRoot pk) msg sig) sig)[ch]? = some d ∧ d < w - 1 ∧
      LeadsTo (hf.prim S) (keySeed pk) (sigIndex sig) ch d (sigChain sig ch) (w - 1)
        (chain (hf.prim S) (keySeed pk) (sigIndex sig) ch 0 (w - 1)
          (wotsSecret (hf.prim S) ((shake256 96 seed).take 32) (sigIndex sig) ch)) ∧
      ∀ x ∈ signedPairs cs rs, sigIndex x.2 = sigIndex sig →
        ∃ e, (positionsUnder (hf.prim S) w (keyRoot pk) (rustRead hf (keyRoot pk) x.1 x.2) x.2)[ch]? = some e ∧ d < e ∧
          LeadsTo (hf.prim S) (keySeed pk) (sigIndex sig) ch d (sigChain sig ch) e (sigChain x.2 ch) := by
  have hw4 : w = 2 ∨ w = 4 ∨ w = 16 ∨ w = 256 := by omega
  have hhist := C52_fast_history b S seed height hf w hw4 hs hh o0 hnew cs
  have hno := (C52_no_reuse b S seed height hf w hw4 hs hh o0 hnew cs rs o hrun).1
  cases hx : partialRun (2 ^ height.toNat) (rustSignature S hf w height.toNat seed) 0 cs with
  | none => rw [hx] at hhist; dsimp only at hhist; rw [hrun] at hhist; cases hhist
  | some y =>
    obtain ⟨rs', i'⟩ := y
    rw [hx] at hhist
    obtain ⟨o1, h1, _⟩ := hhist
    rw [hrun] at h1
    have h1' : rs = rs' := congrArg Prod.fst (Option.some.inj h1)
    subst h1'
    obtain ⟨q1, q2⟩ := partialRun_pairs _ _ cs 0 _ hx
    obtain ⟨_, _, _, oo, e1, ef, eh, _, _, H⟩ := Rs.fast_new_rs (S := S) b seed height hf hw4 hs hh
    rw [e1] at hnew
    cases hnew
    have hsk0 : o0.sk = (keyOf S hf w height.toNat (lenW_pos hw4) seed).sk 0 := by subst ef; subst eh; exact H.hsk
    obtain ⟨pk', p1, p2, p3, p4, p5⟩ := rust_pk_fields S seed height hf w hw4 hh o0.toXMSSBase 0 hsk0 (by simp [ef]) (by simp [eh])
    rw [hpk] at p1
    cases p1
    have hacc : ∀ x ∈ signedPairs cs rs, Rs.verify b' S x.1 x.2 pk w = .ret () x.1 := by
      intro x hxm
      obtain ⟨i, hi, hsi⟩ := q1 x hxm
      obtain ⟨pk', r1, r2⟩ := rust_sig_accepted b' S seed height hf w hw4 hh i hi x.1 x.2 hsi o0.toXMSSBase 0 hsk0 (by simp [ef]) (by simp [eh])
      rw [hpk] at r1
      cases r1
      exact r2
    have hnd : ((signedPairs cs rs).map fun x => sigIndex x.2).Nodup := by
      rw [← q2, List.map_map] at hno
      exact hno.imp (fun {a b} (h : a < b) => Nat.ne_of_lt h)
    rw [← p3] at p5 q1 ⊢
    have h30 := hh.2.1
    exact C80_once b' S hf w hw seed pk p2 p4 (by omega) p5 _ q1 hacc hnd msg sig h

/-- C80. **The Rust `XMSSBasic`** (every w of the port's base set, height at most 24), after any history of calls, indices set
back and used again included: a pair the port accepts under the public key is paid for by the signatures returned, as in
`C80_price`. -/
theorem C80_basic (b b' : Rs.Build) (S : Sha256) (seed : Bytes) (height : UInt8) (hf : HashFn) (w : Nat)
    (hw : w = 2 ∨ w = 4 ∨ w = 16 ∨ w = 256) (hs : seed.length = 48) (hh : GoodHeight height) (h24 : height.toNat ≤ 24)
    (o0 o : Rs.XMSSBasic) (hnew : Rs.XMSSBasic.new b S seed height hf w = .ok o0) (cs : List Call)
    (hb : b = .debug ∨ 8 ≤ height.toNat ∨ ∀ n, Call.setIndex n ∈ cs → n.toNat < 2 ^ (25 + height.toNat)) (rs : List Reply)
    (hrun : runCalls (Rs.XMSSBasic.call b S) o0 cs = some (rs, o)) (pk : Bytes) (hpk : o0.getPk = .ok pk)
    (msg sig : Bytes) (h : Rs.verify b' S msg sig pk w = .ret () msg) :
    Collides (hf.prim S) (verifyCalls (hf.prim S) w (rustRead hf (keyRoot pk) msg sig) sig pk ++
      nodeCalls (hf.prim S) w (lenW w) ((shake256 96 seed).take 32) ((shake256 96 seed).drop 64) height.toNat 0) ∨
    (sigIndex sig < 2 ^ height.toNat ∧
     (Covered (hf.prim S) w (keyRoot pk) (((signedPairs cs rs).map fun x => (rustRead hf (keyRoot pk) x.1 x.2, x.2)).filter
        fun x => sigIndex x.2 = sigIndex sig) (rustRead hf (keyRoot pk) msg sig) sig ∨
      ∃ ch d, (positionsUnder (hf.prim S) w (keyRoot pk) (rustRead hf (keyRoot pk) msg sig) sig)[ch]? = some d ∧ d < w - 1 ∧
        LeadsTo (hf.prim S) (keySeed pk) (sigIndex sig) ch d (sigChain sig ch) (w - 1)
          (chain (hf.prim S) (keySeed pk) (sigIndex sig) ch 0 (w - 1)
            (wotsSecret (hf.prim S) ((shake256 96 seed).take 32) (sigIndex sig) ch)) ∧
        ∀ x ∈ signedPairs cs rs, sigIndex x.2 = sigIndex sig →
          ∃ e, (positionsUnder (hf.prim S) w (keyRoot pk) (rustRead hf (keyRoot pk) x.1 x.2) x.2)[ch]? = some e ∧ d < e ∧
            LeadsTo (hf.prim S) (keySeed pk) (sigIndex sig) ch d (sigChain sig ch) e (sigChain x.2 ch))) := by
  have hhist := C52_basic_history b S seed height hf w hw hs hh h24 o0 hnew cs hb
  cases hx : partialLoose (2 ^ height.toNat) (rustSignature S hf w height.toNat seed) 0 cs with
  | none => rw [hx] at hhist; dsimp only at hhist; rw [hrun] at hhist; cases hhist
  | some y =>
    obtain ⟨rs', i'⟩ := y
    rw [hx] at hhist
    obtain ⟨o1, h1, _⟩ := hhist
    rw [hrun] at h1
    have h1' : rs = rs' := congrArg Prod.fst (Option.some.inj h1)
    subst h1'
    have q1 := partialLoose_pairs _ _ cs 0 _ hx
    rw [Rs.basic_new_rs b seed height hf hw hs hh] at hnew
    cases hnew
    obtain ⟨pk', p1, p2, p3, p4, p5⟩ := rust_pk_fields S seed height hf w hw hh
      { hashFunction := hf, height := height, sk := (keyOf S hf w height.toNat (lenW_pos hw) seed).sk 0, seed := seed } 0 rfl rfl rfl
    rw [hpk] at p1
    cases p1
    rw [← p3] at p5 q1 ⊢
    have h30 := hh.2.1
    exact C80_price b' S hf w hw seed pk p2 p4 (by omega) p5 _ q1 msg sig h

/-- A signer that signed a message of 41 bytes, and a pair with another message that the port accepts: the hypotheses of
`C80_fast`, with the message cut. -/
theorem rust_price_demo (b : Rs.Build) (S : Sha256) (seed : Bytes) (height : UInt8) (hs : seed.length = 48)
    (hh : GoodHeight height) : ∃ o0 o rs pk sig,
      Rs.XMSSFast.new b S seed height .shake_128 16 = .ok o0 ∧
      runCalls (Rs.XMSSFast.call b S) o0 [.sign (List.replicate 40 0 ++ [1])] = some (rs, o) ∧ o0.getPk = .ok pk ∧
      (List.replicate 40 0 ++ [1], sig) ∈ signedPairs [.sign (List.replicate 40 0 ++ [1])] rs ∧
      Rs.verify b S (List.replicate 40 0 ++ [2]) sig pk 16 = .ret () (List.replicate 40 0 ++ [2]) ∧
      HashFn.ofNat? (keyHash pk) = some .shake_128 ∧ keyHeight pk = height.toNat ∧
      keySeed pk = (shake256 96 seed).drop 64 ∧
      keyRoot pk = Spec.node (HashFn.prim S .shake_128) 16 (lenW 16) ((shake256 96 seed).take 32) ((shake256 96 seed).drop 64)
        height.toNat 0 ∧
      rustSignature S .shake_128 16 height.toNat seed 0 (List.replicate 40 0 ++ [1]) = some sig := by
  obtain ⟨o0, sig, o', pk, h1, h2, h3, h4⟩ := C53_signed_forgery b b S seed height .shake_128 16 (by omega) hs hh
    (List.replicate 40 0 ++ [1]) (List.replicate 40 0 ++ [2]) (by simp [rustCut, rustRoom]) (by decide) (by decide)
  have hr : runCalls (Rs.XMSSFast.call b S) o0 [.sign (List.replicate 40 0 ++ [1])] = some ([.sig sig], o') := by
    simp only [runCalls, Rs.XMSSFast.call, h2]
  have hhist := C52_fast_history b S seed height .shake_128 16 (by omega) hs hh o0 h1 [.sign (List.replicate 40 0 ++ [1])]
  obtain ⟨_, _, _, oo, e1, ef, eh, _, _, H⟩ := Rs.fast_new_rs (S := S) b seed height .shake_128 (w := 16) (by omega) hs hh
  rw [e1] at h1
  cases h1
  have hsk0 : o0.sk = (keyOf S .shake_128 16 height.toNat (lenW_pos (by omega)) seed).sk 0 := H.hsk
  obtain ⟨pk', p1, p2, p3, p4, p5⟩ := rust_pk_fields S seed height .shake_128 16 (by omega) hh o0.toXMSSBase 0 hsk0 (by simp [ef]) (by simp [eh])
  rw [h3] at p1
  cases p1
  refine ⟨o0, o', _, pk, sig, e1, hr, h3, by simp [signedPairs], h4, p2, p3, p4, p5, ?_⟩
  cases hx : partialRun (2 ^ height.toNat) (rustSignature S .shake_128 16 height.toNat seed) 0 [.sign (List.replicate 40 0 ++ [1])] with
  | none => rw [hx] at hhist; dsimp only at hhist; rw [hr] at hhist; cases hhist
  | some y =>
    rw [hx] at hhist
    obtain ⟨o1, g1, _⟩ := hhist
    rw [hr] at g1
    have g2 : [Reply.sig sig] = y.1 := congrArg Prod.fst (Option.some.inj g1)
    rw [partialRun, if_pos (Nat.two_pow_pos _)] at hx
    cases hsg : rustSignature S .shake_128 16 height.toNat seed 0 (List.replicate 40 0 ++ [1]) with
    | none => rw [hsg] at hx; cases hx
    | some s =>
      rw [hsg, partialRun] at hx
      cases hx
      cases g2
      rfl

example : ∃ o0 o rs pk sig,
      Rs.XMSSFast.new .release toySha zeroSeed 4 .shake_128 16 = .ok o0 ∧
      runCalls (Rs.XMSSFast.call .release toySha) o0 [.sign (List.replicate 40 0 ++ [1])] = some (rs, o) ∧ o0.getPk = .ok pk ∧
      Rs.verify .release toySha (List.replicate 40 0 ++ [2]) sig pk 16 = .ret () (List.replicate 40 0 ++ [2]) := by
  obtain ⟨o0, o, rs, pk, sig, h1, h2, h3, _, h5, _⟩ := rust_price_demo .release toySha zeroSeed 4 (by decide) goodHeight4
  exact ⟨o0, o, rs, pk, sig, h1, h2, h3, h5⟩

/-- `XMSSBasic` at height 4 that used index 5 twice. -/
example : ∃ o0 rs o pk, Rs.XMSSBasic.new .debug toySha zeroSeed 4 .shake_128 16 = .ok o0 ∧
    runCalls (Rs.XMSSBasic.call .debug toySha) o0 [.setIndex 5, .sign [1], .setIndex 5, .sign [2]] = some (rs, o) ∧
    o0.getPk = .ok pk ∧ (signedPairs [.setIndex 5, .sign [1], .setIndex 5, .sign [2]] rs).length = 2 := by
  have hnew := Rs.basic_new_rs (S := toySha) .debug zeroSeed 4 .shake_128 (w := 16) (by omega) (by decide) goodHeight4
  obtain ⟨pk, p1, _⟩ := rust_pk_fields toySha zeroSeed 4 .shake_128 16 (by omega) goodHeight4
      { hashFunction := .shake_128, height := 4, sk := (keyOf toySha .shake_128 16 4 (lenW_pos (by omega)) zeroSeed).sk 0, seed := zeroSeed } 0 rfl rfl rfl
  have hhist := C52_basic_history .debug toySha zeroSeed 4 .shake_128 16 (by omega) (by decide) goodHeight4 (by decide) _ hnew
    [.setIndex 5, .sign [1], .setIndex 5, .sign [2]] (Or.inl rfl)
  have h5 : UInt32.toNat 5 = 5 := by decide
  have h16 : 2 ^ UInt8.toNat 4 = 16 := by decide
  have hs1 : ∀ m, rustShort .shake_128 m → rustSignature toySha .shake_128 16 (UInt8.toNat 4) zeroSeed 5 m =
      some (seedSignature toySha .shake_128 16 (UInt8.toNat 4) zeroSeed 5 m) := by
    intro m hm; rw [rustSignature, rustSigned_short hm]; rfl
  simp only [partialLoose, h5, h16, show 5 < 16 by omega, if_true, hs1 [1] (by simp [rustShort, rustRoom]), hs1 [2] (by simp [rustShort, rustRoom]), Option.map_some] at hhist
  obtain ⟨o, g1, _⟩ := hhist
  exact ⟨_, _, o, pk, hnew, g1, p1, rfl⟩

/-- The hypotheses of `C80_price` and `C80_once`, for one published signature. -/
example : ∃ pk sig, HashFn.ofNat? (keyHash pk) = some .shake_128 ∧ keySeed pk = (shake256 96 zeroSeed).drop 64 ∧
    keyHeight pk ≤ 31 ∧
    keyRoot pk = Spec.node (HashFn.prim toySha .shake_128) 16 (lenW 16) ((shake256 96 zeroSeed).take 32)
      ((shake256 96 zeroSeed).drop 64) (keyHeight pk) 0 ∧
    rustSignature toySha .shake_128 16 (keyHeight pk) zeroSeed 0 (List.replicate 40 0 ++ [1]) = some sig ∧
    Rs.verify .debug toySha (List.replicate 40 0 ++ [2]) sig pk 16 = .ret () (List.replicate 40 0 ++ [2]) := by
  obtain ⟨o0, o, rs, pk, sig, h1, h2, h3, _, h5, f1, f2, f3, f4, f5⟩ := rust_price_demo .debug toySha zeroSeed 4 (by decide) goodHeight4
  exact ⟨pk, sig, f1, f3, by rw [f2]; decide, by rw [f2]; exact f4, by rw [f2]; exact f5, h5⟩

end Qrl.Props
