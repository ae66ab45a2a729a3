import Verif.Props.Price
import Verif.Props.Leaves
import Verif.Props.Identity
import Verif.Props.Pool
import Verif.Spec.OneKey
/-!
# C78: a public key belongs to one wallet; C79: no chain value belongs to two one-time keys
-/

namespace Qrl.Props

open Outcome Qrl.Spec

/-- Equal roots of two trees with the same public seed: equal first leaves, or a collision. -/
theorem node_first {G : Bytes → Bytes} (hG : Out32 G) {w w' len len' : Nat} (h1 : 1 ≤ len) (h1' : 1 ≤ len') {sk sk' ps : Bytes} :
    ∀ h, h < 2 ^ 32 → node G w len sk ps h 0 = node G w' len' sk' ps h 0 →
      leaf G w len sk ps 0 = leaf G w' len' sk' ps 0 ∨
      Collides G (nodeCalls G w len sk ps h 0 ++ nodeCalls G w' len' sk' ps h 0)
  | 0, _, e => Or.inl e
  | h + 1, hh, e => by
    simp only [node, Nat.mul_zero] at e
    have e' := e
    rcases H_inj hG (by omega) (by omega) (by omega) (by omega) (by omega) (node_len hG w len sk ps h1 h 0)
      (node_len hG w len sk ps h1 h _) (node_len hG w' len' sk' ps h1' h 0) (node_len hG w' len' sk' ps h1' h _) e' with
        ⟨_, e2, _⟩ | hc
    · rcases node_first hG h1 h1' h (by omega) e2 with r | r
      · exact Or.inl r
      · refine Or.inr (r.mono ?_)
        intro z hz
        simp only [nodeCalls, Nat.mul_zero, List.mem_append] at hz ⊢
        tauto
    · refine Or.inr (hc.mono ?_)
      intro z hz
      simp only [nodeCalls, Nat.mul_zero, List.mem_append] at hz ⊢
      tauto

/-- Equal starts of two chains: same one-time key, chain and secret seed, or a collision. -/
theorem secret_inj {G : Bytes → Bytes} (hG : Out32 G) {sk sk' : Bytes} (hs : sk.length = 32) (hs' : sk'.length = 32)
    {i i' ch ch' : Nat} (hi : i < 2 ^ 32) (hi' : i' < 2 ^ 32) (hc : ch < 2 ^ 32) (hc' : ch' < 2 ^ 32)
    (h : wotsSecret G sk i ch = wotsSecret G sk' i' ch') :
    (sk = sk' ∧ i = i' ∧ ch = ch') ∨ Collides G (wotsSecretCalls G sk i ch ++ wotsSecretCalls G sk' i' ch') := by
  have split : ∀ {k k' m m' : Bytes}, k.length = 32 → k'.length = 32 → (HCall.prf k m).input = (HCall.prf k' m').input →
      k = k' ∧ m = m' := by
    intro k k' m m' hk hk' e
    simp only [HCall.input, List.append_assoc] at e
    exact List.append_inj (List.append_cancel_left e) (by omega)
  by_cases e : (HCall.prf (PRF G sk (address 0 i 0 0 0)) (be 32 ch)).input =
      (HCall.prf (PRF G sk' (address 0 i' 0 0 0)) (be 32 ch')).input
  · obtain ⟨e1, e2⟩ := split (hG _) (hG _) e
    have e2 := be_inj (by omega) (by omega) e2
    by_cases e3 : (HCall.prf sk (address 0 i 0 0 0)).input = (HCall.prf sk' (address 0 i' 0 0 0)).input
    · obtain ⟨e4, e5⟩ := split hs hs' e3
      obtain ⟨_, e6, _⟩ := address_inj ⟨by omega, hi, by omega, by omega, by omega⟩ ⟨by omega, hi', by omega, by omega, by omega⟩ e5
      exact Or.inl ⟨e4, e6, e2⟩
    · exact Or.inr ⟨_, by simp [wotsSecretCalls], _, by simp [wotsSecretCalls], e3, e1⟩
  · exact Or.inr ⟨_, by simp [wotsSecretCalls], _, by simp [wotsSecretCalls], e, h⟩

/-- Two honest trees of one height with the same public seed and root have the same `w` and secret seed, or there is a
collision. -/
theorem tree_binds {G : Bytes → Bytes} (hG : Out32 G) {w w' : Nat} (hw : w = 2 ∨ w = 4 ∨ w = 16 ∨ w = 256)
    (hw' : w' = 2 ∨ w' = 4 ∨ w' = 16 ∨ w' = 256) {h : Nat} (hh : h < 2 ^ 32) {sk sk' ps : Bytes} (hs : sk.length = 32)
    (hs' : sk'.length = 32) (e : node G w (lenW w) sk ps h 0 = node G w' (lenW w') sk' ps h 0) :
    (w = w' ∧ sk = sk') ∨
    Collides G (nodeCalls G w (lenW w) sk ps h 0 ++ nodeCalls G w' (lenW w') sk' ps h 0) := by
  rcases node_first hG (lenW_pos hw) (lenW_pos hw') h hh e with e | hc
  swap
  · exact Or.inr hc
  have hsub := nodeCalls_sub G w (lenW w) sk ps h 0 0
  have hsub' := nodeCalls_sub G w' (lenW w') sk' ps h 0 0
  rw [Nat.zero_add, Nat.zero_div] at hsub hsub'
  simp only [nodeCalls] at hsub hsub'
  have lift : ∀ {L}, L ⊆ leafCalls G w (lenW w) sk ps 0 ++ leafCalls G w' (lenW w') sk' ps 0 → Collides G L →
      Collides G (nodeCalls G w (lenW w) sk ps h 0 ++ nodeCalls G w' (lenW w') sk' ps h 0) := by
    intro L hL hc
    refine hc.mono (List.Subset.trans hL ?_)
    intro z hz
    rcases List.mem_append.mp hz with hz | hz
    · exact List.mem_append_left _ (hsub hz)
    · exact List.mem_append_right _ (hsub' hz)
  have hpkx : ∀ (w : Nat) (sk : Bytes), ∀ x ∈ wotsPk G w (lenW w) sk ps 0, x.length = 32 := by
    intro w sk x hx
    simp only [wotsPk, List.mem_map] at hx
    obtain ⟨ch, _, rfl⟩ := hx
    exact chain_len hG _ _ _ _ _ _ (hG _)
  -- the number of levels of the L-tree tells `w`
  have top : ∀ {w : Nat}, w = 2 ∨ w = 4 ∨ w = 16 ∨ w = 256 → ∀ sk, ∃ k a b, k < 2 ^ 32 ∧
      (w = 2 ∧ k = 8 ∨ w = 4 ∧ k = 7 ∨ w = 16 ∧ k = 6 ∨ w = 256 ∧ k = 5) ∧
      leaf G w (lenW w) sk ps 0 = H G ps 1 0 k 0 a b ∧ HCalls G ps 1 0 k 0 a b ⊆ leafCalls G w (lenW w) sk ps 0 := by
    intro w hw sk
    have hl := length_wotsPk G w (lenW w) sk ps 0
    have fin : ∀ k, 2 ^ k < lenW w → lenW w ≤ 2 ^ (k + 1) → ∃ a b, leaf G w (lenW w) sk ps 0 = H G ps 1 0 k 0 a b ∧
        HCalls G ps 1 0 k 0 a b ⊆ leafCalls G w (lenW w) sk ps 0 := by
      intro k h1 h2
      obtain ⟨a, b, e1, e2⟩ := ltree_top G ps 0 k 0 (wotsPk G w (lenW w) sk ps 0) (by omega) (by omega)
      rw [Nat.zero_add] at e1 e2
      exact ⟨a, b, e1, List.subset_append_of_subset_right _ e2⟩
    rcases hw with rfl | rfl | rfl | rfl
    · obtain ⟨a, b, h⟩ := fin 8 (by decide) (by decide); exact ⟨8, a, b, by omega, by omega, h⟩
    · obtain ⟨a, b, h⟩ := fin 7 (by decide) (by decide); exact ⟨7, a, b, by omega, by omega, h⟩
    · obtain ⟨a, b, h⟩ := fin 6 (by decide) (by decide); exact ⟨6, a, b, by omega, by omega, h⟩
    · obtain ⟨a, b, h⟩ := fin 5 (by decide) (by decide); exact ⟨5, a, b, by omega, by omega, h⟩
  obtain ⟨k, a, b, hk, hkw, t1, t2⟩ := top hw sk
  obtain ⟨k', a', b', hk', hkw', t1', t2'⟩ := top hw' sk'
  have e0 := e
  rw [t1, t1'] at e0
  rcases H_inj_all hG (by omega) (by omega) hk (by omega) (by omega) hk' (by omega) e0 with ⟨_, hkk, _⟩ | hc
  swap
  · refine Or.inr (lift ?_ hc)
    intro z hz
    rcases List.mem_append.mp hz with hz | hz
    · exact List.mem_append_left _ (t2 hz)
    · exact List.mem_append_right _ (t2' hz)
  have hww : w = w' := by omega
  subst hww
  have hlp := lenW_pos hw
  have hl300 : lenW w ≤ 300 := by rcases hw with rfl | rfl | rfl | rfl <;> decide
  rw [leaf, leaf] at e
  clear t1 t2 t1' t2' e0 top hkk
  have hx := hpkx w sk
  have hx' := hpkx w sk'
  have hl := length_wotsPk G w (lenW w) sk ps 0
  have hl' := length_wotsPk G w (lenW w) sk' ps 0
  have li := fun (l l' : List Bytes) (h1 : l.length = lenW w) (h2 : l'.length = lenW w) =>
    ltree_inj hG (seed := ps) (i := 0) (by omega) (lenW w) 0 l l' h1 h2 hlp (by omega)
  rcases li _ _ hl hl' hx hx' e with e | hc
  swap
  · refine Or.inr (lift ?_ hc)
    intro z hz
    rcases List.mem_append.mp hz with hz | hz
    · exact List.mem_append_left _ (List.mem_append_right _ hz)
    · exact List.mem_append_right _ (List.mem_append_right _ hz)
  have e1 : ∀ sk, (wotsPk G w (lenW w) sk ps 0)[0]? = some (chain G ps 0 0 0 (w - 1) (wotsSecret G sk 0 0)) := by
    intro sk
    have : 0 < lenW w := hlp
    simp [wotsPk, this]
  have e2 := e1 sk
  rw [e, e1 sk'] at e2
  have hmem : ∀ sk, wotsSecretCalls G sk 0 0 ++ chainCalls G ps 0 0 0 (w - 1) (wotsSecret G sk 0 0) ⊆
      leafCalls G w (lenW w) sk ps 0 := by
    intro sk z hz
    refine List.mem_append_left _ ?_
    simp only [wotsPkCalls, List.mem_flatMap, List.mem_range]
    exact ⟨0, hlp, hz⟩
  rcases chain_inj hG (w - 1) 0 _ _ (hG _) (hG _) (Option.some.inj e2).symm with e3 | hc
  swap
  · refine Or.inr (lift ?_ hc)
    intro z hz
    rcases List.mem_append.mp hz with hz | hz
    · exact List.mem_append_left _ (hmem sk (List.mem_append_right _ hz))
    · exact List.mem_append_right _ (hmem sk' (List.mem_append_right _ hz))
  rcases secret_inj hG hs hs' (by omega) (by omega) (by omega) (by omega) e3 with ⟨e4, _⟩ | hc
  · exact Or.inl ⟨rfl, e4⟩
  · refine Or.inr (lift ?_ hc)
    intro z hz
    rcases List.mem_append.mp hz with hz | hz
    · exact List.mem_append_left _ (hmem sk (List.mem_append_left _ hz))
    · exact List.mem_append_right _ (hmem sk' (List.mem_append_left _ hz))

/-- The fields of the public key of a new `XmssBasic`. -/
theorem basic_key {S : Sha256} {seed : Bytes} {height : UInt8} {hf : HashFn} {af w : Nat}
    (hw : w = 2 ∨ w = 4 ∨ w = 16 ∨ w = 256) {o0 : XmssBase}
    (hnew : XmssBasic.new S seed height hf.toNat af w = ok o0) {pk : Bytes} (hpk : o0.getPK = ok pk) :
    HashFn.ofNat? (keyHash pk) = some hf ∧ keySeed pk = (shake256 96 seed).drop 64 ∧ keyHeight pk = height.toNat ∧
    keyRoot pk = Spec.node (hf.prim S) w (lenW w) ((shake256 96 seed).take 32) ((shake256 96 seed).drop 64) height.toNat 0 := by
  obtain ⟨hs, hh, _⟩ := (C39_basic_succeeds S seed height hf.toNat af w hw).mp ⟨o0, hnew⟩
  obtain ⟨p, k, q, hp, h1, h2, e⟩ := basicNew_eq S seed height hf af w hw hs hh
  rw [e] at hnew
  cases hnew
  have hpk' := getPK_eq (keyOf S hf w height.toNat (lenW_pos hw) seed) _ 0
    (show XmssBase.sk (XmssBase.mk ⟨p, height.toNat⟩ hf.toNat af height ((keyOf S hf w height.toNat (lenW_pos hw) seed).sk 0) seed) = _ from rfl)
  have e := hpk
  rw [hpk'] at e
  cases e
  obtain ⟨f1, f2, f3, f4, f5⟩ := pk_fields (keyOf S hf w height.toNat (lenW_pos hw) seed)
    (XmssBase.mk ⟨p, height.toNat⟩ hf.toNat af height ((keyOf S hf w height.toNat (lenW_pos hw) seed).sk 0) seed) hf rfl hh
  exact ⟨by rw [f2, ofNat?_toNat], f5, f3, f4⟩

/-- The fields of the public key of a new `XmssFast`. -/
theorem fast_key {S : Sha256} {seed : Bytes} {height : UInt8} {hf : HashFn} {af : Nat} {o0 : XmssFast}
    (hnew : XmssFast.new S seed height hf.toNat af = ok o0) {pk : Bytes} (hpk : o0.getPK = ok pk) :
    HashFn.ofNat? (keyHash pk) = some hf ∧ keySeed pk = (shake256 96 seed).drop 64 ∧ keyHeight pk = height.toNat ∧
    keyRoot pk = Spec.node (hf.prim S) 16 (lenW 16) ((shake256 96 seed).take 32) ((shake256 96 seed).drop 64) height.toNat 0 := by
  obtain ⟨a1, a2, a3, a4, _⟩ := fast_published hnew hpk (cs := []) (by simp) (rs := []) (o := o0) rfl
  exact ⟨a1, a2, a3, a4⟩

/-- Two seeds with the same public key. -/
theorem key_binds {S : Sha256} {hf hf' : HashFn} {w w' : Nat} (hw : w = 2 ∨ w = 4 ∨ w = 16 ∨ w = 256)
    (hw' : w' = 2 ∨ w' = 4 ∨ w' = 16 ∨ w' = 256) {seed seed' : Bytes} {height height' : UInt8} {pk : Bytes}
    (h : HashFn.ofNat? (keyHash pk) = some hf ∧ keySeed pk = (shake256 96 seed).drop 64 ∧ keyHeight pk = height.toNat ∧
      keyRoot pk = Spec.node (hf.prim S) w (lenW w) ((shake256 96 seed).take 32) ((shake256 96 seed).drop 64) height.toNat 0)
    (h' : HashFn.ofNat? (keyHash pk) = some hf' ∧ keySeed pk = (shake256 96 seed').drop 64 ∧ keyHeight pk = height'.toNat ∧
      keyRoot pk = Spec.node (hf'.prim S) w' (lenW w') ((shake256 96 seed').take 32) ((shake256 96 seed').drop 64) height'.toNat 0) :
    hf = hf' ∧ height = height' ∧
    ((w = w' ∧ seed = seed') ∨
     (w = w' ∧ seed ≠ seed' ∧ (shake256 96 seed).take 32 = (shake256 96 seed').take 32 ∧
       (shake256 96 seed).drop 64 = (shake256 96 seed').drop 64) ∨
     Collides (hf.prim S)
      (nodeCalls (hf.prim S) w (lenW w) ((shake256 96 seed).take 32) ((shake256 96 seed).drop 64) height.toNat 0 ++
       nodeCalls (hf.prim S) w' (lenW w') ((shake256 96 seed').take 32) ((shake256 96 seed').drop 64) height.toNat 0)) := by
  obtain ⟨a1, a2, a3, a4⟩ := h
  obtain ⟨b1, b2, b3, b4⟩ := h'
  have e1 : hf = hf' := Option.some.inj (a1.symm.trans b1)
  have e2 : height = height' := UInt8.toNat_inj.mp (a3.symm.trans b3)
  subst e1
  subst e2
  refine ⟨rfl, rfl, ?_⟩
  have hps := a2.symm.trans b2
  have hb := height.toNat_lt
  have l32 : ∀ s : Bytes, ((shake256 96 s).take 32).length = 32 := fun s => by simp
  have hn := a4.symm.trans b4
  rw [← hps] at hn ⊢
  rcases tree_binds (out32 S hf) hw hw' (by omega) (l32 seed) (l32 seed') hn with ⟨e1, e2⟩ | hc
  · by_cases hs : seed = seed'
    · exact Or.inl ⟨e1, hs⟩
    · exact Or.inr (Or.inl ⟨e1, hs, e2, rfl⟩)
  · exact Or.inr (Or.inr hc)

/-- C78. **A public key belongs to one wallet.** Two `XmssFast` objects with the same public key were built with the same
hash function and height, and from the same seed; or the two seeds are different and agree in bytes 0-31 and 64-95 of their
SHAKE256 expansions; or the two key generations contain a hash collision. -/
theorem C78_fast_public_key (S : Sha256) (seed seed' : Bytes) (height height' : UInt8) (hf hf' : HashFn) (af af' : Nat)
    (o0 o0' : XmssFast) (hnew : XmssFast.new S seed height hf.toNat af = ok o0)
    (hnew' : XmssFast.new S seed' height' hf'.toNat af' = ok o0') (pk : Bytes) (hpk : o0.getPK = ok pk)
    (hpk' : o0'.getPK = ok pk) :
    hf = hf' ∧ height = height' ∧
    (seed = seed' ∨
     (seed ≠ seed' ∧ (shake256 96 seed).take 32 = (shake256 96 seed').take 32 ∧
       (shake256 96 seed).drop 64 = (shake256 96 seed').drop 64) ∨
     Collides (hf.prim S)
      (nodeCalls (hf.prim S) 16 (lenW 16) ((shake256 96 seed).take 32) ((shake256 96 seed).drop 64) height.toNat 0 ++
       nodeCalls (hf.prim S) 16 (lenW 16) ((shake256 96 seed').take 32) ((shake256 96 seed').drop 64) height.toNat 0)) := by
  obtain ⟨e1, e2, e3⟩ := key_binds (w := 16) (w' := 16) (by omega) (by omega) (fast_key hnew hpk) (fast_key hnew' hpk')
  exact ⟨e1, e2, e3.imp (·.2) (Or.imp (·.2) id)⟩

/-- C78. The same for two `XmssBasic` objects; the public key does not name `w`, but no two values of `w` share a public key
either. -/
theorem C78_basic_public_key (S : Sha256) (seed seed' : Bytes) (height height' : UInt8) (hf hf' : HashFn) (af af' w w' : Nat)
    (hw : w = 2 ∨ w = 4 ∨ w = 16 ∨ w = 256) (hw' : w' = 2 ∨ w' = 4 ∨ w' = 16 ∨ w' = 256)
    (o0 o0' : XmssBase) (hnew : XmssBasic.new S seed height hf.toNat af w = ok o0)
    (hnew' : XmssBasic.new S seed' height' hf'.toNat af' w' = ok o0') (pk : Bytes) (hpk : o0.getPK = ok pk)
    (hpk' : o0'.getPK = ok pk) :
    hf = hf' ∧ height = height' ∧
    ((w = w' ∧ seed = seed') ∨
     (w = w' ∧ seed ≠ seed' ∧ (shake256 96 seed).take 32 = (shake256 96 seed').take 32 ∧
       (shake256 96 seed).drop 64 = (shake256 96 seed').drop 64) ∨
     Collides (hf.prim S)
      (nodeCalls (hf.prim S) w (lenW w) ((shake256 96 seed).take 32) ((shake256 96 seed).drop 64) height.toNat 0 ++
       nodeCalls (hf.prim S) w' (lenW w') ((shake256 96 seed').take 32) ((shake256 96 seed').drop 64) height.toNat 0)) :=
  key_binds hw hw' (basic_key hw hnew hpk) (basic_key hw' hnew' hpk')

/-- C78. An `XmssFast` and an `XmssBasic` with the same public key: the `XmssBasic` has `w` = 16 and the same seed, or the two
exceptions. -/
theorem C78_fast_basic_public_key (S : Sha256) (seed seed' : Bytes) (height height' : UInt8) (hf hf' : HashFn) (af af' w' : Nat)
    (hw' : w' = 2 ∨ w' = 4 ∨ w' = 16 ∨ w' = 256)
    (o0 : XmssFast) (o0' : XmssBase) (hnew : XmssFast.new S seed height hf.toNat af = ok o0)
    (hnew' : XmssBasic.new S seed' height' hf'.toNat af' w' = ok o0') (pk : Bytes) (hpk : o0.getPK = ok pk)
    (hpk' : o0'.getPK = ok pk) :
    hf = hf' ∧ height = height' ∧
    ((16 = w' ∧ seed = seed') ∨
     (16 = w' ∧ seed ≠ seed' ∧ (shake256 96 seed).take 32 = (shake256 96 seed').take 32 ∧
       (shake256 96 seed).drop 64 = (shake256 96 seed').drop 64) ∨
     Collides (hf.prim S)
      (nodeCalls (hf.prim S) 16 (lenW 16) ((shake256 96 seed).take 32) ((shake256 96 seed).drop 64) height.toNat 0 ++
       nodeCalls (hf.prim S) w' (lenW w') ((shake256 96 seed').take 32) ((shake256 96 seed').drop 64) height.toNat 0)) :=
  key_binds (w := 16) (by omega) hw' (fast_key hnew hpk) (basic_key hw' hnew' hpk')

/-- C78. **An address belongs to one wallet**: the same for two `XmssFast` objects with the same address, with a SHA-256 collision
of the two public keys as one more exception. -/
theorem C78_fast_address (S : Sha256) (seed seed' : Bytes) (height height' : UInt8) (hf hf' : HashFn) (af af' : Nat)
    (o0 o0' : XmssFast) (hnew : XmssFast.new S seed height hf.toNat af = ok o0)
    (hnew' : XmssFast.new S seed' height' hf'.toNat af' = ok o0') (a : Bytes) (ha : o0.getAddress S = ok a)
    (ha' : o0'.getAddress S = ok a) :
    (∃ pk pk', o0.getPK = ok pk ∧ o0'.getPK = ok pk' ∧ pk ≠ pk' ∧ S.hash pk = S.hash pk') ∨
    (hf = hf' ∧ height = height' ∧
    (seed = seed' ∨
     (seed ≠ seed' ∧ (shake256 96 seed).take 32 = (shake256 96 seed').take 32 ∧
       (shake256 96 seed).drop 64 = (shake256 96 seed').drop 64) ∨
     Collides (hf.prim S)
      (nodeCalls (hf.prim S) 16 (lenW 16) ((shake256 96 seed).take 32) ((shake256 96 seed).drop 64) height.toNat 0 ++
       nodeCalls (hf.prim S) 16 (lenW 16) ((shake256 96 seed').take 32) ((shake256 96 seed').drop 64) height.toNat 0))) := by
  rw [XmssBase.getAddress, bind_eq_ok] at ha ha'
  obtain ⟨pk, hpk, h⟩ := ha
  obtain ⟨pk', hpk', h'⟩ := ha'
  rcases C63_address_binds S pk pk' a h h' with e | ⟨e1, e2⟩
  · subst e
    exact Or.inr (C78_fast_public_key S seed seed' height height' hf hf' af af' o0 o0' hnew hnew' pk hpk hpk')
  · exact Or.inl ⟨pk, pk', hpk, hpk', e1, e2⟩

/-- C78. The same for the addresses of two `XmssBasic` objects. -/
theorem C78_basic_address (S : Sha256) (seed seed' : Bytes) (height height' : UInt8) (hf hf' : HashFn) (af af' w w' : Nat)
    (hw : w = 2 ∨ w = 4 ∨ w = 16 ∨ w = 256) (hw' : w' = 2 ∨ w' = 4 ∨ w' = 16 ∨ w' = 256)
    (o0 o0' : XmssBase) (hnew : XmssBasic.new S seed height hf.toNat af w = ok o0)
    (hnew' : XmssBasic.new S seed' height' hf'.toNat af' w' = ok o0') (a : Bytes) (ha : o0.getAddress S = ok a)
    (ha' : o0'.getAddress S = ok a) :
    (∃ pk pk', o0.getPK = ok pk ∧ o0'.getPK = ok pk' ∧ pk ≠ pk' ∧ S.hash pk = S.hash pk') ∨
    (hf = hf' ∧ height = height' ∧
    ((w = w' ∧ seed = seed') ∨
     (w = w' ∧ seed ≠ seed' ∧ (shake256 96 seed).take 32 = (shake256 96 seed').take 32 ∧
       (shake256 96 seed).drop 64 = (shake256 96 seed').drop 64) ∨
     Collides (hf.prim S)
      (nodeCalls (hf.prim S) w (lenW w) ((shake256 96 seed).take 32) ((shake256 96 seed).drop 64) height.toNat 0 ++
       nodeCalls (hf.prim S) w' (lenW w') ((shake256 96 seed').take 32) ((shake256 96 seed').drop 64) height.toNat 0))) := by
  rw [XmssBase.getAddress, bind_eq_ok] at ha ha'
  obtain ⟨pk, hpk, h⟩ := ha
  obtain ⟨pk', hpk', h'⟩ := ha'
  rcases C63_address_binds S pk pk' a h h' with e | ⟨e1, e2⟩
  · subst e
    exact Or.inr (C78_basic_public_key S seed seed' height height' hf hf' af af' w w' hw hw' o0 o0' hnew hnew' pk hpk hpk')
  · exact Or.inl ⟨pk, pk', hpk, hpk', e1, e2⟩

/-- C78. The same for the addresses of an `XmssFast` and an `XmssBasic`. -/
theorem C78_fast_basic_address (S : Sha256) (seed seed' : Bytes) (height height' : UInt8) (hf hf' : HashFn) (af af' w' : Nat)
    (hw' : w' = 2 ∨ w' = 4 ∨ w' = 16 ∨ w' = 256)
    (o0 : XmssFast) (o0' : XmssBase) (hnew : XmssFast.new S seed height hf.toNat af = ok o0)
    (hnew' : XmssBasic.new S seed' height' hf'.toNat af' w' = ok o0') (a : Bytes) (ha : o0.getAddress S = ok a)
    (ha' : o0'.getAddress S = ok a) :
    (∃ pk pk', o0.getPK = ok pk ∧ o0'.getPK = ok pk' ∧ pk ≠ pk' ∧ S.hash pk = S.hash pk') ∨
    (hf = hf' ∧ height = height' ∧
    ((16 = w' ∧ seed = seed') ∨
     (16 = w' ∧ seed ≠ seed' ∧ (shake256 96 seed).take 32 = (shake256 96 seed').take 32 ∧
       (shake256 96 seed).drop 64 = (shake256 96 seed').drop 64) ∨
     Collides (hf.prim S)
      (nodeCalls (hf.prim S) 16 (lenW 16) ((shake256 96 seed).take 32) ((shake256 96 seed).drop 64) height.toNat 0 ++
       nodeCalls (hf.prim S) w' (lenW w') ((shake256 96 seed').take 32) ((shake256 96 seed').drop 64) height.toNat 0))) := by
  rw [XmssBase.getAddress, bind_eq_ok] at ha ha'
  obtain ⟨pk, hpk, h⟩ := ha
  obtain ⟨pk', hpk', h'⟩ := ha'
  rcases C63_address_binds S pk pk' a h h' with e | ⟨e1, e2⟩
  · subst e
    exact Or.inr (C78_fast_basic_public_key S seed seed' height height' hf hf' af af' w' hw' o0 o0' hnew hnew' pk hpk hpk')
  · exact Or.inl ⟨pk, pk', hpk, hpk', e1, e2⟩

/-- With a hash of the length only, `XmssBasic` objects with different `w` share a public key: the announced collision. -/
theorem one_key_demo (S : Sha256) (hS : ∀ b, S.hash b = List.replicate 31 7 ++ [UInt8.ofNat b.length]) (seed : Bytes)
    (height : UInt8) (hs : seed.length = 48) (hh : GoodHeight height) (af : Nat) :
    ∃ o o' pk, XmssBasic.new S seed height (HashFn.toNat .sha2_256) af 4 = ok o ∧
      XmssBasic.new S seed height (HashFn.toNat .sha2_256) af 16 = ok o' ∧ o.getPK = ok pk ∧ o'.getPK = ok pk := by
  obtain ⟨p, k, q, hp, h1, h2, e⟩ := basicNew_eq S seed height .sha2_256 af 4 (by omega) hs hh
  obtain ⟨p', k', q', hp', h1', h2', e'⟩ := basicNew_eq S seed height .sha2_256 af 16 (by omega) hs hh
  refine ⟨_, _, _, e, e', getPK_eq (keyOf S .sha2_256 4 height.toNat (lenW_pos (by omega)) seed) _ 0 rfl, ?_⟩
  rw [getPK_eq (keyOf S .sha2_256 16 height.toNat (lenW_pos (by omega)) seed) _ 0 rfl]
  have hn : ∀ (w : Nat) (hw : w = 2 ∨ w = 4 ∨ w = 16 ∨ w = 256),
      (keyOf S .sha2_256 w height.toNat (lenW_pos hw) seed).root = List.replicate 31 7 ++ [128] := by
    intro w hw
    show node (HashFn.prim S .sha2_256) w (lenW w) _ _ height.toNat 0 = _
    have hG := out32 S .sha2_256
    have hl := lenW_pos hw
    cases hk : height.toNat with
    | zero => have := hh.1; omega
    | succ n =>
      have hlen : (be 32 1 ++ PRF (HashFn.prim S .sha2_256) ((shake256 96 seed).drop 64) (address 2 0 n 0 0) ++
          Spec.xor (node (HashFn.prim S .sha2_256) w (lenW w) ((shake256 96 seed).take 32) ((shake256 96 seed).drop 64) n (2 * 0) ++
            node (HashFn.prim S .sha2_256) w (lenW w) ((shake256 96 seed).take 32) ((shake256 96 seed).drop 64) n (2 * 0 + 1))
          (PRF (HashFn.prim S .sha2_256) ((shake256 96 seed).drop 64) (address 2 0 n 0 1) ++
            PRF (HashFn.prim S .sha2_256) ((shake256 96 seed).drop 64) (address 2 0 n 0 2))).length = 128 := by
        simp only [Spec.xor, List.length_append, length_be, List.length_zipWith, PRF_len hG, node_len hG _ _ _ _ hl]
        omega
      refine (hS _).trans ?_
      rw [hlen]
      rfl
  rw [hn 4 (by omega), hn 16 (by omega)]
  rfl

/-- The hypotheses of C78 are met non-trivially. -/
example : ∃ o o' pk, XmssBasic.new toySha zeroSeed 4 0 0 4 = ok o ∧ XmssBasic.new toySha zeroSeed 4 0 0 16 = ok o' ∧
    o.getPK = ok pk ∧ o'.getPK = ok pk :=
  one_key_demo toySha (fun _ => rfl) zeroSeed 4 rfl goodHeight4 0

/-- Such objects (height 4, address format 0) have one address too. -/
theorem one_address_demo (S : Sha256) (hS : ∀ b, S.hash b = List.replicate 31 7 ++ [UInt8.ofNat b.length]) (seed : Bytes)
    (hs : seed.length = 48) :
    ∃ o o' a, XmssBasic.new S seed 4 (HashFn.toNat .sha2_256) 0 4 = ok o ∧
      XmssBasic.new S seed 4 (HashFn.toNat .sha2_256) 0 16 = ok o' ∧ o.getAddress S = ok a ∧ o'.getAddress S = ok a := by
  obtain ⟨o, o', pk, h, h', e, e'⟩ := one_key_demo S hS seed 4 hs goodHeight4 0
  obtain ⟨p, k, q, hp, h1, h2, e2⟩ := basicNew_eq S seed 4 .sha2_256 0 4 (by omega) hs goodHeight4
  have hpk := getPK_eq (keyOf S .sha2_256 4 (UInt8.toNat 4) (lenW_pos (by omega)) seed) _ 0 (show o.sk = _ by rw [h] at e2; cases e2; rfl)
  have hd : o.getDescriptorBytes = [0, 2, 0] := by
    rw [h] at e2; cases e2
    rw [XmssBase.getDescriptorBytes, getBytes_eq, XmssBase.getDescriptor, descriptorBytes]
    simp only
    decide
  have hl := (pk_fields (keyOf S .sha2_256 4 (UInt8.toNat 4) (lenW_pos (by omega)) seed) o .sha2_256
    (by rw [h] at e2; cases e2; rfl) (by rw [h] at e2; cases e2; exact goodHeight4)).1
  rw [e] at hpk
  cases hpk
  obtain ⟨a, ha⟩ := ((C10_address_throws S _).1).mpr ⟨hl, 2, by rw [hd]; rfl, rfl⟩
  exact ⟨o, o', a, h, h', by rw [XmssBase.getAddress, e, ok_bind, ha], by rw [XmssBase.getAddress, e', ok_bind, ha]⟩

example := one_address_demo toySha (fun _ => rfl) zeroSeed rfl

/-- Equal values of F, at any addresses and with any public seeds. -/
theorem F_inj_all {G : Bytes → Bytes} (hG : Out32 G) {ps ps' : Bytes} (hs : ps.length = 32) (hs' : ps'.length = 32)
    {a b c a' b' c' : Nat} (ha : a < 2 ^ 32) (hb : b < 2 ^ 32) (hc : c < 2 ^ 32) (ha' : a' < 2 ^ 32) (hb' : b' < 2 ^ 32)
    (hc' : c' < 2 ^ 32) {x x' : Bytes} (h : F G ps 0 a b c x = F G ps' 0 a' b' c' x') :
    (ps = ps' ∧ a = a' ∧ b = b' ∧ c = c') ∨ Collides G (FCalls G ps 0 a b c x ++ FCalls G ps' 0 a' b' c' x') := by
  by_cases e : (HCall.f (PRF G ps (address 0 a b c 0)) (Spec.xor x (PRF G ps (address 0 a b c 1)))).input =
      (HCall.f (PRF G ps' (address 0 a' b' c' 0)) (Spec.xor x' (PRF G ps' (address 0 a' b' c' 1)))).input
  · simp only [HCall.input, List.append_assoc] at e
    have e := List.append_cancel_left e
    obtain ⟨e1, _⟩ := List.append_inj e (by rw [PRF_len hG, PRF_len hG])
    by_cases e2 : (HCall.prf ps (address 0 a b c 0)).input = (HCall.prf ps' (address 0 a' b' c' 0)).input
    · simp only [HCall.input, List.append_assoc] at e2
      obtain ⟨e3, e4⟩ := List.append_inj (List.append_cancel_left e2) (by omega)
      obtain ⟨_, e5, e6, e7, _⟩ := address_inj ⟨by omega, ha, hb, hc, by omega⟩ ⟨by omega, ha', hb', hc', by omega⟩ e4
      exact Or.inl ⟨e3, e5, e6, e7⟩
    · exact Or.inr ⟨_, by simp [FCalls], _, by simp [FCalls], e2, e1⟩
  · exact Or.inr ⟨_, by simp [FCalls], _, by simp [FCalls], e, h⟩

/-- The last step of a chain. -/
theorem chainValue_succ (G : Bytes → Bytes) (sk ps : Bytes) (i ch d : Nat) :
    chainValue G sk ps i ch (d + 1) = F G ps 0 i ch d (chainValue G sk ps i ch d) ∧
    FCalls G ps 0 i ch d (chainValue G sk ps i ch d) ⊆ chainValueCalls G sk ps i ch (d + 1) := by
  have h1 := chain_add G ps i ch d 1 0 (wotsSecret G sk i ch)
  have h2 := chainCalls_add G ps i ch d 1 0 (wotsSecret G sk i ch)
  rw [Nat.zero_add] at h1 h2
  constructor
  · rw [chainValue, ← h1]; rfl
  · rw [chainValueCalls, h2]
    intro z hz
    refine List.mem_append_right _ (List.mem_append_right _ ?_)
    simp only [chainCalls, List.append_nil]
    exact hz

/-- C79. **A chain value belongs to one chain.** The value of chain `ch` of one-time key `i` at position `d` of a wallet and that
of chain `ch'` of one-time key `i'` at position `d'` of a wallet (the same or another one) with the same hash function are
different unless index, chain and position are the same and (at position 0) the secret seeds or (beyond) the public seeds of
the two wallets are; or two different strings among the listed calls have the same hash. -/
theorem C79_chain_values {G : Bytes → Bytes} (hG : Out32 G) {sk sk' ps ps' : Bytes} (hs : sk.length = 32) (hs' : sk'.length = 32)
    (hp : ps.length = 32) (hp' : ps'.length = 32) {i i' ch ch' d d' : Nat} (hi : i < 2 ^ 32) (hi' : i' < 2 ^ 32)
    (hc : ch < 2 ^ 32) (hc' : ch' < 2 ^ 32) (hd : d < 2 ^ 32) (hd' : d' < 2 ^ 32)
    (h : chainValue G sk ps i ch d = chainValue G sk' ps' i' ch' d') :
    (i = i' ∧ ch = ch' ∧ d = d' ∧ (if d = 0 then sk = sk' else ps = ps')) ∨
    Collides G (chainValueCalls G sk ps i ch d ++ chainValueCalls G sk' ps' i' ch' d') := by
  have mixed : ∀ {sk ps sk' ps' : Bytes} {i ch i' ch' d' : Nat},
      wotsSecret G sk i ch = F G ps' 0 i' ch' d' (chainValue G sk' ps' i' ch' d') →
      Collides G (wotsSecretCalls G sk i ch ++ FCalls G ps' 0 i' ch' d' (chainValue G sk' ps' i' ch' d')) := by
    intro sk ps sk' ps' i ch i' ch' d' h
    refine ⟨.prf (PRF G sk (address 0 i 0 0 0)) (be 32 ch), by simp [wotsSecretCalls],
      .f (PRF G ps' (address 0 i' ch' d' 0)) (Spec.xor (chainValue G sk' ps' i' ch' d') (PRF G ps' (address 0 i' ch' d' 1))),
      by simp [FCalls], ?_, h⟩
    intro e
    simp only [HCall.input, List.append_assoc] at e
    have := be_inj (by omega) (by omega) (List.append_inj e (by rw [length_be, length_be])).1
    omega
  cases d with
  | zero =>
    cases d' with
    | zero =>
      rcases secret_inj hG hs hs' hi hi' hc hc' h with ⟨e1, e2, e3⟩ | hcol
      · exact Or.inl ⟨e2, e3, rfl, by rw [if_pos rfl]; exact e1⟩
      · exact Or.inr (hcol.mono (by intro z hz; simpa [chainValueCalls, chainCalls] using hz))
    | succ d' =>
      obtain ⟨v, c⟩ := chainValue_succ G sk' ps' i' ch' d'
      rw [v] at h
      refine Or.inr ((mixed (ps := ps) h).mono ?_)
      intro z hz
      rcases List.mem_append.mp hz with hz | hz
      · exact List.mem_append_left _ (List.mem_append_left _ hz)
      · exact List.mem_append_right _ (c hz)
  | succ d =>
    obtain ⟨v, c⟩ := chainValue_succ G sk ps i ch d
    cases d' with
    | zero =>
      rw [v] at h
      refine Or.inr ((mixed (ps := ps') h.symm).mono ?_)
      intro z hz
      rcases List.mem_append.mp hz with hz | hz
      · exact List.mem_append_right _ (List.mem_append_left _ hz)
      · exact List.mem_append_left _ (c hz)
    | succ d' =>
      obtain ⟨v', c'⟩ := chainValue_succ G sk' ps' i' ch' d'
      rw [v, v'] at h
      rcases F_inj_all hG hp hp' hi hc (by omega) hi' hc' (by omega) h with ⟨e1, e2, e3, e4⟩ | hcol
      · exact Or.inl ⟨e2, e3, by omega, by rw [if_neg (by omega)]; exact e1⟩
      · refine Or.inr (hcol.mono ?_)
        intro z hz
        rcases List.mem_append.mp hz with hz | hz
        · exact List.mem_append_left _ (c hz)
        · exact List.mem_append_right _ (c' hz)

/-- What a signature holds in chain `ch`. -/
theorem signed_chain {S : Sha256} {seed : Bytes} {h : Nat} {hf : HashFn} {w : Nat} (hw : w = 2 ∨ w = 4 ∨ w = 16 ∨ w = 256)
    {i : Nat} (hi : i < 2 ^ 32) (m root : Bytes)
    (hroot : root = Spec.node (hf.prim S) w (lenW w) ((shake256 96 seed).take 32) ((shake256 96 seed).drop 64) h 0)
    {ch : Nat} (hch : ch < lenW w) :
    ∃ d, (positionsUnder (hf.prim S) w root m (seedSignature S hf w h seed i m))[ch]? = some d ∧ d < w ∧
      sigChain (seedSignature S hf w h seed i m) ch =
        chainValue (hf.prim S) ((shake256 96 seed).take 32) ((shake256 96 seed).drop 64) i ch d := by
  obtain ⟨p, k, q, hp, hsp, _⟩ := base_ok hw
  obtain ⟨r, ds, e1, e2, e3, e4, e5⟩ := signature_parts S hf hsp h ((shake256 96 seed).take 32)
    (((shake256 96 seed).drop 32).take 32) ((shake256 96 seed).drop 64) i hi m
  obtain ⟨a1, a2, a3⟩ := e5 (seedSignature S hf w h seed i m) rfl
  have hc : ch < ds.length := by omega
  refine ⟨ds[ch], ?_, e4 _ (List.getElem_mem hc), a3 ch hc⟩
  rw [positionsUnder, a1, a2, hroot, ← e2]
  exact List.getElem?_eq_getElem hc

/-- C79. Two signatures that any signers (of either class, any `w`, height and index) with the same hash function return share no
chain value: if the values in chain `ch` of one and chain `ch'` of the other are equal, then it is the same index, chain and
position, and the same seed; or the two seeds are different and agree in the first or in the last 32 of their 96 expanded
bytes; or there is a collision among the calls that lead to the two values. -/
theorem C79_signatures (S : Sha256) (hf : HashFn) (w w' : Nat) (hw : w = 2 ∨ w = 4 ∨ w = 16 ∨ w = 256)
    (hw' : w' = 2 ∨ w' = 4 ∨ w' = 16 ∨ w' = 256) (seed seed' : Bytes) (h h' i i' : Nat) (hi : i < 2 ^ 32) (hi' : i' < 2 ^ 32)
    (m m' root root' : Bytes)
    (hroot : root = Spec.node (hf.prim S) w (lenW w) ((shake256 96 seed).take 32) ((shake256 96 seed).drop 64) h 0)
    (hroot' : root' = Spec.node (hf.prim S) w' (lenW w') ((shake256 96 seed').take 32) ((shake256 96 seed').drop 64) h' 0)
    (ch ch' : Nat) (hch : ch < lenW w) (hch' : ch' < lenW w')
    (heq : sigChain (seedSignature S hf w h seed i m) ch = sigChain (seedSignature S hf w' h' seed' i' m') ch') :
    ∃ d d', (positionsUnder (hf.prim S) w root m (seedSignature S hf w h seed i m))[ch]? = some d ∧
      (positionsUnder (hf.prim S) w' root' m' (seedSignature S hf w' h' seed' i' m'))[ch']? = some d' ∧
      ((i = i' ∧ ch = ch' ∧ d = d' ∧ seed = seed') ∨
       (seed ≠ seed' ∧ ((shake256 96 seed).take 32 = (shake256 96 seed').take 32 ∨
         (shake256 96 seed).drop 64 = (shake256 96 seed').drop 64)) ∨
       Collides (hf.prim S)
        (chainValueCalls (hf.prim S) ((shake256 96 seed).take 32) ((shake256 96 seed).drop 64) i ch d ++
         chainValueCalls (hf.prim S) ((shake256 96 seed').take 32) ((shake256 96 seed').drop 64) i' ch' d')) := by
  obtain ⟨d, a1, a2, a3⟩ := signed_chain (S := S) (seed := seed) (h := h) (hf := hf) hw hi m root hroot hch
  obtain ⟨d', b1, b2, b3⟩ := signed_chain (S := S) (seed := seed') (h := h') (hf := hf) hw' hi' m' root' hroot' hch'
  rw [a3, b3] at heq
  refine ⟨d, d', a1, b1, ?_⟩
  have l32 : ∀ s : Bytes, ((shake256 96 s).take 32).length = 32 := fun s => by simp
  have l32' : ∀ s : Bytes, ((shake256 96 s).drop 64).length = 32 := fun s => by simp
  have hl : ∀ {w}, w = 2 ∨ w = 4 ∨ w = 16 ∨ w = 256 → lenW w ≤ 300 := by
    intro w hw; rcases hw with rfl | rfl | rfl | rfl <;> decide
  have h3 := hl hw
  have h3' := hl hw'
  rcases C79_chain_values (out32 S hf) (l32 seed) (l32 seed') (l32' seed) (l32' seed') hi hi' (by omega) (by omega)
    (by omega) (by omega) heq with ⟨e1, e2, e3, e4⟩ | hc
  · by_cases hs : seed = seed'
    · exact Or.inl ⟨e1, e2, e3, hs⟩
    · right; left
      refine ⟨hs, ?_⟩
      by_cases h0 : d = 0
      · rw [if_pos h0] at e4; exact Or.inl e4
      · rw [if_neg h0] at e4; exact Or.inr e4
  · exact Or.inr (Or.inr hc)

theorem signedPairs_snd (limit : Nat) (σ : Nat → Bytes → Bytes) (cs : List Call) : ∀ i,
    (signedPairs cs (counterRun limit σ i cs).1).map (·.2) = signatures (counterRun limit σ i cs).1 := by
  induction cs with
  | nil => intro i; rfl
  | cons c cs ih =>
    intro i
    simp only [signedPairs] at ih
    simp only [counterRun, signedPairs, List.zip_cons_cons, List.filterMap_cons]
    cases c with
    | setIndex n =>
      simp only [counterCall]
      split
      · exact ih _
      · exact ih _
    | sign m =>
      simp only [counterCall]
      by_cases hl : i < limit
      · simp only [hl, if_true, List.map_cons]
        rw [ih, signatures]
      · simp only [hl, if_false]
        exact ih _

/-- C79. Two signatures returned by two `XmssFast` signers, or by one, over any histories. -/
theorem C79_fast_signatures (S : Sha256) (seed seed' : Bytes) (height height' : UInt8) (hf : HashFn) (af af' : Nat)
    (o0 o0' : XmssFast) (hnew : XmssFast.new S seed height hf.toNat af = ok o0)
    (hnew' : XmssFast.new S seed' height' hf.toNat af' = ok o0') (cs cs' : List Call) (rs rs' : List Reply) (o o' : XmssFast)
    (hrun : runCalls (XmssFast.call S) o0 cs = some (rs, o)) (hrun' : runCalls (XmssFast.call S) o0' cs' = some (rs', o'))
    (x x' : Bytes × Bytes) (hx : x ∈ signedPairs cs rs) (hx' : x' ∈ signedPairs cs' rs') (ch ch' : Nat) (hch : ch < 67)
    (hch' : ch' < 67) (heq : sigChain x.2 ch = sigChain x'.2 ch') :
    (sigIndex x.2 = sigIndex x'.2 ∧ ch = ch' ∧ seed = seed') ∨
    (seed ≠ seed' ∧ ((shake256 96 seed).take 32 = (shake256 96 seed').take 32 ∨
      (shake256 96 seed).drop 64 = (shake256 96 seed').drop 64)) ∨
    ∃ d d', d < 16 ∧ d' < 16 ∧ Collides (hf.prim S)
      (chainValueCalls (hf.prim S) ((shake256 96 seed).take 32) ((shake256 96 seed).drop 64) (sigIndex x.2) ch d ++
       chainValueCalls (hf.prim S) ((shake256 96 seed').take 32) ((shake256 96 seed').drop 64) (sigIndex x'.2) ch' d') := by
  have h67 : lenW 16 = 67 := by decide
  have key : ∀ {seed : Bytes} {height : UInt8} {af : Nat} {o0 o : XmssFast} {cs : List Call} {rs : List Reply}
      {x : Bytes × Bytes}, XmssFast.new S seed height hf.toNat af = ok o0 → runCalls (XmssFast.call S) o0 cs = some (rs, o) →
      x ∈ signedPairs cs rs → ∃ i, i < 2 ^ 32 ∧ x.2 = seedSignature S hf 16 height.toNat seed i x.1 ∧ sigIndex x.2 = i := by
    intro seed height af o0 o cs rs x hnew hrun hx
    obtain ⟨o', e, _⟩ := C19_fast_refines_counter S seed height hf af o0 hnew cs
    rw [hrun] at e
    cases e
    obtain ⟨i, hi, hxi⟩ := counterRun_pairs _ _ cs 0 x hx
    have hg := (fast_fresh hnew).2.1
    have h30 : 2 ^ height.toNat ≤ 2 ^ 30 := Nat.pow_le_pow_right (by omega) hg.2.1
    refine ⟨i, by omega, hxi, ?_⟩
    rw [hxi]
    exact sigIndex_signature S hf 16 _ _ _ _ i x.1 (by omega)
  obtain ⟨i, a1, a2, a3⟩ := key hnew hrun hx
  obtain ⟨i', b1, b2, b3⟩ := key hnew' hrun' hx'
  rw [a3, b3]
  rw [a2, b2] at heq
  obtain ⟨d, d', p1, p2, r⟩ := C79_signatures S hf 16 16 (by omega) (by omega) seed seed' height.toNat height'.toNat i i' a1 b1
    x.1 x'.1 _ _ rfl rfl ch ch' (by omega) (by omega) heq
  rcases r with ⟨e1, e2, _, e4⟩ | r | r
  · exact Or.inl ⟨e1, e2, e4⟩
  · exact Or.inr (Or.inl r)
  · have bound : ∀ {seed : Bytes} {h i : Nat} {m root : Bytes} {ch d : Nat}, i < 2 ^ 32 → ch < 67 →
        (positionsUnder (hf.prim S) 16 (Spec.node (hf.prim S) 16 (lenW 16) ((shake256 96 seed).take 32)
          ((shake256 96 seed).drop 64) h 0) m (seedSignature S hf 16 h seed i m))[ch]? = some d → d < 16 := by
      intro seed h i m root ch d hi hch hd
      obtain ⟨e, g1, g2, _⟩ := signed_chain (S := S) (seed := seed) (h := h) (hf := hf) (w := 16) (by omega) hi m _ rfl
        (ch := ch) (by omega)
      rw [hd] at g1
      cases g1
      exact g2
    exact Or.inr (Or.inr ⟨d, d', bound (root := []) a1 hch p1, bound (root := []) b1 hch' p2, r⟩)

/-- C79. Within one `XmssFast`: two different signatures it returns, or two different chains of one, never hold the same chain
value, unless there is a collision among the calls that lead to the two values. -/
theorem C79_one_signer (S : Sha256) (seed : Bytes) (height : UInt8) (hf : HashFn) (af : Nat) (o0 : XmssFast)
    (hnew : XmssFast.new S seed height hf.toNat af = ok o0) (cs : List Call) (rs : List Reply) (o : XmssFast)
    (hrun : runCalls (XmssFast.call S) o0 cs = some (rs, o))
    (x x' : Bytes × Bytes) (hx : x ∈ signedPairs cs rs) (hx' : x' ∈ signedPairs cs rs) (ch ch' : Nat) (hch : ch < 67)
    (hch' : ch' < 67) (hne : (x, ch) ≠ (x', ch')) (heq : sigChain x.2 ch = sigChain x'.2 ch') :
    ∃ d d', d < 16 ∧ d' < 16 ∧ Collides (hf.prim S)
      (chainValueCalls (hf.prim S) ((shake256 96 seed).take 32) ((shake256 96 seed).drop 64) (sigIndex x.2) ch d ++
       chainValueCalls (hf.prim S) ((shake256 96 seed).take 32) ((shake256 96 seed).drop 64) (sigIndex x'.2) ch' d') := by
  rcases C79_fast_signatures S seed seed height height hf af af o0 o0 hnew hnew cs cs rs rs o o hrun hrun x x' hx hx' ch ch'
    hch hch' heq with ⟨e1, e2, _⟩ | ⟨e1, _⟩ | r
  · exfalso
    have hn := (C16_fast_no_reuse S seed height hf.toNat af o0 hnew cs rs o hrun).1
    obtain ⟨o', e, _⟩ := C19_fast_refines_counter S seed height hf af o0 hnew cs
    rw [hrun] at e
    cases e
    rw [← signedPairs_snd, List.map_map] at hn
    have hnd := hn.imp (fun {a b} (h : a < b) => Nat.ne_of_lt h)
    exact hne (by rw [List.inj_on_of_nodup_map hnd hx hx' e1, e2])
  · exact absurd rfl e1
  · exact r

/-- C79. Two trees of one pool: their signatures share no chain value, unless a collision is exhibited: of SHAKE256 on the two tree
seed inputs, of the first or last 32 expanded bytes of the two tree seeds, or among the calls that lead to the values. -/
theorem C79_pool (cfg : PoolCfg) (n n' : Nat) (hn : n < 2 ^ 64) (hn' : n' < 2 ^ 64) (hne : n ≠ n')
    (o0 o0' : XmssFast) (hnew : prepareTree cfg n = ok o0) (hnew' : prepareTree cfg n' = ok o0')
    (cs cs' : List Call) (rs rs' : List Reply) (o o' : XmssFast)
    (hrun : runCalls (XmssFast.call cfg.S) o0 cs = some (rs, o)) (hrun' : runCalls (XmssFast.call cfg.S) o0' cs' = some (rs', o'))
    (x x' : Bytes × Bytes) (hx : x ∈ signedPairs cs rs) (hx' : x' ∈ signedPairs cs' rs') (ch ch' : Nat) (hch : ch < 67)
    (hch' : ch' < 67) :
    sigChain x.2 ch ≠ sigChain x'.2 ch' ∨
    (treeSeedInput cfg.baseSeed n ≠ treeSeedInput cfg.baseSeed n' ∧
      shake256 48 (treeSeedInput cfg.baseSeed n) = shake256 48 (treeSeedInput cfg.baseSeed n')) ∨
    (o0.seed ≠ o0'.seed ∧ ((shake256 96 o0.seed).take 32 = (shake256 96 o0'.seed).take 32 ∨
      (shake256 96 o0.seed).drop 64 = (shake256 96 o0'.seed).drop 64)) ∨
    ∃ d d', d < 16 ∧ d' < 16 ∧ Collides (HashFn.prim cfg.S .shake_128)
      (chainValueCalls (HashFn.prim cfg.S .shake_128) ((shake256 96 o0.seed).take 32) ((shake256 96 o0.seed).drop 64)
         (sigIndex x.2) ch d ++
       chainValueCalls (HashFn.prim cfg.S .shake_128) ((shake256 96 o0'.seed).take 32) ((shake256 96 o0'.seed).drop 64)
         (sigIndex x'.2) ch' d') := by
  by_cases heq : sigChain x.2 ch = sigChain x'.2 ch'
  swap
  · exact Or.inl heq
  right
  have e : o0.seed = shake256 48 (treeSeedInput cfg.baseSeed n) := by
    obtain ⟨_, _, _, _, _, _, _, _, e4, _⟩ := fast_fresh hnew; exact e4
  have e' : o0'.seed = shake256 48 (treeSeedInput cfg.baseSeed n') := by
    obtain ⟨_, _, _, _, _, _, _, _, e4, _⟩ := fast_fresh hnew'; exact e4
  rw [e, e']
  rcases C79_fast_signatures cfg.S _ _ cfg.height cfg.height .shake_128 _ _ o0 o0' hnew hnew' cs cs' rs rs' o o' hrun hrun' x x'
    hx hx' ch ch' hch hch' heq with ⟨_, _, e3⟩ | r | r
  · exact Or.inl ⟨C30_pool_inputs cfg.baseSeed n n' hn hn' hne, e3⟩
  · exact Or.inr (Or.inl r)
  · exact Or.inr (Or.inr r)

/-- The hypotheses of `C79_pool` are met: trees 0 and 1 of a pool sign. -/
example : ∃ o0 o0' s s' o o', prepareTree ⟨toySha, zeroSeed, 4, 0, 2⟩ 0 = ok o0 ∧ prepareTree ⟨toySha, zeroSeed, 4, 0, 2⟩ 1 = ok o0' ∧
    runCalls (XmssFast.call toySha) o0 [.sign [1]] = some ([.sig s], o) ∧
    runCalls (XmssFast.call toySha) o0' [.setIndex 3, .sign [2]] = some ([.index 3, .sig s'], o') ∧
    ([1], s) ∈ signedPairs [.sign [1]] [.sig s] ∧ ([2], s') ∈ signedPairs [.setIndex 3, .sign [2]] [.index 3, .sig s'] := by
  have mk : ∀ n, ∃ o, XmssFast.new toySha (shake256 48 (treeSeedInput zeroSeed n)) 4 (HashFn.toNat .shake_128) addrFormatSHA256_2X = ok o :=
    fun n => (C39_fast_succeeds toySha _ 4 (HashFn.toNat .shake_128) _).mpr ⟨by simp, goodHeight4, by decide⟩
  obtain ⟨o0, h⟩ := mk 0
  obtain ⟨o0', h'⟩ := mk 1
  obtain ⟨o, e, _⟩ := C19_fast_refines_counter toySha _ 4 .shake_128 _ o0 h [.sign [1]]
  obtain ⟨o', e', _⟩ := C19_fast_refines_counter toySha _ 4 .shake_128 _ o0' h' [.setIndex 3, .sign [2]]
  have hl : 2 ^ UInt8.toNat 4 = 16 := by decide
  have h3 : UInt32.toNat 3 = 3 := by decide
  simp only [hl, counterRun, counterCall, h3, show 0 < 16 by omega, show 3 < 16 by omega, if_true] at e e'
  exact ⟨o0, o0', _, _, o, o', h, h', e, e', by simp [signedPairs], by simp [signedPairs]⟩

/-- With a hash of the length only, chains 1 and 3 of the signatures of 5 and of 6 zero bytes hold the same value (chain position 7):
the hypotheses of C79 are met, with the announced collision. -/
theorem chain_values_demo (S : Sha256) (hS : ∀ b, S.hash b = List.replicate 31 7 ++ [UInt8.ofNat b.length]) (seed : Bytes)
    (height : UInt8) (af : Nat) (o0 : XmssFast) (hnew : XmssFast.new S seed height (HashFn.toNat .sha2_256) af = ok o0) :
    ∃ s1 s2 o, runCalls (XmssFast.call S) o0 [.sign (List.replicate 5 0), .sign (List.replicate 6 0)] =
        some ([.sig s1, .sig s2], o) ∧ sigChain s1 1 = sigChain s2 3 ∧
      ((List.replicate 5 0, s1), 1) ≠ (((List.replicate 6 0, s2), 3) : (Bytes × Bytes) × Nat) := by
  have hw : (16 : Nat) = 2 ∨ (16 : Nat) = 4 ∨ (16 : Nat) = 16 ∨ (16 : Nat) = 256 := by omega
  have hg := (fast_fresh hnew).2.1
  have h2 : 1 < 2 ^ height.toNat := Nat.one_lt_two_pow (by have := hg.1; omega)
  have h0 : 0 < 2 ^ height.toNat := by omega
  obtain ⟨o, e, _⟩ := C19_fast_refines_counter S seed height .sha2_256 af o0 hnew
    [.sign (List.replicate 5 0), .sign (List.replicate 6 0)]
  simp only [counterRun, counterCall, h0, h2, if_true, Nat.zero_add] at e
  refine ⟨_, _, o, e, ?_, by simp⟩
  have hG := out32 S .sha2_256
  have hl := lenW_pos hw
  have key : ∀ i n ch, i < 2 ^ 32 → ch < 67 →
      (wotsDigits 16 (List.replicate 31 7 ++ [UInt8.ofNat (128 + n)]))[ch]? = some 7 →
      sigChain (seedSignature S .sha2_256 16 height.toNat seed i (List.replicate n 0)) ch = List.replicate 31 7 ++ [96] := by
    intro i n ch hi hch h7
    obtain ⟨d, a1, a2, a3⟩ := signed_chain (S := S) (seed := seed) (h := height.toNat) (hf := .sha2_256) hw hi
      (List.replicate n 0) _ rfl (ch := ch) (by rw [show lenW 16 = 67 by decide]; exact hch)
    obtain ⟨p, k, q, hp, hsp, h1, _⟩ := base_ok hw
    rw [toy_positions S hS 16 _ _ (node_len hG _ _ _ _ hl _ _)
      (by
        have := length_signature S .sha2_256 hsp h1 height.toNat ((shake256 96 seed).take 32)
          (((shake256 96 seed).drop 32).take 32) ((shake256 96 seed).drop 64) i (List.replicate n 0)
        rw [seedSignature, this]; omega), h7] at a1
    cases a1
    rw [a3, (chainValue_succ ..).1]
    generalize hv : chainValue (HashFn.prim S .sha2_256) ((shake256 96 seed).take 32) ((shake256 96 seed).drop 64) i ch 6 = v
    have hvl : v.length = 32 := by
      rw [← hv]; exact chain_len hG _ _ _ _ _ _ (hG _)
    have hlen : (be 32 0 ++ PRF (HashFn.prim S .sha2_256) ((shake256 96 seed).drop 64) (address 0 i ch 6 0) ++
        Spec.xor v (PRF (HashFn.prim S .sha2_256) ((shake256 96 seed).drop 64) (address 0 i ch 6 1))).length = 96 := by
      simp only [Spec.xor, List.length_append, length_be, List.length_zipWith, PRF_len hG, hvl]
      omega
    refine (hS _).trans ?_
    rw [hlen]
    rfl
  rw [key 0 5 1 (by omega) (by omega) (by decide +kernel), key 1 6 3 (by omega) (by omega) (by decide +kernel)]

example : ∃ o0 s1 s2 o, XmssFast.new toySha zeroSeed 4 0 0 = ok o0 ∧
    runCalls (XmssFast.call toySha) o0 [.sign (List.replicate 5 0), .sign (List.replicate 6 0)] = some ([.sig s1, .sig s2], o) ∧
    sigChain s1 1 = sigChain s2 3 := by
  obtain ⟨o0, h⟩ := (C39_fast_succeeds toySha zeroSeed 4 (HashFn.toNat .sha2_256) 0).mpr ⟨rfl, goodHeight4, by decide⟩
  obtain ⟨s1, s2, o, h1, h2, _⟩ := chain_values_demo toySha (fun _ => rfl) zeroSeed 4 0 o0 h
  exact ⟨o0, s1, s2, o, h, h1, h2⟩

end Qrl.Props
