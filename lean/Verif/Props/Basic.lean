import Verif.Proof.Honest
/-!
# C13, C15, C18, C26, C27, C39: the simple signer `XmssBasic`
-/

namespace Qrl.Props

open Outcome

/-- C39. The `XmssBasic` constructor throws `invalid_argument` exactly when the seed does not have 48 bytes or the
height is not an even number of at least 4; with `w` one of 2, 4, 16, 256. -/
theorem C39_basic_throws (S : Sha256) (seed : Bytes) (height : UInt8) (hf af w : Nat)
    (hw : w = 2 ∨ w = 4 ∨ w = 16 ∨ w = 256) (e : Exc) :
    XmssBasic.new S seed height hf af w = .throw e ↔
      e = .invalidArgument ∧ (seed.length ≠ 48 ∨ height.toNat < 4 ∨ height.toNat % 2 = 1) := by
  obtain ⟨p, k, q, hp, hsp, h1, h2, hk, hb⟩ := base_ok hw
  have hu := height.toNat_lt
  by_cases hs : seed.length = 48
  swap
  · have : XmssBasic.new S seed height hf af w = .throw .invalidArgument := by
      simp [XmssBasic.new, baseCtorCheck, hs]
    rw [this]
    simp only [Outcome.throw.injEq]
    constructor
    · intro h; exact ⟨h.symm, Or.inl hs⟩
    · intro h; exact h.1.symm
  by_cases h254 : height.toNat > 254
  · have : XmssBasic.new S seed height hf af w = .throw .invalidArgument := by
      simp [XmssBasic.new, baseCtorCheck, hs, h254]
    rw [this]
    simp only [Outcome.throw.injEq]
    constructor
    · intro h; exact ⟨h.symm, Or.inr (Or.inr (by omega))⟩
    · intro h; exact h.1.symm
  by_cases hc : 2 ≥ height.toNat ∨ (height.toNat - 2) % 2 ≠ 0
  · have : XmssBasic.new S seed height hf af w = .throw .invalidArgument := by
      simp only [XmssBasic.new, baseCtorCheck, hs, h254, ne_eq, not_true, if_false, ok_bind]
      rw [if_pos hc]
    rw [this]
    simp only [Outcome.throw.injEq]
    constructor
    · intro h; exact ⟨h.symm, Or.inr (by omega)⟩
    · intro h; exact h.1.symm
  · constructor
    · intro h
      exfalso
      simp only [XmssBasic.new, baseCtorCheck, hs, h254, ne_eq, not_true, if_false, ok_bind] at h
      rw [if_neg hc, xmssSetParams, if_neg hc, hp, ok_bind, ok_bind, withHash] at h
      cases hf' : HashFn.ofNat? hf with
      | none => rw [hf'] at h; cases h
      | some f =>
        rw [hf'] at h
        simp only at h
        rcases Nat.lt_or_ge height.toNat 32 with hlt | hge
        · rw [xmssGenkeypair_eq S f (p := ⟨p, height.toNat⟩) hsp h1 hlt (lenW_pos hw) seed hs] at h
          cases h
        · have : xmssGenkeypair S f ⟨p, height.toNat⟩ seed = ub := by
            rw [xmssGenkeypair, slice_eq_ok (by omega), ok_bind]
            simp only [treehash]
            rw [if_pos hge]; rfl
          rw [this] at h; cases h
    · rintro ⟨_, h⟩
      rcases h with h | h | h
      · exact absurd hs h
      · omega
      · omega

/-- C15 (simple signer). The constructor succeeds for every 48-byte seed, even height 4..30, supported hash
function and `w`; the secret key is index 0 ‖ 96 bytes of SHAKE256 of the seed ‖ root of the XMSS tree over
those secrets, in the sense of the specification. -/
theorem C15_basic_key (S : Sha256) (seed : Bytes) (height : UInt8) (hf : HashFn) (af w : Nat)
    (hw : w = 2 ∨ w = 4 ∨ w = 16 ∨ w = 256) (hs : seed.length = 48) (hh : GoodHeight height) :
    ∃ o, XmssBasic.new S seed height hf.toNat af w = ok o ∧ o.height = height ∧ o.hashFunction = hf.toNat ∧
      o.addrFormat = af ∧ o.seed = seed ∧
      o.sk = [0, 0, 0, 0] ++ shake256 96 seed ++
        Spec.node (hf.prim S) w (Spec.lenW w) ((shake256 96 seed).take 32) ((shake256 96 seed).drop 64)
          height.toNat 0 := by
  obtain ⟨p, k, q, hp, h1, h2, e⟩ := basicNew_eq S seed height hf af w hw hs hh
  refine ⟨_, e, rfl, rfl, rfl, rfl, ?_⟩
  exact (keyOf_sk0 S hf w height.toNat (lenW_pos hw) seed 0).symm

/-- C13, C15, C22, C27. From a fresh `XmssBasic`, after any history of `setIndex` and `sign` calls, if the index
`i` is below `2^height` then `sign` succeeds, the signature is the specified XMSS signature for one-time key `i`
(index ‖ r ‖ WOTS+ signature ‖ authentication path of siblings), has `getSignatureSize` bytes, starts with `i`,
verifies under the public key, and leaves the index at `i + 1`. -/
theorem C13_basic_sign_verifies (S : Sha256) (seed : Bytes) (height : UInt8) (hf : HashFn) (af w : Nat)
    (hw : w = 2 ∨ w = 4 ∨ w = 16 ∨ w = 256) (hh : GoodHeight height) (h24 : height.toNat ≤ 24)
    (o0 : XmssBase) (hnew : XmssBasic.new S seed height hf.toNat af w = ok o0)
    (cs : List Call) (rs : List Reply) (o : XmssBase) (hrun : runCalls (XmssBasic.call S) o0 cs = some (rs, o))
    (i : Nat) (hi : o.getIndex = ok i) (hlt : i < 2 ^ height.toNat) (msg : Bytes) :
    ∃ sig o' pk, XmssBasic.sign S o msg = ok (sig, o') ∧
      sig = Spec.signature (hf.prim S) w height.toNat ((shake256 96 seed).take 32)
        (((shake256 96 seed).drop 32).take 32) ((shake256 96 seed).drop 64) i msg ∧
      o.getSignatureSize w = ok sig.length ∧ sigIndex sig = i ∧
      o0.getPK = ok pk ∧ verify S msg sig pk w = ok true ∧ o'.getIndex = ok (i + 1) := by
  have hs : seed.length = 48 := by
    apply Classical.byContradiction
    intro hne
    have := (C39_basic_throws S seed height hf.toNat af w hw .invalidArgument).mpr ⟨rfl, Or.inl hne⟩
    rw [this] at hnew; cases hnew
  obtain ⟨p, k, q, hp, h1, h2, e⟩ := basicNew_eq S seed height hf af w hw hs hh
  rw [e] at hnew
  cases hnew
  have hkr : (keyOf S hf w height.toNat (lenW_pos hw) seed).root = Spec.node (hf.prim S) w (Spec.lenW w)
    (keyOf S hf w height.toNat (lenW_pos hw) seed).skSeed (keyOf S hf w height.toNat (lenW_pos hw) seed).ps
    height.toNat 0 := rfl
  have h4 := hh.1
  have h25 : 2 ^ height.toNat ≤ 2 ^ 25 := Nat.pow_le_pow_right (by omega) (by omega)
  obtain ⟨j, hj, rfl⟩ := basic_reach S hf hw hp h1 (keyOf S hf w height.toNat (lenW_pos hw) seed) cs _ 0 rs o rfl rfl
    (by simp only; omega) (by simp only; omega) hkr rfl (by omega) hrun
  rw [KeyParts.getIndex (keyOf S hf w height.toNat (lenW_pos hw) seed) _ j rfl hj] at hi
  cases hi
  have hsign := basicSign_eq S hf hw hp h1 rfl rfl (show height.toNat ≤ 25 by omega)
    (keyOf S hf w height.toNat (lenW_pos hw) seed) hkr i hlt (o := { params := ⟨p, height.toNat⟩, hashFunction := hf.toNat, addrFormat := af, height := height, sk := (keyOf S hf w height.toNat (lenW_pos hw) seed).sk i, seed := seed }) rfl msg
  obtain ⟨pk, hpk, hv⟩ := verify_honest S hf hw (keyOf S hf w height.toNat (lenW_pos hw) seed)
    { params := ⟨p, height.toNat⟩, hashFunction := hf.toNat, addrFormat := af, height := height,
      sk := (keyOf S hf w height.toNat (lenW_pos hw) seed).sk 0, seed := seed } 0 rfl rfl hh hkr i hlt msg
  refine ⟨_, _, pk, hsign, rfl, ?_, ?_, hpk, hv, ?_⟩
  · rw [C22_signature_size _ w hw, length_signature S hf hp h1, hp.len]
  · exact sigIndex_signature S hf w height.toNat _ _ _ i msg hj
  · exact KeyParts.getIndex (keyOf S hf w height.toNat (lenW_pos hw) seed) _ (i + 1) rfl (by omega)

/-- C26, C27 (simple signer). Over any history only the four index bytes of the object change: all other
members, and with them `getPK`, `getExtendedSeed`, `getAddress` and the descriptor, stay the same; the index is
always the big-endian number in the first four bytes. -/
theorem C26_basic_stable (S : Sha256) (seed : Bytes) (height : UInt8) (hf : HashFn) (af w : Nat)
    (hw : w = 2 ∨ w = 4 ∨ w = 16 ∨ w = 256) (hs : seed.length = 48) (hh : GoodHeight height)
    (h24 : height.toNat ≤ 24) (o0 : XmssBase) (hnew : XmssBasic.new S seed height hf.toNat af w = ok o0)
    (cs : List Call) (rs : List Reply) (o : XmssBase) (hrun : runCalls (XmssBasic.call S) o0 cs = some (rs, o)) :
    o = { o0 with sk := o.sk } ∧ o.sk.length = 132 ∧ o.sk.drop 4 = o0.sk.drop 4 ∧
      o.getIndex = ok (Spec.byteVal (o.sk.take 4)) ∧ o.getPK = o0.getPK ∧ o.getAddress S = o0.getAddress S ∧
      o.getExtendedSeed = o0.getExtendedSeed := by
  obtain ⟨p, k, q, hp, h1, h2, e⟩ := basicNew_eq S seed height hf af w hw hs hh
  rw [e] at hnew
  cases hnew
  have h4 := hh.1
  obtain ⟨j, hj, rfl⟩ := basic_reach S hf hw hp h1 (keyOf S hf w height.toNat (lenW_pos hw) seed) cs _ 0 rs o rfl rfl
    (by simp only; omega) (by simp only; omega) rfl rfl (by omega) hrun
  let K := keyOf S hf w height.toNat (lenW_pos hw) seed
  let ob (i : Nat) : XmssBase := { params := ⟨p, height.toNat⟩, hashFunction := hf.toNat, addrFormat := af, height := height, sk := K.sk i, seed := seed }
  have hpk : (ob j).getPK = (ob 0).getPK := by
    rw [getPK_eq K (ob j) j rfl, getPK_eq K (ob 0) 0 rfl]; rfl
  refine ⟨rfl, KeyParts.length_sk _ _, ?_, ?_, ?_, ?_, rfl⟩
  · exact (K.drop4 j).trans (K.drop4 0).symm
  · have h1 := KeyParts.idx (keyOf S hf w height.toNat (lenW_pos hw) seed) j hj
    rw [be32At_eq (by rw [KeyParts.length_sk]; omega)] at h1
    rw [KeyParts.getIndex (keyOf S hf w height.toNat (lenW_pos hw) seed) _ j rfl hj, ← h1]
  · exact hpk
  · show (ob j).getAddress S = (ob 0).getAddress S
    rw [XmssBase.getAddress, XmssBase.getAddress, hpk]

/-- C27. `XmssBasic::setIndex(n)` (which is `XmssBase::setIndex`) returns `n`, for every 32-bit `n`, on any object
with a 132-byte key (whatever its index), and `getIndex` then returns `n`. It makes no check at all. -/
theorem C27_base_setIndex (o : XmssBase) (hl : o.sk.length = 132) (n : UInt32) :
    ∃ o', o.setIndex n.toNat = ok (n.toNat, o') ∧ o'.getIndex = ok n.toNat ∧
      o'.sk = Spec.be 4 n.toNat ++ o.sk.drop 4 := by
  let K : KeyParts :=
    { skSeed := (o.sk.drop 4).take 32, skPrf := ((o.sk.drop 36)).take 32, ps := (o.sk.drop 68).take 32,
      root := o.sk.drop 100, l1 := by simp [hl], l2 := by simp [hl], l3 := by simp [hl], l4 := by simp [hl] }
  have hdrop : o.sk.drop 4 = K.skSeed ++ K.skPrf ++ K.ps ++ K.root := by
    have a1 : o.sk.drop 36 = (o.sk.drop 4).drop 32 := by simp
    have a2 : o.sk.drop 68 = (o.sk.drop 36).drop 32 := by simp
    have a3 : o.sk.drop 100 = (o.sk.drop 68).drop 32 := by simp
    show o.sk.drop 4 = (o.sk.drop 4).take 32 ++ (o.sk.drop 36).take 32 ++ (o.sk.drop 68).take 32 ++ o.sk.drop 100
    rw [a3, List.append_assoc, List.take_append_drop, a2, List.append_assoc, List.take_append_drop, a1,
      List.take_append_drop]
  have hsk : o.sk = K.sk (Spec.byteVal (o.sk.take 4)) := by
    rw [KeyParts.sk, skOf, List.append_assoc, List.append_assoc, List.append_assoc]
    have : Spec.be 4 (Spec.byteVal (o.sk.take 4)) = o.sk.take 4 := by
      match o.sk, hl with
      | a :: b :: c :: d :: rest, _ =>
        have ha := a.toNat_lt; have hb := b.toNat_lt; have hc := c.toNat_lt; have hd := d.toNat_lt
        simp only [List.take_succ_cons, List.take_zero, Spec.byteVal, List.foldl_cons, List.foldl_nil]
        rw [← toByte_eq_be]
        simp only [toByte, List.nil_append, List.cons_append, List.cons.injEq, and_true]
        refine ⟨?_, ?_, ?_, ?_⟩ <;> (apply UInt8.toNat_inj.mp; simp only [UInt8.toNat_ofNat']; omega)
    rw [this]
    have h2 := hdrop
    simp only [List.append_assoc] at h2
    rw [← h2, List.take_append_drop]
  refine ⟨{ o with sk := K.sk n.toNat }, baseSetIndex_eq K o _ n.toNat hsk n.toNat_lt,
    K.getIndex _ n.toNat rfl n.toNat_lt, ?_⟩
  simp only
  rw [hdrop, KeyParts.sk, skOf]
  simp

/-- C18 fails: from every fresh `XmssBasic` the history sign, setIndex(0), sign returns two signatures that both
use one-time key 0, whatever the two messages. -/
theorem C18_basic_reuse_refuted (S : Sha256) (seed : Bytes) (height : UInt8) (hf : HashFn) (af w : Nat)
    (hw : w = 2 ∨ w = 4 ∨ w = 16 ∨ w = 256) (hs : seed.length = 48) (hh : GoodHeight height)
    (h24 : height.toNat ≤ 24) (m1 m2 : Bytes) :
    ∃ o0 rs o s1 s2, XmssBasic.new S seed height hf.toNat af w = ok o0 ∧
      runCalls (XmssBasic.call S) o0 [.sign m1, .setIndex 0, .sign m2] = some (rs, o) ∧
      signatures rs = [s1, s2] ∧ sigIndex s1 = sigIndex s2 := by
  obtain ⟨p, k, q, hp, h1, h2, e⟩ := basicNew_eq S seed height hf af w hw hs hh
  have hpos : 0 < 2 ^ height.toNat := Nat.two_pow_pos _
  let K := keyOf S hf w height.toNat (lenW_pos hw) seed
  let ob (i : Nat) : XmssBase := { params := ⟨p, height.toNat⟩, hashFunction := hf.toNat, addrFormat := af, height := height, sk := K.sk i, seed := seed }
  have hsign : ∀ i, i < 2 ^ height.toNat → ∀ m, XmssBasic.sign S (ob i) m =
      ok (Spec.signature (hf.prim S) w height.toNat K.skSeed K.skPrf K.ps i m, ob (i + 1)) := fun i hi m =>
    basicSign_eq S hf hw hp h1 (ob i) rfl rfl (show height.toNat ≤ 25 by omega) K rfl i hi rfl m
  have hset : (ob 1).setIndex (0 : UInt32).toNat = ok (0, ob 0) := baseSetIndex_eq K (ob 1) 1 0 rfl (by omega)
  refine ⟨ob 0, [.sig _, .index 0, .sig _], ob 1, Spec.signature (hf.prim S) w height.toNat K.skSeed K.skPrf K.ps 0 m1,
    Spec.signature (hf.prim S) w height.toNat K.skSeed K.skPrf K.ps 0 m2, e, ?_, rfl, ?_⟩
  · simp only [runCalls, XmssBasic.call, hsign 0 hpos, hset]
  · rw [sigIndex_signature S hf w _ _ _ _ 0 m1 (by omega), sigIndex_signature S hf w _ _ _ _ 0 m2 (by omega)]

/-- C18 fails: once the index has reached `2^height`, `sign` does not throw; it reads outside the tree array
(undefined behaviour). -/
theorem C18_basic_exhausted_refuted (S : Sha256) (seed : Bytes) (height : UInt8) (hf : HashFn) (af w : Nat)
    (hw : w = 2 ∨ w = 4 ∨ w = 16 ∨ w = 256) (hs : seed.length = 48) (hh : GoodHeight height)
    (h24 : height.toNat ≤ 24) (o0 : XmssBase) (hnew : XmssBasic.new S seed height hf.toNat af w = ok o0)
    (cs : List Call) (rs : List Reply) (o : XmssBase) (hrun : runCalls (XmssBasic.call S) o0 cs = some (rs, o))
    (i : Nat) (hi : o.getIndex = ok i) (hge : 2 ^ height.toNat ≤ i) (msg : Bytes) :
    XmssBasic.sign S o msg = .ub := by
  obtain ⟨p, k, q, hp, h1, h2, e⟩ := basicNew_eq S seed height hf af w hw hs hh
  rw [e] at hnew
  cases hnew
  have h4 := hh.1
  obtain ⟨j, hj, rfl⟩ := basic_reach S hf hw hp h1 (keyOf S hf w height.toNat (lenW_pos hw) seed) cs _ 0 rs o rfl rfl
    (by simp only; omega) (by simp only; omega) rfl rfl (by omega) hrun
  rw [KeyParts.getIndex (keyOf S hf w height.toNat (lenW_pos hw) seed) _ j rfl hj] at hi
  cases hi
  exact basicSign_oob S hf hw hp h1 _ rfl rfl (by simp only; omega) (by simp only; omega)
    (keyOf S hf w height.toNat (lenW_pos hw) seed) i hge hj rfl msg

/-- C36. The `XmssBasic` constructor does not refuse an unsupported hash function: with otherwise good arguments it
goes on with memory nothing has written (undefined behaviour). -/
theorem C36_basic_unsupported (S : Sha256) (seed : Bytes) (height : UInt8) (hf af w : Nat)
    (hw : w = 2 ∨ w = 4 ∨ w = 16 ∨ w = 256) (hs : seed.length = 48) (hh : GoodHeight height) (hf3 : 3 ≤ hf) :
    XmssBasic.new S seed height hf af w = .ub := by
  obtain ⟨p, k, q, hp, hsp, h1, h2, hk, hb⟩ := base_ok hw
  obtain ⟨h4, h30, he⟩ := hh
  have hc : ¬ (2 ≥ height.toNat ∨ (height.toNat - 2) % 2 ≠ 0) := by omega
  simp only [XmssBasic.new, baseCtorCheck, hs, ne_eq, not_true, if_false, show ¬ height.toNat > 254 by omega, ok_bind]
  rw [if_neg hc, xmssSetParams, if_neg hc, hp, ok_bind, ok_bind, withHash]
  match hf, hf3 with
  | n + 3, _ => rfl

/-- The hypotheses are met: height 4, `w = 16`, SHAKE128. -/
def zeroSeed : Bytes := List.replicate 48 0

theorem goodHeight4 : GoodHeight 4 := by unfold GoodHeight; decide

example : ∃ o, XmssBasic.new toySha zeroSeed 4 1 0 16 = ok o ∧
    ∃ rs o', runCalls (XmssBasic.call toySha) o [.sign [1], .setIndex 0, .sign [2]] = some (rs, o') := by
  obtain ⟨o0, rs, o, s1, s2, h1, h2, _⟩ := C18_basic_reuse_refuted toySha zeroSeed 4 .shake_128 0 16 (by decide)
    (by decide) goodHeight4 (by decide) [1] [2]
  exact ⟨o0, h1, rs, o, h2⟩

end Qrl.Props
