import Verif.Proof.Rfc8391
import Verif.Props.Fast
import Verif.Props.Binding
import Verif.Props.RustVerify
import Verif.Props.RustSign
/-!
# C88: interoperability with RFC 8391

`Spec/Rfc8391` transcribes the pseudocode of the RFC; here verification, key generation and signing are compared with it.
-/

namespace Qrl.Props

open Outcome

/-- The functions behind the RFC's parameter sets, with 256 bits of output. -/
def rfcHashes (S : Sha256) : Rfc8391.Hash → Bytes → Bytes
  | .SHA2 => S.hash
  | .SHAKE128 => shake128 32
  | .SHAKE256 => shake256 32

/-- The first two descriptor bytes of a qrllib key: signature type 0 and number of the hash function; address format 0 and half the
height. The third is 0. -/
def rfcDescriptor (hash : Rfc8391.Hash) (h : Nat) : Bytes :=
  [match hash with | .SHA2 => 0 | .SHAKE128 => 1 | .SHAKE256 => 2, UInt8.ofNat (h / 2), 0]

/-- The library's name of a hash function. -/
def rfcHashFn : Rfc8391.Hash → HashFn
  | .SHA2 => .sha2_256
  | .SHAKE128 => .shake_128
  | .SHAKE256 => .shake_256

/-- C88. `verify` is algorithm 14 of RFC 8391, behind checks of the sizes and of the height, for every message, signature and key
naming a supported hash function, and each `w`. -/
theorem C88_verify (S : Sha256) (msg sig epk : Bytes) (w : Nat) (hw : w = 2 ∨ w = 4 ∨ w = 16 ∨ w = 256) (hf : HashFn)
    (hk : HashFn.ofNat? (keyHash epk) = some hf) :
    verify S msg sig epk w = ok (decide (epk.length = 67) && decide (4 ≤ keyHeight epk) &&
      decide (sig.length = 4 + 32 + 32 * Rfc8391.len w + 32 * keyHeight epk) &&
      Rfc8391.XMSS_verify (hf.prim S) w (keyHeight epk) sig msg (keyRoot epk) (keySeed epk)) := by
  rw [C20_verify_spec S msg sig epk w hw, hk, Rfc8391.len_eq hw]
  by_cases hwf : WellFormed w sig epk
  · rw [if_pos hwf, Rfc8391.XMSS_verify_eq (out32 S hf) hw _ _ _ _ _ (by rw [Rfc8391.len_eq hw]; exact hwf.2.2)]
    simp only [hwf.1, hwf.2.1, hwf.2.2, decide_true, Bool.true_and]
  · rw [if_neg hwf]
    have : (decide (epk.length = 67) && decide (4 ≤ keyHeight epk) &&
        decide (sig.length = 4 + 32 + 32 * Spec.lenW w + 32 * keyHeight epk)) = false := by
      rw [Bool.eq_false_iff]
      intro h
      simp only [Bool.and_eq_true, decide_eq_true_eq] at h
      exact hwf ⟨h.1.1, h.1.2, h.2⟩
    rw [this, Bool.false_and]

/-- RFC 8391 verification with `OID || root || SEED`. -/
theorem rfc_verify_split (G : Rfc8391.Hash → Bytes → Bytes) (oid : Nat) (hash : Rfc8391.Hash) (h : Nat)
    (hp : Rfc8391.parameters oid = some (hash, h)) (root seed : Bytes) (hr : root.length = 32) (hs : seed.length = 32) (msg sig : Bytes) :
    Rfc8391.verify G (Rfc8391.toByte oid 4 ++ root ++ seed) msg sig =
      (decide (sig.length = 4 + 32 + 32 * Rfc8391.len 16 + 32 * h) && Rfc8391.XMSS_verify (G hash) 16 h sig msg root seed) := by
  have ho : oid < 256 := by
    unfold Rfc8391.parameters at hp
    split at hp <;> cases hp <;> omega
  have hb4 : (Rfc8391.toByte oid 4).length = 4 := length_be 4 oid
  have t1 : (Rfc8391.toByte oid 4 ++ root ++ seed).take 4 = Rfc8391.toByte oid 4 := by
    rw [List.append_assoc, List.take_append, List.take_of_length_le (by omega), hb4, Nat.sub_self, List.take_zero, List.append_nil]
  have t2 : ((Rfc8391.toByte oid 4 ++ root ++ seed).drop 4).take 32 = root := by
    rw [List.append_assoc, List.drop_append, List.drop_eq_nil_of_le (by omega), hb4, Nat.sub_self, List.nil_append, List.drop_zero,
      List.take_append, List.take_of_length_le (by omega), hr, Nat.sub_self, List.take_zero, List.append_nil]
  have t3 : (Rfc8391.toByte oid 4 ++ root ++ seed).drop 36 = seed := by
    rw [List.drop_append, List.drop_eq_nil_of_le (by simp [hb4, hr]), List.length_append, hb4, hr]
    rfl
  have t6 : Rfc8391.toInt (Rfc8391.toByte oid 4) = oid := by
    rw [Rfc8391.toByte_be, Rfc8391.toInt_byteVal, byteVal_be, Nat.mod_eq_of_lt (by omega)]
  rw [Rfc8391.verify, t1, t6, hp, t2, t3]
  simp only [List.length_append, hb4, hr, hs, Bool.true_and, beq_self_eq_true, beq_eq_decide]

/-- C88. For each registered parameter set with 256-bit hashes and `w = 16`: `verify` with a qrllib key answers what RFC 8391 says
for the key with the OID in place of the descriptor, whatever message and signature. -/
theorem C88_registered (S : Sha256) (oid : Nat) (hash : Rfc8391.Hash) (h : Nat) (hp : Rfc8391.parameters oid = some (hash, h))
    (root seed : Bytes) (hr : root.length = 32) (hs : seed.length = 32) (msg sig : Bytes) :
    verify S msg sig (rfcDescriptor hash h ++ root ++ seed) 16 =
      ok (Rfc8391.verify (rfcHashes S) (Rfc8391.toByte oid 4 ++ root ++ seed) msg sig) := by
  have key : ∀ hf : HashFn, hf.prim S = rfcHashes S hash → keyHash (rfcDescriptor hash h ++ root ++ seed) = hf.toNat →
      keyHeight (rfcDescriptor hash h ++ root ++ seed) = h → 4 ≤ h →
      verify S msg sig (rfcDescriptor hash h ++ root ++ seed) 16 =
        ok (Rfc8391.verify (rfcHashes S) (Rfc8391.toByte oid 4 ++ root ++ seed) msg sig) := by
    intro hf e1 e2 e3 h4
    have d3 : (rfcDescriptor hash h).length = 3 := rfl
    rw [C88_verify S msg sig _ 16 (by omega) hf (by rw [e2, ofNat?_toNat]), e1, e3]
    have t4 : keyRoot (rfcDescriptor hash h ++ root ++ seed) = root := by
      rw [keyRoot, List.append_assoc, List.drop_append, List.drop_eq_nil_of_le (by omega), d3, Nat.sub_self, List.nil_append,
        List.drop_zero, List.take_append, List.take_of_length_le (by omega), hr, Nat.sub_self, List.take_zero, List.append_nil]
    have t5 : keySeed (rfcDescriptor hash h ++ root ++ seed) = seed := by
      rw [keySeed, List.drop_append, List.drop_eq_nil_of_le (by simp [d3, hr]), List.length_append, d3, hr]
      rfl
    rw [rfc_verify_split (rfcHashes S) oid hash h hp root seed hr hs, t4, t5]
    simp only [List.length_append, d3, hr, hs, h4, decide_true, Bool.true_and]
  unfold Rfc8391.parameters at hp
  split at hp <;> cases hp <;> first
    | exact key .sha2_256 rfl rfl rfl (by omega)
    | exact key .shake_128 rfl rfl rfl (by omega)
    | exact key .shake_256 rfl rfl rfl (by omega)

/-- C88. A signer that follows RFC 8391, with any one-time keys of the right size, any `SK_PRF` and `SEED`, has its signatures accepted
by qrllib: algorithm 10 gives a key, algorithm 12 signs any message at any index below `2^h`, and `verify` returns true for the qrllib
key with that root and `SEED`, for every supported hash function, `w` and even height 4..30. -/
theorem C88_foreign (S : Sha256) (hf : HashFn) (w : Nat) (hw : w = 2 ∨ w = 4 ∨ w = 16 ∨ w = 256) (h : Nat) (h4 : 4 ≤ h) (h30 : h ≤ 30)
    (he : h % 2 = 0) (wots_sk : Nat → List Bytes)
    (hsk : ∀ i : Nat, (wots_sk i).length = Rfc8391.len w ∧ ∀ x ∈ wots_sk i, x.length = 32) (SK_PRF SEED : Bytes) (hs : SEED.length = 32) :
    ∃ SK, Rfc8391.XMSS_keyGen (hf.prim S) w h wots_sk SK_PRF SEED = some SK ∧ SK.root.length = 32 ∧
      ∀ (i : Nat) (M : Bytes), i < 2 ^ h →
        ∃ Sig SK', Rfc8391.XMSS_sign (hf.prim S) w h M { SK with idx := i } = some (Sig, SK') ∧ SK'.idx = i + 1 ∧
          verify S M Sig ([UInt8.ofNat hf.toNat, UInt8.ofNat (h / 2), 0] ++ SK.root ++ SK.SEED) w = ok true := by
  have hG := out32 S hf
  have hrl := Rfc8391.length_treeNode hG SEED _ (fun i => Rfc8391.length_leafOf hG (Rfc8391.one_le_len hw) hsk SEED i) h 0
  refine ⟨_, Rfc8391.XMSS_keyGen_eq hG hw h hsk SK_PRF SEED, hrl, fun i M hi => ?_⟩
  have hsig := Rfc8391.XMSS_sign_eq hG hw h M
    ⟨i, wots_sk, SK_PRF, Rfc8391.treeNode (hf.prim S) SEED (Rfc8391.leafOf (hf.prim S) w SEED wots_sk) h 0, SEED⟩ hsk
  obtain ⟨v1, v2, v3⟩ := Rfc8391.XMSS_verify_sign hG hw h (by omega) M
    ⟨i, wots_sk, SK_PRF, Rfc8391.treeNode (hf.prim S) SEED (Rfc8391.leafOf (hf.prim S) w SEED wots_sk) h 0, SEED⟩ _ _ hsk rfl hi hsig
  refine ⟨_, _, hsig, rfl, ?_⟩
  simp only at v1 v2 ⊢
  generalize Rfc8391.treeNode (hf.prim S) SEED (Rfc8391.leafOf (hf.prim S) w SEED wots_sk) h 0 = root at *
  have k1 : keyHash ([UInt8.ofNat hf.toNat, UInt8.ofNat (h / 2), 0] ++ root ++ SEED) = hf.toNat := by cases hf <;> rfl
  have k2 : keyHeight ([UInt8.ofNat hf.toNat, UInt8.ofNat (h / 2), 0] ++ root ++ SEED) = h := by
    show 2 * ((UInt8.ofNat (h / 2)).toNat % 16) = h
    rw [UInt8.toNat_ofNat_of_lt' (by rw [UInt8.size]; omega)]
    omega
  have k3 : keyRoot ([UInt8.ofNat hf.toNat, UInt8.ofNat (h / 2), 0] ++ root ++ SEED) = root := by
    show (root ++ SEED).take 32 = root
    rw [List.take_append, List.take_of_length_le (by omega), hrl, Nat.sub_self, List.take_zero, List.append_nil]
  have k4 : keySeed ([UInt8.ofNat hf.toNat, UInt8.ofNat (h / 2), 0] ++ root ++ SEED) = SEED := by
    show (root ++ SEED).drop 32 = SEED
    rw [List.drop_append, List.drop_eq_nil_of_le (by omega), hrl]
    rfl
  rw [C88_verify S M _ _ w hw hf (by rw [k1, ofNat?_toNat]), k2, k3, k4, v1, v2]
  simp [hrl, hs, h4]

/-- The RFC 8391 key that the code makes from a seed: one-time keys, `SK_PRF` and `SEED` from 96 bytes of SHAKE256. -/
def rfcKey (S : Sha256) (hf : HashFn) (w h : Nat) (seed : Bytes) : Option Rfc8391.SecretKey :=
  Rfc8391.XMSS_keyGen (hf.prim S) w h (Rfc8391.pseudorandomKeys (hf.prim S) w ((shake256 96 seed).take 32))
    (((shake256 96 seed).drop 32).take 32) ((shake256 96 seed).drop 64)

theorem rfcKey_eq (S : Sha256) (hf : HashFn) {w : Nat} (hw : w = 2 ∨ w = 4 ∨ w = 16 ∨ w = 256) (h : Nat) (seed : Bytes) :
    rfcKey S hf w h seed = some ⟨0, Rfc8391.seedKeys (hf.prim S) w ((shake256 96 seed).take 32), ((shake256 96 seed).drop 32).take 32,
      Spec.node (hf.prim S) w (Spec.lenW w) ((shake256 96 seed).take 32) ((shake256 96 seed).drop 64) h 0, (shake256 96 seed).drop 64⟩ := by
  rw [rfcKey, Rfc8391.pseudorandomKeys_eq, Rfc8391.keyGen_seedKeys (out32 S hf) hw]

/-- C88 (fast signer). After any history of calls, the public key of an `XmssFast` made from a seed holds the root and the `SEED` of
algorithm 10; and for an index `i` below `2^height`, `sign` returns the signature of algorithm 12 at index `i` for any message, which
algorithm 14 accepts, and both indices go on to `i + 1`. -/
theorem C88_fast_sign (S : Sha256) (seed : Bytes) (height : UInt8) (hf : HashFn) (af : Nat) (o0 : XmssFast)
    (hnew : XmssFast.new S seed height hf.toNat af = ok o0) (cs : List Call) (rs : List Reply) (o : XmssFast)
    (hrun : runCalls (XmssFast.call S) o0 cs = some (rs, o)) :
    ∃ SK pk, rfcKey S hf 16 height.toNat seed = some SK ∧ o.getPK = ok pk ∧ keyRoot pk = SK.root ∧ keySeed pk = SK.SEED ∧
      ∀ (i : Nat) (msg : Bytes), o.getIndex = ok i → i < 2 ^ height.toNat →
        ∃ sig o', o.sign S msg = .ret sig o' ∧ o'.getIndex = ok (i + 1) ∧ sig.length = 4 + 32 + 32 * Rfc8391.len 16 + 32 * height.toNat ∧
          Rfc8391.XMSS_sign (hf.prim S) 16 height.toNat msg { SK with idx := i } = some (sig, { SK with idx := i + 1 }) ∧
          Rfc8391.XMSS_verify (hf.prim S) 16 height.toNat sig msg SK.root SK.SEED = true := by
  obtain ⟨f, p, k, q, j, hf1, hf2, hg, hs, rfl, e2, e5, hp, H, hj, hgi, _, _, rfl⟩ := fast_reach hnew hrun
  rw [ofNat?_toNat] at hf2
  cases hf2
  have hpk := getPK_eq (keyOf S hf 16 o0.height.toNat (lenW_pos (by omega)) seed)
    (fastAt S hf (keyOf S hf 16 o0.height.toNat (lenW_pos (by omega)) seed) o0 j).toXmssBase j rfl
  obtain ⟨k1, k2, k3, k4, k5⟩ := pk_fields (keyOf S hf 16 o0.height.toNat (lenW_pos (by omega)) seed)
    (fastAt S hf (keyOf S hf 16 o0.height.toNat (lenW_pos (by omega)) seed) o0 j).toXmssBase hf H.hof H.hh
  refine ⟨_, _, rfcKey_eq S hf (by omega) _ _, hpk, k4, k5, fun i msg hi hlt => ?_⟩
  rw [hgi] at hi
  cases hi
  have hsig := Rfc8391.sign_seedKeys (out32 S hf) (w := 16) (by omega) o0.height.toNat ((shake256 96 seed).take 32)
    (((shake256 96 seed).drop 32).take 32) ((shake256 96 seed).drop 64) j msg
  have hv := Rfc8391.XMSS_verify_sign (out32 S hf) (w := 16) (by omega) o0.height.toNat (by have := hg.2.1; omega) msg _ _ _
    (Rfc8391.seedKeys_ok (out32 S hf) 16 _) ?_ hlt hsig
  · exact ⟨_, _, H.sign_ok j hlt msg, H.getIndex (j + 1) hlt, hv.1, hsig, hv.2.1⟩
  simp only
  rw [Rfc8391.leafOf_seedKeys (by omega), ← Rfc8391.node_treeNode]


/-- C88 (fast signer, registered parameter sets). What an `XmssFast` of height 10, 16 or 20 signs after any history is accepted by
an RFC 8391 verifier that is given the public key with the OID of the parameter set in place of the three descriptor bytes. -/
theorem C88_fast_registered (S : Sha256) (oid : Nat) (hash : Rfc8391.Hash) (height : UInt8)
    (hp : Rfc8391.parameters oid = some (hash, height.toNat)) (seed : Bytes) (af : Nat) (o0 : XmssFast)
    (hnew : XmssFast.new S seed height (rfcHashFn hash).toNat af = ok o0) (cs : List Call) (rs : List Reply) (o : XmssFast)
    (hrun : runCalls (XmssFast.call S) o0 cs = some (rs, o)) (i : Nat) (hi : o.getIndex = ok i) (hlt : i < 2 ^ height.toNat)
    (msg : Bytes) :
    ∃ pk sig o', o.getPK = ok pk ∧ o.sign S msg = .ret sig o' ∧
      Rfc8391.verify (rfcHashes S) (Rfc8391.toByte oid 4 ++ pk.drop 3) msg sig = true := by
  obtain ⟨SK, pk, -, g2, g3, g4, g⟩ := C88_fast_sign S seed height (rfcHashFn hash) af o0 hnew cs rs o hrun
  obtain ⟨sig, o', k1, -, k3, -, k5⟩ := g i msg hi hlt
  refine ⟨pk, sig, o', g2, k1, ?_⟩
  obtain ⟨_, _, _, pk2, _, _, _, _, _, f6, f7, -⟩ := C12_fast_sign_verifies S seed height _ af o0 hnew cs rs o hrun i hi hlt msg
  have hl : pk.length = 67 := by
    rw [g2] at f6
    cases f6
    exact (C20_verify_true S msg _ pk 16 (by omega) f7).1
  have hd : pk.drop 3 = keyRoot pk ++ keySeed pk := by
    rw [keyRoot, keySeed, show pk.drop 35 = (pk.drop 3).drop 32 by rw [List.drop_drop], List.take_append_drop]
  have hG : (rfcHashFn hash).prim S = rfcHashes S hash := by cases hash <;> rfl
  rw [hd, ← List.append_assoc, rfc_verify_split (rfcHashes S) oid hash _ hp _ _ (by simp [keyRoot, hl]) (by simp [keySeed, hl]), g3, g4,
    ← hG, k5, k3]
  simp

/-- C88 (simple signer). The same for `XmssBasic` with each `w`, up to height 24 (C45 for the larger ones). -/
theorem C88_basic_sign (S : Sha256) (seed : Bytes) (height : UInt8) (hf : HashFn) (af w : Nat)
    (hw : w = 2 ∨ w = 4 ∨ w = 16 ∨ w = 256) (hh : GoodHeight height) (h24 : height.toNat ≤ 24) (o0 : XmssBase)
    (hnew : XmssBasic.new S seed height hf.toNat af w = ok o0) (cs : List Call) (rs : List Reply) (o : XmssBase)
    (hrun : runCalls (XmssBasic.call S) o0 cs = some (rs, o)) :
    ∃ SK pk, rfcKey S hf w height.toNat seed = some SK ∧ o.getPK = ok pk ∧ keyRoot pk = SK.root ∧ keySeed pk = SK.SEED ∧
      ∀ (i : Nat) (msg : Bytes), o.getIndex = ok i → i < 2 ^ height.toNat →
        ∃ sig o', XmssBasic.sign S o msg = ok (sig, o') ∧ o'.getIndex = ok (i + 1) ∧
          Rfc8391.XMSS_sign (hf.prim S) w height.toNat msg { SK with idx := i } = some (sig, { SK with idx := i + 1 }) ∧
          Rfc8391.XMSS_verify (hf.prim S) w height.toNat sig msg SK.root SK.SEED = true := by
  have hs : seed.length = 48 := by
    apply Classical.byContradiction
    intro hne
    have := (C39_basic_throws S seed height hf.toNat af w hw .invalidArgument).mpr ⟨rfl, Or.inl hne⟩
    rw [this] at hnew; cases hnew
  have hst := C26_basic_stable S seed height hf af w hw hs hh h24 o0 hnew cs rs o hrun
  have hsig := fun i hi hlt msg => C13_basic_sign_verifies S seed height hf af w hw hh h24 o0 hnew cs rs o hrun i hi hlt msg
  obtain ⟨p, k, q, hp, h1, h2, e⟩ := basicNew_eq S seed height hf af w hw hs hh
  rw [e] at hnew
  cases hnew
  have hpk := getPK_eq (keyOf S hf w height.toNat (lenW_pos hw) seed)
    { params := ⟨p, height.toNat⟩, hashFunction := hf.toNat, addrFormat := af, height := height,
      sk := (keyOf S hf w height.toNat (lenW_pos hw) seed).sk 0, seed := seed } 0 rfl
  obtain ⟨k1, k2, k3, k4, k5⟩ := pk_fields (keyOf S hf w height.toNat (lenW_pos hw) seed)
    { params := ⟨p, height.toNat⟩, hashFunction := hf.toNat, addrFormat := af, height := height,
      sk := (keyOf S hf w height.toNat (lenW_pos hw) seed).sk 0, seed := seed } hf rfl hh
  refine ⟨_, _, rfcKey_eq S hf hw _ _, hst.2.2.2.2.1.trans hpk, k4, k5, fun i msg hi hlt => ?_⟩
  obtain ⟨sig, o', pk, s1, s2, -, -, -, -, s7⟩ := hsig i hi hlt msg
  have hs2 := Rfc8391.sign_seedKeys (out32 S hf) hw height.toNat ((shake256 96 seed).take 32)
    (((shake256 96 seed).drop 32).take 32) ((shake256 96 seed).drop 64) i msg
  rw [← s2] at hs2
  have hv := Rfc8391.XMSS_verify_sign (out32 S hf) hw height.toNat (by omega) msg _ _ _
    (Rfc8391.seedKeys_ok (out32 S hf) w _) ?_ hlt hs2
  · exact ⟨sig, o', s1, s7, hs2, hv.2.1⟩
  simp only
  rw [Rfc8391.leafOf_seedKeys hw, ← Rfc8391.node_treeNode]

/-- C88 (simple signer, keys). At every height 4..30 the public key of a new `XmssBasic` holds the root and the `SEED` of algorithm 10. -/
theorem C88_basic_key (S : Sha256) (seed : Bytes) (height : UInt8) (hf : HashFn) (af w : Nat)
    (hw : w = 2 ∨ w = 4 ∨ w = 16 ∨ w = 256) (hs : seed.length = 48) (hh : GoodHeight height) :
    ∃ o SK pk, XmssBasic.new S seed height hf.toNat af w = ok o ∧ rfcKey S hf w height.toNat seed = some SK ∧ o.getPK = ok pk ∧
      pk.length = 67 ∧ keyHash pk = hf.toNat ∧ keyHeight pk = height.toNat ∧ keyRoot pk = SK.root ∧ keySeed pk = SK.SEED := by
  obtain ⟨p, k, q, hp, h1, h2, e⟩ := basicNew_eq S seed height hf af w hw hs hh
  have hpk := getPK_eq (keyOf S hf w height.toNat (lenW_pos hw) seed)
    { params := ⟨p, height.toNat⟩, hashFunction := hf.toNat, addrFormat := af, height := height,
      sk := (keyOf S hf w height.toNat (lenW_pos hw) seed).sk 0, seed := seed } 0 rfl
  obtain ⟨k1, k2, k3, k4, k5⟩ := pk_fields (keyOf S hf w height.toNat (lenW_pos hw) seed)
    { params := ⟨p, height.toNat⟩, hashFunction := hf.toNat, addrFormat := af, height := height,
      sk := (keyOf S hf w height.toNat (lenW_pos hw) seed).sk 0, seed := seed } hf rfl hh
  exact ⟨_, _, _, e, rfcKey_eq S hf hw _ _, hpk, k1, k2, k3, k4, k5⟩

/-- C88 (Rust port). For keys with address format 0 and messages within the limits of C53 (up to `2^32 - 129` bytes with SHA2-256,
below 40 with SHAKE128 and below 8 with SHAKE256), the port's `verify` accepts exactly what algorithm 14
accepts. -/
theorem C88_rust_verify (b : Rs.Build) (S : Sha256) (msg sig epk : Bytes) (w : Nat) (hw : w = 2 ∨ w = 4 ∨ w = 16 ∨ w = 256)
    (hfm : (epk.getD 1 0).toNat / 16 = 0) (hf : HashFn) (hh : HashFn.ofNat? (keyHash epk) = some hf) (hm : Spec.rustShort hf msg) :
    Rs.verify b S msg sig epk w = .ret () msg ↔
      epk.length = 67 ∧ 4 ≤ keyHeight epk ∧ sig.length = 4 + 32 + 32 * Rfc8391.len w + 32 * keyHeight epk ∧
        Rfc8391.XMSS_verify (hf.prim S) w (keyHeight epk) sig msg (keyRoot epk) (keySeed epk) = true := by
  rw [C53_agrees_short b S msg sig epk w hw hfm hf hh hm, C88_verify S msg sig epk w hw hf hh]
  constructor
  · intro h
    have := Outcome.ok.inj h
    simpa only [Bool.and_eq_true, decide_eq_true_eq, and_assoc] using this
  · rintro ⟨h1, h2, h3, h4⟩
    rw [h4]
    simp [h1, h2, h3]

/-- A signer of RFC 8391 with a secret key, over a history of calls: `sign` is algorithm 12 as long as one-time keys are left, and
`setIndex` skips one-time keys (the RFC allows it: it only asks that an index is not used twice). -/
def rfcRun (G : Bytes → Bytes) (w h : Nat) : Rfc8391.SecretKey → List Call → Option (List Reply × Rfc8391.SecretKey)
  | SK, [] => some ([], SK)
  | SK, .setIndex n :: cs =>
    if n.toNat < SK.idx ∨ 2 ^ h ≤ n.toNat then do
      let (rs, SK') ← rfcRun G w h SK cs
      some (.threw .invalidArgument :: rs, SK')
    else do
      let (rs, SK') ← rfcRun G w h { SK with idx := n.toNat } cs
      some (.index n.toNat :: rs, SK')
  | SK, .sign M :: cs =>
    if SK.idx < 2 ^ h then do
      let (sig, SK1) ← Rfc8391.XMSS_sign G w h M SK
      let (rs, SK') ← rfcRun G w h SK1 cs
      some (.sig sig :: rs, SK')
    else do
      let (rs, SK') ← rfcRun G w h SK cs
      some (.threw .invalidArgument :: rs, SK')

theorem rfcRun_counter (S : Sha256) (hf : HashFn) {w : Nat} (hw : w = 2 ∨ w = 4 ∨ w = 16 ∨ w = 256) (h : Nat) (seed : Bytes)
    (SK : Rfc8391.SecretKey) (hk : rfcKey S hf w h seed = some SK) : ∀ (cs : List Call) (i : Nat),
    rfcRun (hf.prim S) w h { SK with idx := i } cs =
      some ((Spec.counterRun (2 ^ h) (seedSignature S hf w h seed) i cs).1,
        { SK with idx := (Spec.counterRun (2 ^ h) (seedSignature S hf w h seed) i cs).2 }) := by
  intro cs
  rw [rfcKey_eq S hf hw] at hk
  have hk := Option.some.inj hk
  subst hk
  induction cs with
  | nil => intro i; rfl
  | cons c cs ih =>
    intro i
    cases c with
    | setIndex n =>
      rw [rfcRun, Spec.counterRun, Spec.counterCall]
      simp only at ih ⊢
      split
      · rw [if_neg (by omega), ih]
        rfl
      · rw [if_pos (by omega), ih]
        rfl
    | sign M =>
      rw [rfcRun, Spec.counterRun, Spec.counterCall]
      have hsig := Rfc8391.sign_seedKeys (out32 S hf) hw h ((shake256 96 seed).take 32)
        (((shake256 96 seed).drop 32).take 32) ((shake256 96 seed).drop 64) i M
      simp only at ih ⊢
      split
      · rw [hsig]
        simp_all [seedSignature]
      · simp_all

/-- C88 (fast signer, histories). Over any history of calls an `XmssFast` replies as a signer of RFC 8391 with the key of algorithm 10
would, and ends at its index. -/
theorem C88_fast_history (S : Sha256) (seed : Bytes) (height : UInt8) (hf : HashFn) (af : Nat) (o0 : XmssFast)
    (hnew : XmssFast.new S seed height hf.toNat af = ok o0) (cs : List Call) :
    ∃ SK rs SK' o, rfcKey S hf 16 height.toNat seed = some SK ∧ rfcRun (hf.prim S) 16 height.toNat SK cs = some (rs, SK') ∧
      runCalls (XmssFast.call S) o0 cs = some (rs, o) ∧ o.getIndex = ok SK'.idx := by
  obtain ⟨o, h1, h2⟩ := C19_fast_refines_counter S seed height hf af o0 hnew cs
  have hk := rfcKey_eq S hf (w := 16) (by omega) height.toNat seed
  exact ⟨_, _, _, o, hk, rfcRun_counter S hf (by omega) height.toNat seed _ hk cs 0, h1, h2⟩

/-- C88 (Rust port, histories). So does a Rust `XMSSFast` with `w = 16`, in both build modes, if the messages are within the limits of
C53. -/
theorem C88_rust_history (b : Rs.Build) (S : Sha256) (seed : Bytes) (height : UInt8) (hf : HashFn) (hs : seed.length = 48)
    (hh : GoodHeight height) (o0 : Rs.XMSSFast) (hnew : Rs.XMSSFast.new b S seed height hf 16 = .ok o0) (cs : List Call)
    (hshort : ∀ m, Call.sign m ∈ cs → Spec.rustShort hf m) :
    ∃ SK rs SK' o, rfcKey S hf 16 height.toNat seed = some SK ∧ rfcRun (hf.prim S) 16 height.toNat SK cs = some (rs, SK') ∧
      runCalls (Rs.XMSSFast.call b S) o0 cs = some (rs, o) ∧ o.getIndex = .ok SK'.idx := by
  obtain ⟨c0, hc⟩ := (C39_fast_succeeds S seed height hf.toNat 0).mpr ⟨hs, hh, by cases hf <;> decide⟩
  obtain ⟨rs, o, c, i, h1, h2, h3, h4⟩ := C52_same_as_cpp b S seed height hf hs hh o0 c0 hnew hc cs hshort
  obtain ⟨SK, rs', SK', c', k1, k2, k3, k4⟩ := C88_fast_history S seed height hf 0 c0 hc cs
  rw [h2] at k3
  cases k3
  rw [h4] at k4
  cases k4
  exact ⟨SK, rs, SK', o, k1, k2, h1, h3⟩

/-! ### Non-vacuity -/

/-- A signer with odd one-time keys (chain `j` of leaf `i` starts at 32 times the byte `i + j`), height 6 and `w = 4`. -/
example : ∃ SK, Rfc8391.XMSS_keyGen (HashFn.shake_256.prim toySha) 4 6
      (fun i => (List.range (Rfc8391.len 4)).map fun j => List.replicate 32 (UInt8.ofNat (i + j))) [] (List.replicate 32 9) = some SK ∧
    ∃ Sig SK', Rfc8391.XMSS_sign (HashFn.shake_256.prim toySha) 4 6 [1, 2, 3] { SK with idx := 63 } = some (Sig, SK') ∧
      verify toySha [1, 2, 3] Sig ([2, 3, 0] ++ SK.root ++ SK.SEED) 4 = ok true := by
  obtain ⟨SK, h1, -, h⟩ := C88_foreign toySha .shake_256 4 (by decide) 6 (by decide) (by decide) (by decide)
    (fun i => (List.range (Rfc8391.len 4)).map fun j => List.replicate 32 (UInt8.ofNat (i + j)))
    (fun i => ⟨by simp, fun x hx => by obtain ⟨j, -, rfl⟩ := List.mem_map.mp hx; exact List.length_replicate⟩) [] (List.replicate 32 9) rfl
  obtain ⟨Sig, SK', h2, -, h3⟩ := h 63 [1, 2, 3] (by decide)
  exact ⟨SK, h1, Sig, SK', h2, h3⟩

/-- An `XmssFast` of height 10 with SHAKE128, after a signature, a jump to index 1000 and a refused one: OID 7 of the RFC. -/
theorem demo_rfc (S : Sha256) (seed : Bytes) (hs : seed.length = 48) (msg : Bytes) : ∃ o0 rs o pk sig o',
    XmssFast.new S seed 10 1 0 = ok o0 ∧
    runCalls (XmssFast.call S) o0 [.sign [1], .setIndex 1000, .setIndex 3] = some (rs, o) ∧ o.getPK = ok pk ∧
    o.sign S msg = .ret sig o' ∧ Rfc8391.verify (rfcHashes S) (Rfc8391.toByte 7 4 ++ pk.drop 3) msg sig = true := by
  obtain ⟨o0, h⟩ := (C39_fast_succeeds S seed 10 1 0).mpr ⟨hs, ⟨by decide, by decide, by decide⟩, by omega⟩
  obtain ⟨o, h1, h2⟩ := C19_fast_refines_counter S seed 10 .shake_128 0 o0 h [.sign [1], .setIndex 1000, .setIndex 3]
  obtain ⟨pk, sig, o', h3, h4, h5⟩ := C88_fast_registered S 7 .SHAKE128 10 rfl seed 0 o0 h _ _ o h1 1000 h2 (by decide) msg
  exact ⟨o0, _, o, pk, sig, o', h, h1, h3, h4, h5⟩

example := demo_rfc toySha zeroSeed rfl [5]

/-- The history of `demo_rfc` on a C++ and on a Rust object: the same replies, those of a signer of the RFC. -/
theorem demo_rfc_history (S : Sha256) (seed : Bytes) (hs : seed.length = 48) : ∃ c0 o0 SK rs SK' c o,
    XmssFast.new S seed 4 1 0 = ok c0 ∧ Rs.XMSSFast.new .release S seed 4 .shake_128 16 = .ok o0 ∧
    rfcRun (HashFn.shake_128.prim S) 16 4 SK [.sign [1], .setIndex 10, .setIndex 3, .sign []] = some (rs, SK') ∧ SK'.idx = 11 ∧
    runCalls (XmssFast.call S) c0 [.sign [1], .setIndex 10, .setIndex 3, .sign []] = some (rs, c) ∧
    runCalls (Rs.XMSSFast.call .release S) o0 [.sign [1], .setIndex 10, .setIndex 3, .sign []] = some (rs, o) := by
  obtain ⟨c0, h⟩ := (C39_fast_succeeds S seed 4 1 0).mpr ⟨hs, goodHeight4, by omega⟩
  obtain ⟨p, k, q, o0, e1, -⟩ := Rs.fast_new_rs (S := S) .release seed 4 .shake_128 (w := 16) (by omega) hs goodHeight4
  obtain ⟨SK, rs, SK', c, h1, h2, h3, h4⟩ := C88_fast_history S seed 4 .shake_128 0 c0 h [.sign [1], .setIndex 10, .setIndex 3, .sign []]
  obtain ⟨SK2, rs2, SK2', o, k1, k2, k3, k4⟩ := C88_rust_history .release S seed 4 .shake_128 hs goodHeight4 o0 e1
    [.sign [1], .setIndex 10, .setIndex 3, .sign []] (by
      intro m hm
      simp only [List.mem_cons, Call.sign.injEq, reduceCtorEq, List.not_mem_nil, or_false, false_or] at hm
      rcases hm with rfl | rfl <;> (show _ < 40; decide))
  rw [h1] at k1
  cases k1
  rw [h2] at k2
  cases k2
  refine ⟨c0, o0, SK, rs, SK', c, o, h, e1, h2, ?_, h3, k3⟩
  have h5 := rfcRun_counter S .shake_128 (w := 16) (by omega) (UInt8.toNat 4) seed SK h1 [.sign [1], .setIndex 10, .setIndex 3, .sign []] 0
  have h0 : SK = { SK with idx := 0 } := by
    rw [rfcKey_eq S .shake_128 (by omega)] at h1
    rw [← Option.some.inj h1]
  rw [← h0, h2] at h5
  have := congrArg Prod.snd (Option.some.inj h5)
  simp only at this
  rw [this]
  rfl

example := demo_rfc_history toySha zeroSeed rfl

/-- Key and signature of the sizes of OID 0x10, for `C88_registered` and `C88_verify`: both verifiers give the same answer. -/
example : verify toySha [1] (List.replicate (4 + 32 + 32 * 67 + 32 * 10) 7) ([2, 5, 0] ++ List.replicate 32 1 ++ List.replicate 32 2) 16 =
    ok (Rfc8391.verify (rfcHashes toySha) (Rfc8391.toByte 0x10 4 ++ List.replicate 32 1 ++ List.replicate 32 2) [1]
      (List.replicate (4 + 32 + 32 * 67 + 32 * 10) 7)) :=
  C88_registered toySha 0x10 .SHAKE256 10 rfl _ _ rfl rfl _ _

/-- The simple signer: an object of height 4 after two signatures. -/
example : ∃ o rs o', XmssBasic.new toySha zeroSeed 4 1 0 16 = ok o ∧
    runCalls (XmssBasic.call toySha) o [.sign [1], .setIndex 0, .sign [2]] = some (rs, o') ∧
    ∃ SK pk, rfcKey toySha .shake_128 16 4 zeroSeed = some SK ∧ o'.getPK = ok pk ∧ keyRoot pk = SK.root := by
  obtain ⟨o0, rs, o, s1, s2, h1, h2, _⟩ := C18_basic_reuse_refuted toySha zeroSeed 4 .shake_128 0 16 (by decide)
    (by decide) goodHeight4 (by decide) [1] [2]
  obtain ⟨SK, pk, g1, g2, g3, -⟩ := C88_basic_sign toySha zeroSeed 4 .shake_128 0 16 (by decide) goodHeight4 (by decide) o0 h1 _ rs o h2
  exact ⟨o0, rs, o, h1, h2, SK, pk, g1, g2, g3⟩

/-- A tall one, with `w = 256`. -/
theorem demo_rfc_tall (S : Sha256) (seed : Bytes) (hs : seed.length = 48) : ∃ o SK pk, XmssBasic.new S seed 30 2 0 256 = ok o ∧
    rfcKey S .shake_256 256 30 seed = some SK ∧ o.getPK = ok pk ∧ keyRoot pk = SK.root := by
  obtain ⟨o, SK, pk, h1, h2, h3, -, -, -, h4, -⟩ := C88_basic_key S seed 30 .shake_256 0 256 (by decide) hs
    ⟨by decide, by decide, by decide⟩
  exact ⟨o, SK, pk, h1, h2, h3, h4⟩

example := demo_rfc_tall toySha zeroSeed rfl

/-- The messages of `C88_rust_verify`: with SHAKE128, below 40 bytes. -/
example : Spec.rustShort .sha2_256 (List.replicate 1000 5) ∧ Spec.rustShort .shake_128 (List.replicate 39 5) ∧ keyHash [1, 2] = 1 := by
  refine ⟨?_, ?_, rfl⟩
  · show (List.replicate 1000 (5 : UInt8)).length + 128 < 2 ^ 32
    rw [List.length_replicate]; decide
  · show (List.replicate 39 (5 : UInt8)).length < 40
    rw [List.length_replicate]; decide

end Qrl.Props
