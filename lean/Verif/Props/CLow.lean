import Verif.Proof.CLow
import Verif.Props.Price
/-!
# C89: the functions of src/xmss-alt on the caller's own buffers
-/

namespace Qrl.Props

open Outcome Qrl.Spec

theorem setParams_h {h w : Nat} {p : XmssParams} (hp : xmssSetParams h w = ok p) : p.h = h ∧ wotsSetParams w = ok p.wots := by
  rw [xmssSetParams] at hp
  split at hp
  · cases hp
  · obtain ⟨wp, h1, h2⟩ := bind_eq_ok.mp hp
    cases h2
    exact ⟨rfl, h1⟩

theorem setParams_ok {w : Nat} (hw : w = 2 ∨ w = 4 ∨ w = 16 ∨ w = 256) {p : WotsParams} (hp : wotsSetParams w = ok p) :
    ∃ k q, SpecParams w p k q ∧ 1 ≤ p.len ∧ p.len ≤ 300 := by
  obtain ⟨p', k, q, e, hsp, h1, h2, -⟩ := base_ok hw
  rw [e] at hp
  cases hp
  exact ⟨k, q, hsp, h1, h2⟩

theorem demo_params : ∃ p, xmssSetParams 4 16 = ok p ∧ wotsSetParams 16 = ok p.wots := by
  obtain ⟨p, k, q, e, -⟩ := base_ok (w := 16) (by omega)
  refine ⟨⟨p, 4⟩, ?_, e⟩
  rw [xmssSetParams, if_neg (by omega), e]
  rfl

theorem chunks_append {a t : Bytes} {off k : Nat} (h : off + 32 * k ≤ a.length) : chunks (a ++ t) off k = chunks a off k := by
  rw [chunks, chunks]
  refine List.map_congr_left fun j hj => ?_
  rw [List.mem_range] at hj
  rw [List.drop_append_of_le_length (by omega), List.take_append_of_le_length (by rw [List.length_drop]; omega)]

/-- What follows the signature is not looked at. -/
theorem rootFromSig_append (G : Bytes → Bytes) (w h : Nat) (root seed msg a t : Bytes) (hl : signatureSize w h ≤ a.length) :
    rootFromSig G w h root seed msg (a ++ t) = rootFromSig G w h root seed msg a := by
  rw [signatureSize] at hl
  simp only [rootFromSig]
  rw [List.take_append_of_le_length (by omega), List.drop_append_of_le_length (by omega),
    List.take_append_of_le_length (by rw [List.length_drop]; omega), chunks_append (by omega), chunks_append (by omega)]

/-! ### `xmss_Verifysig` -/

/-- C89. `xmss_Verifysig` on any buffers, for every height but 0: it reads 64 bytes of public key, a whole signature and `msglen`
bytes of message, and is undefined if one of them is not there; otherwise it returns 0 exactly when the signature leads to the
root in the public key, -1 when it does not, and leaves the message buffer as it is. -/
theorem C89_verifysig (S : Sha256) (hf : HashFn) {w : Nat} (hw : w = 2 ∨ w = 4 ∨ w = 16 ∨ w = 256) {p : WotsParams}
    (hp : wotsSetParams w = ok p) (msg : Bytes) (msglen : Nat) (sig pk : Bytes) (h : UInt8) (h0 : h ≠ 0) :
    xmssVerifysigBuf S hf p msg msglen sig pk h =
      if pk.length < 64 ∨ sig.length < signatureSize w h.toNat ∨ msg.length < msglen then ub
      else ok (if rootFromSig (hf.prim S) w h.toNat (pk.take 32) ((pk.drop 32).take 32) (msg.take msglen) sig = pk.take 32 then 0
        else -1, msg) := by
  obtain ⟨k, q, hsp, h1, h2⟩ := setParams_ok hw hp
  rw [(xmssVerifysigBuf_eq S hf hsp (by omega) msg msglen sig pk h h1).2 h0, signatureSize, hsp.len]

example (msg pk : Bytes) (hpk : pk.length = 64) : ∃ p, wotsSetParams 16 = ok p ∧
    xmssVerifysigBuf toySha .shake_128 p msg 0 (List.replicate 2307 0) pk 4 = ub ∧
    ∃ c, xmssVerifysigBuf toySha .shake_128 p msg 0 (List.replicate 2308 0) pk 4 = ok (c, msg) := by
  obtain ⟨p, -, e⟩ := demo_params
  have hs : signatureSize 16 (4 : UInt8).toNat = 2308 := by rw [signatureSize, lenW_values.2.2.1]; rfl
  refine ⟨_, e, ?_, ?_⟩
  · rw [C89_verifysig _ _ (by omega) e _ _ _ _ _ (by decide), hs, if_pos (by simp only [List.length_replicate]; omega)]
  · rw [C89_verifysig _ _ (by omega) e _ _ _ _ _ (by decide), hs, if_neg (by simp only [List.length_replicate]; omega)]
    exact ⟨_, rfl⟩

/-- C89. With height 0 the loop over the authentication path runs `2^32` times (`h - 1` in `uint32_t`): undefined for every
signature buffer of less than 128 GiB. -/
theorem C89_verifysig_height0 (S : Sha256) (hf : HashFn) {w : Nat} (hw : w = 2 ∨ w = 4 ∨ w = 16 ∨ w = 256) {p : WotsParams}
    (hp : wotsSetParams w = ok p) (msg : Bytes) (msglen : Nat) (sig pk : Bytes) (hs : sig.length < 2 ^ 37) :
    xmssVerifysigBuf S hf p msg msglen sig pk 0 = ub := by
  obtain ⟨k, q, hsp, h1, h2⟩ := setParams_ok hw hp
  exact (xmssVerifysigBuf_eq S hf hsp (by omega) msg msglen sig pk 0 h1).1 rfl hs

example (msg pk : Bytes) : ∃ p, wotsSetParams 16 = ok p ∧
    xmssVerifysigBuf toySha .shake_128 p msg 0 (List.replicate 2308 0) pk 0 = ub := by
  obtain ⟨p, -, e⟩ := demo_params
  exact ⟨_, e, C89_verifysig_height0 _ _ (by omega) e _ _ _ _ (by simp only [List.length_replicate]; omega)⟩

/-- C89. The comment in xmss_common.h is wrong: it says that `msg` is a pure output which carries the message that follows the
signature in `sig_msg` when verification succeeds. The message that is checked is the one in `msg`; whatever follows the signature
is ignored, and `msg` still holds what the caller put there. -/
theorem C89_header_refuted (S : Sha256) (hf : HashFn) {w : Nat} (hw : w = 2 ∨ w = 4 ∨ w = 16 ∨ w = 256) {p : WotsParams}
    (hp : wotsSetParams w = ok p) (msg : Bytes) (msglen : Nat) (sig pk : Bytes) (h : UInt8) (h0 : h ≠ 0) (buf : Bytes)
    (hs : sig.length = signatureSize w h.toNat) (hok : xmssVerifysigBuf S hf p msg msglen sig pk h = ok (0, buf)) (other : Bytes) :
    xmssVerifysigBuf S hf p msg msglen (sig ++ other) pk h = ok (0, msg) := by
  rw [C89_verifysig S hf hw hp _ _ _ _ h h0] at hok ⊢
  rw [rootFromSig_append _ _ _ _ _ _ _ _ (by omega), List.length_append]
  split at hok
  · cases hok
  · next hc =>
    rw [if_neg (by omega)]
    split at hok
    · next he => rw [if_pos he]
    · cases hok

/-! ### `xmss_Genkeypair`, `xmss_Signmsg` -/

/-- C89. `xmss_Genkeypair` on any buffers: it reads 48 bytes of seed, writes 64 bytes of public key and 132 bytes of secret key, is
undefined if one of them is not there or the height is 32 or more, and leaves what follows in the buffers alone. -/
theorem C89_genkeypair (S : Sha256) (hf : HashFn) {h w : Nat} (hw : w = 2 ∨ w = 4 ∨ w = 16 ∨ w = 256) {p : XmssParams}
    (hp : xmssSetParams h w = ok p) (pk sk seed : Bytes) :
    xmssGenkeypairBuf S hf p pk sk seed =
      if 32 ≤ h ∨ pk.length < 64 ∨ sk.length < 132 ∨ seed.length < 48 then ub
      else
        let x := shake256 96 (seed.take 48)
        let root := node (hf.prim S) w (lenW w) (x.take 32) (x.drop 64) h 0
        ok (0, root ++ x.drop 64 ++ pk.drop 64, List.replicate 4 0 ++ x ++ root ++ sk.drop 132) := by
  obtain ⟨e1, e2⟩ := setParams_h hp
  obtain ⟨k, q, hsp, h1, h2⟩ := setParams_ok hw e2
  rw [xmssGenkeypairBuf_eq S hf p h1, e1, hsp.len, hsp.pw]

example (seed : Bytes) (hs : seed.length = 48) : ∃ p, xmssSetParams 4 16 = ok p ∧
    xmssGenkeypairBuf toySha .shake_128 p (List.replicate 64 1) (List.replicate 131 1) seed = ub ∧
    ∃ pk sk, xmssGenkeypairBuf toySha .shake_128 p (List.replicate 64 1) (List.replicate 140 1) seed = ok (0, pk, sk) := by
  obtain ⟨p, e, -⟩ := demo_params
  refine ⟨p, e, ?_, ?_⟩
  · rw [C89_genkeypair _ _ (by omega) e, if_pos (by simp only [List.length_replicate]; omega)]
  · rw [C89_genkeypair _ _ (by omega) e, if_neg (by simp only [List.length_replicate]; omega)]
    exact ⟨_, _, rfl⟩

theorem reindexed {sk : Bytes} {K : KeyParts} {i : Nat} (h : sk = K.sk i ++ sk.drop 132) (j : Nat) :
    K.sk j ++ sk.drop 132 = be 4 j ++ sk.drop 4 := by
  have e := K.put i j (sk.drop 132)
  rw [← h, idxBytes_eq] at e
  have hl : (K.sk i).length ≤ sk.length := by rw [h, List.length_append]; omega
  have := K.length_sk i
  rw [putAt_ok (by rw [length_be]; omega), List.take_zero, List.nil_append, length_be] at e
  exact (Outcome.ok.inj e).symm

/-- C89. `xmss_Signmsg` on any buffers, for any key buffer of at least 132 bytes, whatever it holds: it signs with the index and the
seeds in the buffer, keys the digest with the root in the buffer, writes one signature and adds one to the index. It is undefined if
the signature or message buffer is too short, if the height is 26 or more, or if the index is not in the tree: there is no other
check that the key is used up. -/
theorem C89_signmsg (S : Sha256) (hf : HashFn) {h w : Nat} (hw : w = 2 ∨ w = 4 ∨ w = 16 ∨ w = 256) {p : XmssParams}
    (hp : xmssSetParams h w = ok p) (sk : Bytes) (hsk : 132 ≤ sk.length) (sig msg : Bytes) (msglen : Nat) :
    let idx := byteVal (sk.take 4)
    xmssSignmsgBuf S hf p sk sig msg msglen =
      if sig.length < signatureSize w h ∨ msg.length < msglen ∨ 25 < h ∨ 2 ^ h ≤ idx then ub
      else ok (0, be 4 (idx + 1) ++ sk.drop 4,
        bufferSignature (hf.prim S) w h ((sk.drop 4).take 32) ((sk.drop 36).take 32) ((sk.drop 68).take 32) ((sk.drop 100).take 32)
          idx idx (msg.take msglen) ++ sig.drop (signatureSize w h)) := by
  intro idx
  obtain ⟨e1, e2⟩ := setParams_h hp
  obtain ⟨k, q, hsp, h1, h2⟩ := setParams_ok hw e2
  obtain ⟨K, k1, k2, k3, k4, k5⟩ := key_buffer hsk
  have hidx : idx < 2 ^ 32 := by
    have := byteVal_lt (sk.take 4)
    rw [List.length_take, Nat.min_eq_left (by omega)] at this
    exact this
  have hh : 1 ≤ h ∧ h % 2 = 0 := by
    rw [xmssSetParams] at hp
    split at hp
    · cases hp
    · omega
  have := xmssSignmsgBuf_eq S hf hsp h1 K idx hidx (by omega) (by omega) (sk.drop 132) sig msg msglen
  rw [← k5, reindexed k5, k1, k2, k3, k4, e1, ← hsp.len] at this
  rw [this, signatureSize]

example : ∃ p, xmssSetParams 4 16 = ok p ∧
    xmssSignmsgBuf toySha .shake_128 p ([0, 0, 0, 16] ++ List.replicate 128 7) (List.replicate 2308 0) [1, 2] 2 = ub ∧
    ∃ sk sig, xmssSignmsgBuf toySha .shake_128 p ([0, 0, 0, 15] ++ List.replicate 128 7) (List.replicate 2308 0) [1, 2] 2 =
      ok (0, sk, sig) := by
  obtain ⟨p, e, -⟩ := demo_params
  have hs : signatureSize 16 4 = 2308 := by rw [signatureSize, lenW_values.2.2.1]
  have h1 : byteVal (([0, 0, 0, 16] ++ List.replicate 128 7 : Bytes).take 4) = 16 := rfl
  have h2 : byteVal (([0, 0, 0, 15] ++ List.replicate 128 7 : Bytes).take 4) = 15 := rfl
  refine ⟨p, e, ?_, ?_⟩
  · have := C89_signmsg toySha .shake_128 (by omega) e ([0, 0, 0, 16] ++ List.replicate 128 7) (by simp) (List.replicate 2308 0) [1, 2] 2
    simp only [h1] at this
    rw [this, if_pos (by omega)]
  · have := C89_signmsg toySha .shake_128 (by omega) e ([0, 0, 0, 15] ++ List.replicate 128 7) (by simp) (List.replicate 2308 0) [1, 2] 2
    simp only [h2, hs] at this
    rw [this, if_neg (by simp only [List.length_replicate, List.length_cons, List.length_nil]; omega)]
    exact ⟨_, _, rfl⟩

/-- C89. A key buffer of less than 132 bytes is undefined for both signing functions. -/
theorem C89_signmsg_short (S : Sha256) (hf : HashFn) (p : XmssParams) (sk : Bytes) (hsk : sk.length < 132) (sig msg : Bytes) (msglen : Nat)
    (st : BdsState) : xmssSignmsgBuf S hf p sk sig msg msglen = ub ∧ xmssfastSignmsgBuf S hf p sk st sig msg msglen = ub := by
  rw [xmssSignmsgBuf, xmssfastSignmsgBuf]
  by_cases c1 : sk.length < 4
  · rw [be32At_short c1]; exact ⟨rfl, rfl⟩
  rw [be32At_eq (by omega)]
  by_cases c2 : sk.length < 36
  · simp only [ok_bind, slice_short (show sk.length < 4 + 32 by omega)]; exact ⟨rfl, rfl⟩
  by_cases c3 : sk.length < 68
  · simp only [ok_bind, slice_eq_ok (show 4 + 32 ≤ sk.length by omega), slice_short (show sk.length < 36 + 32 by omega)]; exact ⟨rfl, rfl⟩
  by_cases c4 : sk.length < 100
  · simp only [ok_bind, slice_eq_ok (show 4 + 32 ≤ sk.length by omega), slice_eq_ok (show 36 + 32 ≤ sk.length by omega),
      slice_short (show sk.length < 68 + 32 by omega)]
    exact ⟨rfl, rfl⟩
  have hp : ∀ i, ∃ b, putAt sk 0 (idxBytes i) = ok b ∧ b.length = sk.length := fun i =>
    ⟨_, putAt_ok (by rw [idxBytes_eq, length_be]; omega), by
      simp only [List.length_append, List.length_take, List.length_drop, idxBytes_eq, length_be]; omega⟩
  obtain ⟨b, e, hb⟩ := hp (byteVal (sk.take 4) + 1)
  simp only [ok_bind, slice_eq_ok (show 4 + 32 ≤ sk.length by omega), slice_eq_ok (show 36 + 32 ≤ sk.length by omega),
    slice_eq_ok (show 68 + 32 ≤ sk.length by omega), e, slice_short (show b.length < 100 + 32 by omega)]
  exact ⟨rfl, rfl⟩

example (p : XmssParams) : xmssSignmsgBuf toySha .sha2_256 p (List.replicate 131 0) (List.replicate 9999 0) [] 0 = ub :=
  (C89_signmsg_short toySha .sha2_256 p _ (by rw [List.length_replicate]; omega) _ [] 0 (bdsInit 4)).1

/-- C89. A key made by `xmss_Genkeypair` signs and its signatures are accepted: with any buffers that are long enough, for every
message, as often as the tree has leaves. `sk i` is the key after `i` signatures. -/
theorem C89_roundtrip (S : Sha256) (hf : HashFn) {h w : Nat} (hw : w = 2 ∨ w = 4 ∨ w = 16 ∨ w = 256) {p : XmssParams}
    (hp : xmssSetParams h w = ok p) (h24 : h ≤ 25) (pk0 sk0 seed : Bytes) (hpk : 64 ≤ pk0.length) (hsk : 132 ≤ sk0.length)
    (hseed : 48 ≤ seed.length) : ∃ (pk : Bytes) (sk : Nat → Bytes),
    xmssGenkeypairBuf S hf p pk0 sk0 seed = ok (0, pk, sk 0) ∧
    ∀ i : Nat, i < 2 ^ h → ∀ (buf msg : Bytes) (msglen : Nat), signatureSize w h ≤ buf.length → msglen ≤ msg.length →
      ∃ sig, xmssSignmsgBuf S hf p (sk i) buf msg msglen = ok (0, sk (i + 1), sig) ∧
        ∀ m : Bytes, m.take msglen = msg.take msglen → msglen ≤ m.length →
          xmssVerifysigBuf S hf p.wots m msglen sig pk (UInt8.ofNat h) = ok (0, m) := by
  obtain ⟨e1, e2⟩ := setParams_h hp
  obtain ⟨k, q, hsp, h1, h2⟩ := setParams_ok hw e2
  have hh : 1 ≤ h ∧ h % 2 = 0 := by
    rw [xmssSetParams] at hp
    split at hp
    · cases hp
    · omega
  have hw1 : 1 ≤ lenW w := lenW_pos hw
  refine ⟨(keyOf S hf w h hw1 (seed.take 48)).root ++ (keyOf S hf w h hw1 (seed.take 48)).ps ++ pk0.drop 64,
    fun i => (keyOf S hf w h hw1 (seed.take 48)).sk i ++ sk0.drop 132, ?_, ?_⟩
  · rw [C89_genkeypair S hf hw hp, if_neg (by omega)]
    dsimp only
    rw [← keyOf_sk0]
    rfl
  · intro i hi buf msg msglen hb hm
    generalize hK : keyOf S hf w h hw1 (seed.take 48) = K
    have hroot : K.root = node (hf.prim S) w (lenW w) K.skSeed K.ps h 0 := by rw [← hK]; rfl
    have h32 : i < 2 ^ 32 := Nat.lt_of_lt_of_le hi (Nat.pow_le_pow_right (by omega) (by omega))
    have hs := xmssSignmsgBuf_eq S hf hsp h1 K i h32 (by omega) (by omega) (sk0.drop 132) buf msg msglen
    rw [e1, ← hsp.len] at hs
    rw [signatureSize] at hb
    rw [if_neg (by omega)] at hs
    refine ⟨_, hs, fun m hmm hml => ?_⟩
    have hu : (UInt8.ofNat h).toNat = h := UInt8.toNat_ofNat_of_lt' (by rw [UInt8.size]; omega)
    rw [C89_verifysig S hf hw e2 _ _ _ _ _ (by intro h0; rw [h0] at hu; exact absurd hu (by simp; omega)), hu]
    have hbs : bufferSignature (hf.prim S) w h K.skSeed K.skPrf K.ps K.root i i (msg.take msglen) =
        signature (hf.prim S) w h K.skSeed K.skPrf K.ps i (msg.take msglen) := by rw [bufferSignature, hroot]; rfl
    have hsl : (signature (hf.prim S) w h K.skSeed K.skPrf K.ps i (msg.take msglen)).length = signatureSize w h := by
      rw [length_signature S hf hsp h1, signatureSize, hsp.len]
    have l4 := K.l4
    have l3 := K.l3
    rw [if_neg (by simp only [List.length_append, hbs, hsl]; omega), hbs, rootFromSig_append _ _ _ _ _ _ _ _ (by omega)]
    have t1 : (K.root ++ K.ps ++ pk0.drop 64).take 32 = K.root := by rw [List.append_assoc, List.take_left' l4]
    have t2 : ((K.root ++ K.ps ++ pk0.drop 64).drop 32).take 32 = K.ps := by
      rw [List.append_assoc, List.drop_left' l4, List.take_left' l3]
    rw [t1, t2, hmm, if_pos]
    have := rootFromSig_signature S hf hsp h1 h (by omega) K.skSeed K.skPrf K.ps i hi (msg.take msglen)
    rw [← hroot] at this
    exact this

/-- The header's claim fails on a signature that is accepted: `msg` holds what the caller put there and not what follows. -/
example (seed : Bytes) (hs : seed.length = 48) : ∃ (p : WotsParams) (sig pk : Bytes),
    xmssVerifysigBuf toySha .shake_128 p [1, 2] 2 (sig ++ [9, 9]) pk 4 = ok (0, [1, 2]) := by
  obtain ⟨p, e, e'⟩ := demo_params
  obtain ⟨pk, sk, -, h⟩ := C89_roundtrip toySha .shake_128 (by omega) e (by omega) (List.replicate 64 1) (List.replicate 140 1) seed
    (by simp) (by simp) (by omega)
  have hz : signatureSize 16 4 = 2308 := by rw [signatureSize, lenW_values.2.2.1]
  obtain ⟨sig, h1, h2⟩ := h 15 (by omega) (List.replicate 2308 0) [1, 2] 2 (by rw [hz, List.length_replicate]) (by simp)
  have hl := h2 [1, 2] rfl (by simp)
  rw [C89_verifysig _ _ (by omega) e' _ _ _ _ _ (by decide)] at hl
  refine ⟨p.wots, sig, pk, ?_⟩
  rw [show (UInt8.ofNat 4 : UInt8) = 4 from rfl] at hl
  rw [C89_verifysig _ _ (by omega) e' _ _ _ _ _ (by decide)]
  split at hl
  · cases hl
  next hc =>
  rw [rootFromSig_append _ _ _ _ _ _ _ _ (by omega), if_neg (by rw [List.length_append]; omega)]
  split at hl
  · next hr => rw [if_pos hr]
  · cases hl

/-! ### The fast functions -/

/-- C89. `xmssfast_Genkeypair` with an odd height in the parameters returns -1 and touches nothing. -/
theorem C89_fast_genkeypair_odd (S : Sha256) (hf : HashFn) (p : XmssParams) (hodd : p.h % 2 = 1) (pk sk seed : Bytes) (st : BdsState) :
    xmssfastGenkeypairBuf S hf p pk sk st seed = ok (-1, pk, sk, st) := by
  rw [xmssfastGenkeypairBuf, if_pos (by rw [Nat.and_one_is_mod]; omega)]

example (p : WotsParams) (pk sk seed : Bytes) (st : BdsState) :
    xmssfastGenkeypairBuf toySha .sha2_256 ⟨p, 5⟩ pk sk st seed = ok (-1, pk, sk, st) := C89_fast_genkeypair_odd _ _ _ (show 5 % 2 = 1 by decide) ..

/-- C89. `xmssfast_Genkeypair` on any buffers, with the arrays of the state as `XmssFast` allocates them and nothing in them: it reads 48
bytes of seed, writes 64 bytes of public key and 132 bytes of secret key, is undefined if one of them is not there, and makes the
key that `xmss_Genkeypair` makes. -/
theorem C89_fast_genkeypair (S : Sha256) (hf : HashFn) {h w : Nat} (hw : w = 2 ∨ w = 4 ∨ w = 16 ∨ w = 256) {p : XmssParams}
    (hp : xmssSetParams h w = ok p) (h30 : h ≤ 30) (pk sk seed : Bytes) :
    (pk.length < 64 ∨ sk.length < 132 ∨ seed.length < 48 → xmssfastGenkeypairBuf S hf p pk sk (bdsInit h) seed = ub) ∧
    (64 ≤ pk.length → 132 ≤ sk.length → 48 ≤ seed.length → ∃ pk' sk' st,
      xmssfastGenkeypairBuf S hf p pk sk (bdsInit h) seed = ok (0, pk', sk', st) ∧
      xmssGenkeypairBuf S hf p pk sk seed = ok (0, pk', sk')) := by
  obtain ⟨e1, e2⟩ := setParams_h hp
  obtain ⟨k, q, hsp, h1, h2⟩ := setParams_ok hw e2
  have hh : 4 ≤ h ∧ h % 2 = 0 := by
    rw [xmssSetParams] at hp
    split at hp
    · cases hp
    · omega
  obtain ⟨st, -, e⟩ := xmssfastGenkeypairBuf_eq S hf p h1 (by omega) (by omega) (by omega) pk sk seed
  rw [e1] at e
  refine ⟨fun hs => by rw [e, if_pos hs], fun a b c => ?_⟩
  rw [if_neg (by omega)] at e
  refine ⟨_, _, st, e, ?_⟩
  rw [xmssGenkeypairBuf_eq S hf p h1, if_neg (by omega), e1]

theorem demo_gen (S : Sha256) (seed : Bytes) (hs : seed.length = 48) : ∃ p pk' sk' st, xmssSetParams 4 16 = ok p ∧
    xmssfastGenkeypairBuf S .shake_128 p (List.replicate 64 1) (List.replicate 140 1) (bdsInit 4) seed = ok (0, pk', sk', st) := by
  obtain ⟨p, e, -⟩ := demo_params
  obtain ⟨pk', sk', st, h, -⟩ := (C89_fast_genkeypair S .shake_128 (by omega) e (by omega) (List.replicate 64 1) (List.replicate 140 1)
    seed).2 (by simp) (by simp) (by omega)
  exact ⟨p, pk', sk', st, e, h⟩

example (seed : Bytes) (hs : seed.length = 48) : ∃ p pk' sk' st, xmssSetParams 4 16 = ok p ∧
    xmssfastGenkeypairBuf toySha .shake_128 p (List.replicate 64 1) (List.replicate 140 1) (bdsInit 4) seed = ok (0, pk', sk', st) :=
  demo_gen toySha seed hs

/-- C89. Every history of `xmssfast_update` and `xmssfast_Signmsg` on a key made by `xmssfast_Genkeypair`: the replies and the key
buffer are those of a counter. `xmssfast_update` refuses to go back and to leave the tree; `xmssfast_Signmsg` always returns 0,
even when the tree is used up. -/
theorem C89_fast_history (S : Sha256) (hf : HashFn) {h w : Nat} (hw : w = 2 ∨ w = 4 ∨ w = 16 ∨ w = 256) {p : XmssParams}
    (hp : xmssSetParams h w = ok p) (h30 : h ≤ 30) (pk sk seed : Bytes) (c : Int) (pk' sk' : Bytes) (st : BdsState)
    (hgen : xmssfastGenkeypairBuf S hf p pk sk (bdsInit h) seed = ok (c, pk', sk', st)) (cs : List CCall)
    (hcs : 2 ^ h + cs.length ≤ 2 ^ 32) :
    let x := shake256 96 (seed.take 48)
    (cRun S hf p (sk', st) cs).map (fun y => (y.1, y.2.1)) =
      (uncheckedRun (signatureSize w h) (2 ^ h) (writtenAt (hf.prim S) w h (x.take 32) ((x.drop 32).take 32) (x.drop 64)) 0 cs).map
        fun y => (y.1, be 4 y.2 ++ sk'.drop 4) := by
  intro x
  obtain ⟨e1, e2⟩ := setParams_h hp
  obtain ⟨k, q, hsp, h1, h2⟩ := setParams_ok hw e2
  have hh : 4 ≤ h ∧ h % 2 = 0 := by
    rw [xmssSetParams] at hp
    split at hp
    · cases hp
    · omega
  have hw1 : 1 ≤ lenW w := lenW_pos hw
  obtain ⟨st', hinv, e⟩ := xmssfastGenkeypairBuf_eq S hf p h1 (by omega) (by omega) (by omega) pk sk seed
  rw [e1, hgen] at e
  split at e
  · cases e
  next hc =>
  have e' := Outcome.ok.inj e
  obtain ⟨-, -, e3, e4⟩ := (by simpa using e' : c = 0 ∧ pk' = _ ∧ sk' = _ ∧ st = _)
  subst e4
  generalize hK : keyOf S hf w h hw1 (seed.take 48) = K
  have hsk : sk' = K.sk 0 ++ sk.drop 132 := by
    rw [e3, ← hK, ← keyOf_sk0, hsp.len, hsp.pw]
    simp only [List.append_assoc]
    rfl
  have k1 : K.skSeed = x.take 32 := by rw [← hK]; rfl
  have k2 : K.skPrf = (x.drop 32).take 32 := by rw [← hK]; rfl
  have k3 : K.ps = x.drop 64 := by rw [← hK]; rfl
  have k4 : K.root = node (hf.prim S) w (lenW w) K.skSeed K.ps h 0 := by rw [← hK]; rfl
  have hd : sk'.drop 132 = sk.drop 132 := by rw [hsk, List.drop_left' (K.length_sk 0)]
  have hinv' : BdsInv (node (hf.prim S) p.wots.w p.wots.len K.skSeed K.ps) p.h 0 (fun _ => none) st := by
    rw [k1, k3]; exact hinv
  have hrun := cRun_eq S hf hsp h1 (by omega) (by omega) (by omega) K hinv' (sk.drop 132) cs 0 (by rw [e1]; have := Nat.two_pow_pos h; omega)
  rw [show stAt S hf p K.skSeed K.ps st (min 0 (2 ^ p.h - 1)) = st by rw [Nat.zero_min]; rfl, ← hsk, e1] at hrun
  rw [hrun, Option.map_map]
  have hσ : (fun j m => bufferSignature (hf.prim S) w h K.skSeed K.skPrf K.ps K.root j (min j (2 ^ h - 1)) m) =
      writtenAt (hf.prim S) w h (x.take 32) ((x.drop 32).take 32) (x.drop 64) := by
    funext j m
    rw [writtenAt, ← k1, ← k2, ← k3, ← k4]
    by_cases hj : j < 2 ^ h
    · rw [if_pos hj, Nat.min_eq_left (by omega), bufferSignature, signature, k4]
    · rw [if_neg hj, Nat.min_eq_right (by omega)]
  rw [hσ]
  congr 1
  funext y
  simp only [Function.comp]
  rw [← reindexed (K := K) (i := 0) (by rw [hd]; exact hsk), hd]

/-- A history with a refused update, a skip to the last leaf and two signatures, the second of them beyond the tree. -/
example (seed buf : Bytes) (hs : seed.length = 48) (hb : buf.length = 2308) : ∃ p sk' st r1 r2 key, xmssSetParams 4 16 = ok p ∧
    (cRun toySha .shake_128 p (sk', st) [.update 16, .update 15, .sign buf [1] 1, .update 3, .sign buf [2] 1]).map (fun y => (y.1, y.2.1)) =
      some ([.threw .invalidArgument, .code 0, r1, .threw .invalidArgument, r2], key) := by
  obtain ⟨p, pk', sk', st, e, h⟩ := demo_gen toySha seed hs
  have := C89_fast_history toySha .shake_128 (by omega) e (by omega) _ _ seed 0 pk' sk' st h
    [.update 16, .update 15, .sign buf [1] 1, .update 3, .sign buf [2] 1] (by simp)
  have hz : signatureSize 16 4 = 2308 := by rw [signatureSize, lenW_values.2.2.1]
  simp only [uncheckedRun, hz, hb] at this
  rw [if_pos (by decide), if_neg (by decide), if_neg (by decide), if_pos (by decide), if_neg (by decide)] at this
  exact ⟨p, sk', st, _, _, _, e, this⟩

theorem length_bufferSignature (S : Sha256) (hf : HashFn) {w : Nat} (hw : w = 2 ∨ w = 4 ∨ w = 16 ∨ w = 256) (h : Nat)
    (skSeed skPrf ps root : Bytes) (i j : Nat) (m : Bytes) :
    (bufferSignature (hf.prim S) w h skSeed skPrf ps root i j m).length = signatureSize w h := by
  obtain ⟨p, k, q, hp, hsp, h1, h2, -⟩ := base_ok hw
  have hdl := length_wotsDigits hsp (digest (hf.prim S) (PRF (hf.prim S) skPrf (be 32 i)) root i m) (length_Hmsg ..)
  rw [bufferSignature, signatureSize]
  simp only [List.length_append, length_be, length_PRF]
  rw [length_flatten32 _ (mem_wotsSig S hf _ _ _ _), length_flatten32 _ (mem_authPath S hf _ _ _ _ _ _ (lenW_pos hw))]
  simp only [wotsSig, List.length_map, List.length_zipIdx, hdl, authPath, List.length_range, ← hsp.len]

/-- C89. A signature written when the tree is used up names an index that is not in the tree, and `xmss_Verifysig` rejects it, with
whatever follows it and for every message, unless two of the hash calls made by this verification and by key generation collide. -/
theorem C89_fast_beyond (S : Sha256) (hf : HashFn) {h w : Nat} (hw : w = 2 ∨ w = 4 ∨ w = 16 ∨ w = 256) {p : XmssParams}
    (hp : xmssSetParams h w = ok p) (h30 : h ≤ 30) (skSeed skPrf ps : Bytes) (hps : ps.length = 32) (i : Nat) (h1 : 2 ^ h ≤ i)
    (h2 : i < 2 ^ 32) (m v rest pkrest : Bytes) (msglen : Nat) (hv : msglen ≤ v.length) :
    sigIndex (writtenAt (hf.prim S) w h skSeed skPrf ps i m) = i ∧
    (xmssVerifysigBuf S hf p.wots v msglen (writtenAt (hf.prim S) w h skSeed skPrf ps i m ++ rest)
      (node (hf.prim S) w (lenW w) skSeed ps h 0 ++ ps ++ pkrest) (UInt8.ofNat h) = ok (-1, v) ∨
    Collides (hf.prim S) (rootFromSigCalls (hf.prim S) w h (node (hf.prim S) w (lenW w) skSeed ps h 0) ps (v.take msglen)
      (writtenAt (hf.prim S) w h skSeed skPrf ps i m) ++ nodeCalls (hf.prim S) w (lenW w) skSeed ps h 0)) := by
  obtain ⟨e1, e2⟩ := setParams_h hp
  have hh : 4 ≤ h ∧ h % 2 = 0 := by
    rw [xmssSetParams] at hp
    split at hp
    · cases hp
    · omega
  have hlen : (node (hf.prim S) w (lenW w) skSeed ps h 0).length = 32 := length_node S hf _ _ _ _ (lenW_pos hw) _ _
  generalize hs : writtenAt (hf.prim S) w h skSeed skPrf ps i m = sig at *
  rw [writtenAt, if_neg (by omega)] at hs
  have hl : sig.length = signatureSize w h := by rw [← hs]; exact length_bufferSignature S hf hw ..
  have hidx : sigIndex sig = i := by
    rw [sigIndex, ← hs, bufferSignature]
    simp only [List.append_assoc]
    rw [List.take_left' (length_be ..), byteVal_be, Nat.mod_eq_of_lt (by omega)]
  refine ⟨hidx, ?_⟩
  have hu : (UInt8.ofNat h).toNat = h := UInt8.toNat_ofNat_of_lt' (by rw [UInt8.size]; omega)
  rw [C89_verifysig S hf hw e2 _ _ _ _ _ (by intro h0; rw [h0] at hu; exact absurd hu (by simp; omega)), hu,
    rootFromSig_append _ _ _ _ _ _ _ _ (by omega)]
  have t1 : (node (hf.prim S) w (lenW w) skSeed ps h 0 ++ ps ++ pkrest).take 32 = node (hf.prim S) w (lenW w) skSeed ps h 0 := by
    rw [List.append_assoc, List.take_left' hlen]
  have t2 : ((node (hf.prim S) w (lenW w) skSeed ps h 0 ++ ps ++ pkrest).drop 32).take 32 = ps := by
    rw [List.append_assoc, List.drop_left' hlen, List.take_left' hps]
  rw [t1, t2, if_neg (by simp only [List.length_append, hlen, hps, hl]; omega)]
  split
  swap
  · exact Or.inl rfl
  next hr =>
  right
  rw [signatureSize] at hl
  rcases honest_root (out32 S hf) hw (by omega) h30 (by omega) rfl hr with ⟨g, -⟩ | g
  · omega
  · exact g

example (ps v : Bytes) (hps : ps.length = 32) : sigIndex (writtenAt (HashFn.shake_128.prim toySha) 16 4 [1] [2] ps 16 v) = 16 := by
  obtain ⟨p, e, -⟩ := demo_params
  exact (C89_fast_beyond toySha .shake_128 (by omega) e (by omega) [1] [2] ps hps 16 (by omega) (by omega) v v [] [] v.length
    (Nat.le_refl _)).1

/-- C89. `xmssfast_Signmsg` does not notice that the key is used up (`XmssFast::sign` does, through `xmssfast_update`): after the last
leaf it still returns 0 and writes a signature, whose index is not in the tree. -/
theorem C89_fast_exhausted_refuted (S : Sha256) (hf : HashFn) {h w : Nat} (hw : w = 2 ∨ w = 4 ∨ w = 16 ∨ w = 256) {p : XmssParams}
    (hp : xmssSetParams h w = ok p) (h30 : h ≤ 30) (pk sk seed : Bytes) (c : Int) (pk' sk' : Bytes) (st : BdsState)
    (hgen : xmssfastGenkeypairBuf S hf p pk sk (bdsInit h) seed = ok (c, pk', sk', st)) (buf m : Bytes)
    (hb : signatureSize w h ≤ buf.length) :
    ∃ last beyond sk'', (cRun S hf p (sk', st) [.update (UInt32.ofNat (2 ^ h - 1)), .sign buf m m.length, .sign buf m m.length]).map
        (fun y => (y.1, y.2.1)) = some ([.code 0, .signed 0 last, .signed 0 beyond], sk'') ∧
      sigIndex last = 2 ^ h - 1 ∧ sigIndex beyond = 2 ^ h := by
  have hpow : 2 ^ h ≤ 2 ^ 30 := Nat.pow_le_pow_right (by omega) h30
  have hpos := Nat.two_pow_pos h
  have H := C89_fast_history S hf hw hp h30 pk sk seed c pk' sk' st hgen
    [.update (UInt32.ofNat (2 ^ h - 1)), .sign buf m m.length, .sign buf m m.length] (by simp; omega)
  have hn : (UInt32.ofNat (2 ^ h - 1)).toNat = 2 ^ h - 1 := UInt32.toNat_ofNat_of_lt' (by rw [UInt32.size]; omega)
  simp only [uncheckedRun, hn] at H
  rw [if_neg (by omega), if_neg (by omega), if_neg (by omega)] at H
  simp only [Option.map_some] at H
  refine ⟨_, _, _, H, ?_, ?_⟩
  · simp only [sigIndex, writtenAt, show 2 ^ h - 1 < 2 ^ h by omega, if_true, signature, List.append_assoc]
    rw [List.take_left' (length_be ..), byteVal_be, Nat.mod_eq_of_lt (by omega)]
  · simp only [sigIndex, writtenAt, show ¬ (2 ^ h - 1 + 1 < 2 ^ h) by omega, if_false, bufferSignature, List.append_assoc]
    rw [List.take_left' (length_be ..), byteVal_be, Nat.mod_eq_of_lt (by omega)]
    omega

example (seed buf : Bytes) (hs : seed.length = 48) (hb : buf.length = 2308) : ∃ p sk' st last beyond sk'',
    (cRun toySha .shake_128 p (sk', st) [.update (UInt32.ofNat (2 ^ 4 - 1)), .sign buf [1] 1, .sign buf [1] 1]).map (fun y => (y.1, y.2.1)) =
      some ([.code 0, .signed 0 last, .signed 0 beyond], sk'') ∧ sigIndex last = 2 ^ 4 - 1 ∧ sigIndex beyond = 2 ^ 4 := by
  obtain ⟨p, pk', sk', st, e, h⟩ := demo_gen toySha seed hs
  have hz : signatureSize 16 4 = 2308 := by rw [signatureSize, lenW_values.2.2.1]
  exact ⟨p, sk', st, C89_fast_exhausted_refuted toySha .shake_128 (by omega) e (by omega) _ _ seed 0 pk' sk' st h buf [1] (by omega)⟩

end Qrl.Props
