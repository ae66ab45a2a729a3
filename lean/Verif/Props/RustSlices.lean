import Verif.Proof.RustSlices
import Verif.Props.RustLow
import Verif.Props.CLow
/-!
# C91: the Rust crate's key generation and signing functions on the caller's own slices
-/

namespace Qrl.Props

open Qrl.Spec

/-! ### `xmss_gen_keypair`, `xmss_sign_msg` -/

/-- C91. `xmss_gen_keypair` on any slices, for every height below 32 and every `w` from 2 to 65535, in both builds: it reads 48 bytes
of seed, writes 64 bytes of public key and 132 bytes of secret key, panics if one of them is not there, and leaves what follows in the
slices alone. -/
theorem C91_gen_keypair (b : Rs.Build) (S : Sha256) (hf : HashFn) {w h : Nat} (hw : RangeW w) (hh : h < 32) (pk sk seed : Bytes) :
    Rs.xmssGenKeypairRaw b S hf ⟨Rs.wotsParams w, h⟩ pk sk seed =
      if pk.length < 64 ∨ sk.length < 132 ∨ seed.length < 48 then .panic
      else
        let x := shake256 96 (seed.take 48)
        let root := node (hf.prim S) w (rustLen w) (x.take 32) (x.drop 64) h 0
        .ok (0, root ++ x.drop 64 ++ pk.drop 64, List.replicate 4 0 ++ x ++ root ++ sk.drop 132) :=
  Rs.genKeypairRaw_eq b hf hw hh pk sk seed

example (seed : Bytes) (hs : seed.length = 48) :
    Rs.xmssGenKeypairRaw .debug toySha .shake_128 ⟨Rs.wotsParams 16, 4⟩ (List.replicate 64 1) (List.replicate 131 1) seed = .panic ∧
    ∃ pk sk, Rs.xmssGenKeypairRaw .debug toySha .shake_128 ⟨Rs.wotsParams 16, 4⟩ (List.replicate 64 1) (List.replicate 140 1) seed =
      .ok (0, pk, sk) := by
  have hr : RangeW 16 := by decide
  refine ⟨?_, ?_⟩
  · rw [C91_gen_keypair _ _ _ hr (by omega), if_pos (by simp only [List.length_replicate]; omega)]
  · rw [C91_gen_keypair _ _ _ hr (by omega), if_neg (by simp only [List.length_replicate]; omega)]
    exact ⟨_, _, rfl⟩

/-- C91. `xmss_sign_msg` on any slices, for any key slice of at least 132 bytes, whatever it holds: it signs with the index and the
seeds in the slice, keys the digest with the root in the slice, writes one signature and adds one to the index. It panics if the
signature or message slice is too short, if the height is 26 or more, if the index is not in the tree (without overflow checks: for
indices below `2^(25 + h)`, which are all of them from height 8 on) or if the message cannot be signed. -/
theorem C91_sign_msg (b : Rs.Build) (S : Sha256) (hf : HashFn) {w h : Nat} (hw : RangeW w) (h1 : 1 ≤ h) (h30 : h ≤ 30) (hev : h % 2 = 0)
    (sk : Bytes) (hsk : 132 ≤ sk.length) (hb : b = .debug ∨ byteVal (sk.take 4) < 2 ^ (25 + h)) (sig msg : Bytes) (msglen : Nat) :
    let idx := byteVal (sk.take 4)
    Rs.xmssSignMsgRaw b S hf ⟨Rs.wotsParams w, h⟩ sk sig msg msglen =
      if sig.length < rustSize w h ∨ msg.length < msglen ∨ 25 < h ∨ 2 ^ h ≤ idx then .panic
      else match sliceSignature b S hf w h ((sk.drop 4).take 32) ((sk.drop 36).take 32) ((sk.drop 68).take 32) ((sk.drop 100).take 32)
          idx idx (msg.take msglen) with
        | none => .panic
        | some s => .ok (0, be 4 (idx + 1) ++ sk.drop 4, s ++ sig.drop (rustSize w h)) := by
  intro idx
  obtain ⟨K, k1, k2, k3, k4, k5⟩ := key_buffer hsk
  have hidx : idx < 2 ^ 32 := by
    have := byteVal_lt (sk.take 4)
    rw [List.length_take, Nat.min_eq_left (by omega)] at this
    exact this
  have := Rs.signMsgRaw_eq (S := S) b hf hw h1 h30 hev K idx hidx hb (sk.drop 132) sig msg msglen
  rw [← k5, reindexed k5, k1, k2, k3, k4] at this
  exact this

theorem signed_short_slice (b : Rs.Build) (S : Sha256) (f : HashFn) {w : Nat} (hw : UsableW w) (h : Nat) (skSeed skPrf ps root : Bytes)
    (i leaf : Nat) {m : Bytes} (hm : rustShort f m) :
    ∃ s, sliceSignature b S f w h skSeed skPrf ps root i leaf m = some s := by
  rw [sliceSignature]
  simp only [rustSigned_short hm, Option.bind_eq_bind, Option.bind_some, rustPositions, if_pos hw]
  exact ⟨_, rfl⟩

theorem usable16 : UsableW 16 := by decide

example : Rs.xmssSignMsgRaw .release toySha .shake_128 ⟨Rs.wotsParams 16, 4⟩ ([0, 0, 0, 16] ++ List.replicate 128 7) (List.replicate 2308 0)
      [1, 2] 2 = .panic ∧
    ∃ sk sig, Rs.xmssSignMsgRaw .release toySha .shake_128 ⟨Rs.wotsParams 16, 4⟩ ([0, 0, 0, 15] ++ List.replicate 128 7)
      (List.replicate 2308 0) [1, 2] 2 = .ok (0, sk, sig) := by
  have hr : RangeW 16 := by decide
  have hs : rustSize 16 4 = 2308 := by rw [rustSize, Rs.rustLen_usable usable16, lenW_values.2.2.1]
  have h1 : byteVal (([0, 0, 0, 16] ++ List.replicate 128 7 : Bytes).take 4) = 16 := rfl
  have h2 : byteVal (([0, 0, 0, 15] ++ List.replicate 128 7 : Bytes).take 4) = 15 := rfl
  refine ⟨?_, ?_⟩
  · have := C91_sign_msg .release toySha .shake_128 hr (h := 4) (by omega) (by omega) (by omega) ([0, 0, 0, 16] ++ List.replicate 128 7)
      (by simp) (Or.inr (by rw [h1]; decide)) (List.replicate 2308 0) [1, 2] 2
    simp only [h1] at this
    rw [this, if_pos (by omega)]
  · have := C91_sign_msg .release toySha .shake_128 hr (h := 4) (by omega) (by omega) (by omega) ([0, 0, 0, 15] ++ List.replicate 128 7)
      (by simp) (Or.inr (by rw [h2]; decide)) (List.replicate 2308 0) [1, 2] 2
    simp only [h2, hs] at this
    rw [this, if_neg (by simp only [List.length_replicate, List.length_cons, List.length_nil]; omega)]
    obtain ⟨s, e⟩ := signed_short_slice .release toySha .shake_128 usable16 4
      ((([0, 0, 0, 15] ++ List.replicate 128 7 : Bytes).drop 4).take 32) ((([0, 0, 0, 15] ++ List.replicate 128 7 : Bytes).drop 36).take 32)
      ((([0, 0, 0, 15] ++ List.replicate 128 7 : Bytes).drop 68).take 32) ((([0, 0, 0, 15] ++ List.replicate 128 7 : Bytes).drop 100).take 32)
      15 15 (m := ([1, 2] : Bytes).take 2) (by simp [rustShort, rustRoom])
    rw [e]
    exact ⟨_, _, rfl⟩

/-- C91. A key slice of less than 132 bytes panics in both signing functions. -/
theorem C91_sign_short (b : Rs.Build) (S : Sha256) (hf : HashFn) (p : XmssParams) (sk : Bytes) (hsk : sk.length < 132) (sig msg : Bytes)
    (msglen : Nat) (st : BdsState) :
    Rs.xmssSignMsgRaw b S hf p sk sig msg msglen = .panic ∧ Rs.xmssFastSignMsgRaw b S hf p sk st sig msg msglen = .panic := by
  have hsl : ∀ l o n e, Rs.slice l o n ≠ .err e := fun l o n e => by rw [Rs.slice]; split <;> intro h <;> cases h
  have hrd : ∀ i e, Rs.rd sk i ≠ .err e := fun i e => by rw [Rs.rd]; split <;> intro h <;> cases h
  have hbe : ∀ e, Rs.be32At sk ≠ .err e := fun e => by
    rw [Rs.be32At]
    exact Rs.bind_noErr (hrd 0) (fun _ => Rs.bind_noErr (hrd 1) fun _ => Rs.bind_noErr (hrd 2) fun _ => Rs.bind_noErr (hrd 3)
      fun _ _ h => by cases h) e
  have key : ∀ {α : Type} (k : Nat → Bytes → Bytes → Bytes → Bytes → Bytes → Bytes → Rs.Res α),
      (Rs.be32At sk >>= fun idx => Rs.slice sk 4 32 >>= fun a => Rs.slice sk 36 32 >>= fun p => Rs.slice sk 68 32 >>= fun q =>
        Rs.u32 b (idx + 1) >>= fun n => Rs.putInto sk 0 (Rs.idxBytes n) >>= fun sk' => Rs.prf S hf (Rs.toByte idx 32) p >>= fun r =>
        Rs.slice sk' 100 32 >>= fun root => k idx a p q sk' r root) = .panic := by
    intro α k
    refine Rs.bind_panic hbe fun idx => Rs.bind_panic (hsl _ _ _) fun a => ?_
    by_cases h68 : sk.length < 36 + 32
    · rw [Rs.slice_panic h68]; rfl
    have hp : ((sk.drop 36).take 32).length = 32 := by simp; omega
    rw [Rs.slice, if_pos (by omega), Rs.Res.ok_bind]
    refine Rs.bind_panic (hsl _ _ _) fun q => Rs.bind_panic (Rs.u32_noErr _ _) fun n => ?_
    rw [Rs.putInto_ok (by simp [Rs.idxBytes]; omega), Rs.Res.ok_bind, Rs.toByte_rs, Rs.prf_rs S _ _ _ (length_toByte _ _) (by omega),
      Rs.Res.ok_bind, Rs.slice_panic (by simp [Rs.idxBytes]; omega)]
    rfl
  exact ⟨key _, key _⟩

example (p : XmssParams) : Rs.xmssSignMsgRaw .debug toySha .sha2_256 p (List.replicate 131 0) (List.replicate 9999 0) [] 0 = .panic :=
  (C91_sign_short .debug toySha .sha2_256 p _ (by rw [List.length_replicate]; omega) _ [] 0 (bdsInit 4)).1

theorem length_sliceSignature {b : Rs.Build} {S : Sha256} {f : HashFn} {w : Nat} (hw : RangeW w) {h : Nat}
    {skSeed skPrf ps root : Bytes} {i leaf : Nat} {m s : Bytes}
    (hs : sliceSignature b S f w h skSeed skPrf ps root i leaf m = some s) : s.length = rustSize w h ∧ s.take 4 = be 4 i := by
  rw [sliceSignature] at hs
  obtain ⟨m', -, hs⟩ := Option.bind_eq_some_iff.mp hs
  obtain ⟨ds, hds, hs⟩ := Option.bind_eq_some_iff.mp hs
  cases hs
  have hl := (Rs.rustPositions_props hw (by rw [digest]; exact length_Hmsg ..) hds).1
  constructor
  · rw [rustSize]
    simp only [List.length_append, length_be, length_PRF, length_flatten32 _ (mem_wotsSig S f _ _ i _),
      length_flatten32 _ (mem_authPath S f w (rustLen w) _ _ h leaf (Rs.rustLen_pos hw))]
    simp only [wotsSig, authPath, List.length_map, List.length_zipIdx, List.length_range, hl]
  · simp only [List.append_assoc]
    exact List.take_left' (length_be ..)

/-- What is written while the tree has a leaf is the signature of the signer classes. -/
theorem sliceSignature_honest (b : Rs.Build) (S : Sha256) (f : HashFn) (w h : Nat) (skSeed skPrf ps : Bytes) (i : Nat) (m : Bytes) :
    sliceSignature b S f w h skSeed skPrf ps (node (f.prim S) w (rustLen w) skSeed ps h 0) i i m =
      rustSignatureAny b S f w h skSeed skPrf ps i m := rfl

/-- The root recomputed from what is written while the tree has a leaf. -/
theorem slice_root {b : Rs.Build} {S : Sha256} {f : HashFn} {w : Nat} (hw : RangeW w) {h : Nat} (h30 : h ≤ 30)
    {skSeed skPrf ps : Bytes} {i : Nat} (hi : i < 2 ^ h) {m s : Bytes}
    (hs : rustSignatureAny b S f w h skSeed skPrf ps i m = some s) :
    rustRootAny b S f w h (node (f.prim S) w (rustLen w) skSeed ps h 0) ps m s = some (node (f.prim S) w (rustLen w) skSeed ps h 0) := by
  have hpw : 2 ^ h ≤ 2 ^ 30 := Nat.pow_le_pow_right (by omega) h30
  rw [rustSignatureAny] at hs
  obtain ⟨m', hm', hs⟩ := Option.bind_eq_some_iff.mp hs
  obtain ⟨ds, hds, hs⟩ := Option.bind_eq_some_iff.mp hs
  cases hs
  obtain ⟨hdl, hdlt⟩ := Rs.rustPositions_props hw (by rw [digest]; exact length_Hmsg ..) hds
  obtain ⟨c1, c2, c3⟩ := Rs.rootFromPositions_honest (S := S) f hw h skSeed skPrf ps i hi (by omega) ds hdl hdlt
  rw [rustRootAny, keyInSig, c2, c3, byteVal_be, Nat.mod_eq_of_lt (by omega), hm', Option.bind_eq_bind, Option.bind_some, hds,
    Option.bind_eq_bind, Option.bind_some, c1]

/-- `xmss_verify_sig` accepts it, with whatever follows the signature, the key and the message. -/
theorem slice_accepted {b : Rs.Build} {S : Sha256} {f : HashFn} {w : Nat} (hw : RangeW w) {h : Nat} (h1 : 1 ≤ h) (h30 : h ≤ 30)
    {skSeed skPrf ps : Bytes} (hps : ps.length = 32) {i : Nat} (hi : i < 2 ^ h) {m s : Bytes}
    (hs : rustSignatureAny b S f w h skSeed skPrf ps i m = some s) (msg : Bytes) (msglen : Nat) (hm : msg.take msglen = m)
    (hml : msglen ≤ msg.length) (rest pkrest : Bytes) :
    Rs.xmssVerifySigRaw b S f (Rs.wotsParams w) msg msglen (s ++ rest)
      (node (f.prim S) w (rustLen w) skSeed ps h 0 ++ ps ++ pkrest) h = .ok (0, msg) := by
  have hl : (node (f.prim S) w (rustLen w) skSeed ps h 0).length = 32 := length_node S f _ _ _ _ (Rs.rustLen_pos hw) _ _
  have hsl : s.length = rustSize w h := (length_sliceSignature hw (sliceSignature_honest b S f w h skSeed skPrf ps i m ▸ hs)).1
  rw [rustSize] at hsl
  have t1 : (node (f.prim S) w (rustLen w) skSeed ps h 0 ++ ps ++ pkrest).take 32 = node (f.prim S) w (rustLen w) skSeed ps h 0 := by
    rw [List.append_assoc, List.take_left' hl]
  have t2 : ((node (f.prim S) w (rustLen w) skSeed ps h 0 ++ ps ++ pkrest).drop 32).take 32 = ps := by
    rw [List.append_assoc, List.drop_left' hl, List.take_left' hps]
  rw [C83_verify_sig b S f w hw _ _ _ _ h h1, if_neg (by simp only [List.length_append, hl, hps]; omega), t1, t2, hm,
    rustRootAny_more _ _ _ _ _ _ _ _ _ _ (by omega), slice_root hw h30 hi hs]
  simp

/-- C91. A key made by `xmss_gen_keypair` signs and its signatures are accepted by `xmss_verify_sig`: with any slices that are long
enough, for every message that the crate can sign, as often as the tree has leaves. `sk i` is the key after `i` signatures. -/
theorem C91_roundtrip (b : Rs.Build) (S : Sha256) (hf : HashFn) {w h : Nat} (hw : RangeW w) (h1 : 1 ≤ h) (h25 : h ≤ 25) (hev : h % 2 = 0)
    (pk0 sk0 seed : Bytes) (hpk : 64 ≤ pk0.length) (hsk : 132 ≤ sk0.length) (hseed : 48 ≤ seed.length) :
    ∃ (pk : Bytes) (sk : Nat → Bytes), Rs.xmssGenKeypairRaw b S hf ⟨Rs.wotsParams w, h⟩ pk0 sk0 seed = .ok (0, pk, sk 0) ∧
    ∀ i : Nat, i < 2 ^ h → ∀ (buf msg : Bytes) (msglen : Nat), rustSize w h ≤ buf.length → msglen ≤ msg.length →
      ¬ rustLong hf (msg.take msglen) → (b = .release ∨ UsableW w) →
      ∃ sig, Rs.xmssSignMsgRaw b S hf ⟨Rs.wotsParams w, h⟩ (sk i) buf msg msglen = .ok (0, sk (i + 1), sig) ∧
        ∀ m : Bytes, m.take msglen = msg.take msglen → msglen ≤ m.length →
          Rs.xmssVerifySigRaw b S hf (Rs.wotsParams w) m msglen sig pk h = .ok (0, m) := by
  have hw1 := Rs.rustLen_pos hw
  generalize hK : keyP S hf w (rustLen w) h hw1 (seed.take 48) = K
  refine ⟨K.root ++ K.ps ++ pk0.drop 64, fun i => K.sk i ++ sk0.drop 132, ?_, ?_⟩
  · rw [C91_gen_keypair b S hf hw (by omega), if_neg (by omega)]
    dsimp only
    rw [← hK, ← keyP_sk0 S hf w (rustLen w) h hw1]
    rfl
  · intro i hi buf msg msglen hb hm hlong hbw
    have hroot : K.root = node (hf.prim S) w (rustLen w) K.skSeed K.ps h 0 := by rw [← hK]; rfl
    have hpw : 2 ^ h ≤ 2 ^ 25 := Nat.pow_le_pow_right (by omega) h25
    have hs := Rs.signMsgRaw_eq (S := S) b hf hw h1 (by omega) hev K i (by omega)
      (Or.inr (Nat.lt_of_lt_of_le hi (Nat.pow_le_pow_right (by omega) (by omega)))) (sk0.drop 132) buf msg msglen
    rw [if_neg (by omega), hroot, sliceSignature_honest] at hs
    obtain ⟨s, e⟩ : ∃ s, rustSignatureAny b S hf w h K.skSeed K.skPrf K.ps i (msg.take msglen) = some s := by
      rw [rustSignatureAny]
      obtain ⟨m', hm'⟩ : ∃ m', rustSigned hf (PRF (hf.prim S) K.skPrf (be 32 i) ++
          node (hf.prim S) w (rustLen w) K.skSeed K.ps h 0 ++ be 32 i) (msg.take msglen) = some m' := by
        rcases (C53_message_classes hf (msg.take msglen)).1 with h | h | h
        · exact ⟨_, rustSigned_short h _⟩
        · exact ⟨_, rustSigned_cut h _⟩
        · exact absurd h hlong
      simp only [hm', Option.bind_eq_bind, Option.bind_some, rustPositions]
      by_cases hu : UsableW w
      · rw [if_pos hu]; exact ⟨_, rfl⟩
      · rw [if_neg hu]
        rcases hbw with rfl | hu'
        · exact ⟨_, rfl⟩
        · exact absurd hu' hu
    rw [e] at hs
    refine ⟨_, hs, fun m hmm hml => ?_⟩
    rw [hroot]
    exact slice_accepted hw h1 (by omega) K.l3 hi e m msglen hmm hml _ _

example (seed buf m : Bytes) (hs : seed.length = 48) (hb : buf.length = 2308) (hm : m.length = 30) : ∃ pk sk1 sig sk2,
    Rs.xmssSignMsgRaw .debug toySha .shake_128 ⟨Rs.wotsParams 16, 4⟩ sk1 buf m 30 = .ok (0, sk2, sig) ∧
    Rs.xmssVerifySigRaw .debug toySha .shake_128 (Rs.wotsParams 16) m 30 sig pk 4 = .ok (0, m) := by
  have hr : RangeW 16 := by decide
  obtain ⟨pk, sk, -, h⟩ := C91_roundtrip .debug toySha .shake_128 hr (h := 4) (by omega) (by omega) (by omega) (List.replicate 64 0)
    (List.replicate 132 0) seed (by simp) (by simp) (by omega)
  have hz : rustSize 16 4 = 2308 := by rw [rustSize, Rs.rustLen_usable usable16, lenW_values.2.2.1]
  obtain ⟨sig, e1, e2⟩ := h 5 (by omega) buf m 30 (by omega) (by omega) (by
    rw [List.take_of_length_le (by omega)]
    intro hl
    exact absurd (show 2 * 40 + 128 ≤ m.length from hl) (by omega)) (Or.inr usable16)
  exact ⟨_, _, _, _, e1, e2 m rfl (by omega)⟩

/-! ### The fast functions -/

/-- C91. `xmss_fast_gen_keypair` with an odd height in the parameters returns an error; it touches nothing. -/
theorem C91_fast_odd (b : Rs.Build) (S : Sha256) (hf : HashFn) (p : XmssParams) (hodd : p.h % 2 = 1) (pk sk seed : Bytes) (st : BdsState) :
    Rs.xmssFastGenKeypairRaw b S hf p pk sk st seed = .err .invalidArgument := by
  rw [Rs.xmssFastGenKeypairRaw, if_pos (by rw [Nat.and_one_is_mod]; omega)]

example (p : WotsParams) (pk sk seed : Bytes) (st : BdsState) :
    Rs.xmssFastGenKeypairRaw .debug toySha .sha2_256 ⟨p, 5⟩ pk sk st seed = .err .invalidArgument :=
  C91_fast_odd _ _ _ _ (show 5 % 2 = 1 by decide) ..

/-- C91. `xmss_fast_gen_keypair` on any slices, for the even heights from 4 to 30, with a fresh state: it panics if the public key slice
has less than 64, the secret key slice less than 132 or the seed slice less than 48 bytes, and makes the key that `xmss_gen_keypair`
makes. -/
theorem C91_fast_gen_keypair (b : Rs.Build) (S : Sha256) (hf : HashFn) {w h : Nat} (hw : RangeW w) (h4 : 4 ≤ h) (h30 : h ≤ 30)
    (hev : h % 2 = 0) (pk sk seed : Bytes) :
    (pk.length < 64 ∨ sk.length < 132 ∨ seed.length < 48 →
      Rs.xmssFastGenKeypairRaw b S hf ⟨Rs.wotsParams w, h⟩ pk sk (Rs.bdsInit h) seed = .panic) ∧
    (64 ≤ pk.length → 132 ≤ sk.length → 48 ≤ seed.length → ∃ pk' sk' st,
      Rs.xmssFastGenKeypairRaw b S hf ⟨Rs.wotsParams w, h⟩ pk sk (Rs.bdsInit h) seed = .ok (pk', sk', st) ∧
      Rs.xmssGenKeypairRaw b S hf ⟨Rs.wotsParams w, h⟩ pk sk seed = .ok (0, pk', sk')) := by
  obtain ⟨st, -, e⟩ := Rs.fastGenKeypairRaw_eq (S := S) b hf hw h4 h30 hev pk sk seed
  refine ⟨fun hs => by rw [e, if_pos hs], fun a b c => ?_⟩
  rw [if_neg (by omega)] at e
  refine ⟨_, _, st, e, ?_⟩
  rw [C91_gen_keypair _ S hf hw (by omega), if_neg (by omega)]

theorem demo_slices (b : Rs.Build) (S : Sha256) (seed : Bytes) (hs : seed.length = 48) : ∃ pk' sk' st,
    Rs.xmssFastGenKeypairRaw b S .shake_128 ⟨Rs.wotsParams 16, 4⟩ (List.replicate 64 1) (List.replicate 140 1) (Rs.bdsInit 4) seed =
      .ok (pk', sk', st) := by
  obtain ⟨pk', sk', st, h, -⟩ := (C91_fast_gen_keypair b S .shake_128 (w := 16) (h := 4) (by decide) (by omega) (by omega) (by omega)
    (List.replicate 64 1) (List.replicate 140 1) seed).2 (by simp) (by simp) (by omega)
  exact ⟨pk', sk', st, h⟩

example (seed : Bytes) (hs : seed.length = 48) : ∃ pk' sk' st,
    Rs.xmssFastGenKeypairRaw .debug toySha .shake_128 ⟨Rs.wotsParams 16, 4⟩ (List.replicate 64 1) (List.replicate 140 1) (Rs.bdsInit 4) seed =
      .ok (pk', sk', st) := demo_slices .debug toySha seed hs

/-- C91. Every history of `xmss_fast_update` and `xmss_fast_sign_msg` on a key made by `xmss_fast_gen_keypair`: replies, panics and the
key slice are those of a counter. `xmss_fast_update` refuses to go back and to leave the tree; `xmss_fast_sign_msg` returns 0 even when
the tree is used up. -/
theorem C91_fast_history (b : Rs.Build) (S : Sha256) (hf : HashFn) {w h : Nat} (hw : RangeW w) (h4 : 4 ≤ h) (h30 : h ≤ 30)
    (hev : h % 2 = 0) (pk sk seed : Bytes) (pk' sk' : Bytes) (st : BdsState)
    (hgen : Rs.xmssFastGenKeypairRaw b S hf ⟨Rs.wotsParams w, h⟩ pk sk (Rs.bdsInit h) seed = .ok (pk', sk', st)) (cs : List CCall)
    (hcs : 2 ^ h + cs.length < 2 ^ 32) :
    let x := shake256 96 (seed.take 48)
    (Rs.sliceRun b S hf ⟨Rs.wotsParams w, h⟩ (sk', st) cs).map (fun y => (y.1, y.2.1)) =
      (sliceCounter (rustSize w h) (2 ^ h) (sliceWrittenAt b S hf w h (x.take 32) ((x.drop 32).take 32) (x.drop 64)) 0 cs).map
        fun y => (y.1, be 4 y.2 ++ sk'.drop 4) := by
  intro x
  have hw1 := Rs.rustLen_pos hw
  obtain ⟨st', hinv, e⟩ := Rs.fastGenKeypairRaw_eq (S := S) b hf hw h4 h30 hev pk sk seed
  rw [hgen] at e
  split at e
  · cases e
  next hc =>
  have e' := Rs.Res.ok.inj e
  obtain ⟨-, e3, e4⟩ := (by simpa using e' : pk' = _ ∧ sk' = _ ∧ st = _)
  subst e4
  generalize hK : keyP S hf w (rustLen w) h hw1 (seed.take 48) = K
  have hsk : sk' = K.sk 0 ++ sk.drop 132 := by
    rw [e3, ← hK, ← keyP_sk0]
    simp only [List.append_assoc]
    rfl
  have k1 : K.skSeed = x.take 32 := by rw [← hK]; rfl
  have k2 : K.skPrf = (x.drop 32).take 32 := by rw [← hK]; rfl
  have k3 : K.ps = x.drop 64 := by rw [← hK]; rfl
  have k4 : K.root = node (hf.prim S) w (rustLen w) K.skSeed K.ps h 0 := by rw [← hK]; rfl
  have hd : sk'.drop 132 = sk.drop 132 := by rw [hsk, List.drop_left' (K.length_sk 0)]
  have hinv' : BdsInv (node (hf.prim S) w (rustLen w) K.skSeed K.ps) h 0 (fun _ => none) st := by
    rw [k1, k3]; exact hinv
  have hrun := Rs.sliceRun_eq (S := S) b hf hw h4 h30 hev K hinv' (sk.drop 132) cs 0 (by have := Nat.two_pow_pos h; omega)
  rw [show stAt S hf ⟨Rs.wotsParams w, h⟩ K.skSeed K.ps st (min 0 (2 ^ h - 1)) = st by rw [Nat.zero_min]; rfl, ← hsk] at hrun
  rw [hrun, Option.map_map]
  have hσ : (fun j m => sliceSignature b S hf w h K.skSeed K.skPrf K.ps K.root j (min j (2 ^ h - 1)) m) =
      sliceWrittenAt b S hf w h (x.take 32) ((x.drop 32).take 32) (x.drop 64) := by
    funext j m
    rw [sliceWrittenAt, ← k1, ← k2, ← k3, ← k4]
    by_cases hj : j < 2 ^ h
    · rw [if_pos hj, Nat.min_eq_left (by omega), k4, sliceSignature_honest]
    · rw [if_neg hj, Nat.min_eq_right (by omega)]
  rw [hσ]
  congr 1
  funext y
  simp only [Function.comp]
  rw [← reindexed (K := K) (i := 0) (by rw [hd]; exact hsk), hd]

/-- What is written at counter `i` is as long as a signature and starts with `i`. -/
theorem written_index {b : Rs.Build} {S : Sha256} {f : HashFn} {w : Nat} (hw : RangeW w) {h : Nat} {skSeed skPrf ps : Bytes} {i : Nat}
    (hi : i < 2 ^ 32) {m s : Bytes} (hs : sliceWrittenAt b S f w h skSeed skPrf ps i m = some s) (rest : Bytes) :
    s.length = rustSize w h ∧ sigIndex (s ++ rest) = i := by
  have : s.length = rustSize w h ∧ s.take 4 = be 4 i := by
    rw [sliceWrittenAt] at hs
    split at hs
    · exact length_sliceSignature hw (sliceSignature_honest b S f w h skSeed skPrf ps i m ▸ hs)
    · exact length_sliceSignature hw hs
  obtain ⟨l, t⟩ := this
  refine ⟨l, ?_⟩
  rw [sigIndex, List.take_append_of_le_length (by rw [l, rustSize]; omega), t, byteVal_be, Nat.mod_eq_of_lt (by omega)]

/-- A message that is not too long gets a signature at every counter. -/
theorem written_some (b : Rs.Build) (S : Sha256) (f : HashFn) {w : Nat} (hw : UsableW w) (h : Nat) (skSeed skPrf ps : Bytes) (i : Nat)
    {m : Bytes} (hm : rustShort f m) : ∃ s, sliceWrittenAt b S f w h skSeed skPrf ps i m = some s := by
  rw [sliceWrittenAt, ← sliceSignature_honest]
  split <;> exact signed_short_slice b S f hw h _ _ _ _ _ _ hm

/-- A history with a refused update, a skip to the last leaf and two signatures, the second of them beyond the tree. -/
example (seed buf : Bytes) (hs : seed.length = 48) (hb : buf.length = 2308) : ∃ sk' st r1 r2 key,
    (Rs.sliceRun .debug toySha .shake_128 ⟨Rs.wotsParams 16, 4⟩ (sk', st)
      [.update 16, .update 15, .sign buf [1] 1, .update 3, .sign buf [2] 1]).map (fun y => (y.1, y.2.1)) =
      some ([.threw .invalidArgument, .code 0, r1, .threw .invalidArgument, r2], key) := by
  obtain ⟨pk', sk', st, h⟩ := demo_slices .debug toySha seed hs
  have := C91_fast_history .debug toySha .shake_128 (by decide) (by omega) (by omega) (by omega) _ _ seed pk' sk' st h
    [.update 16, .update 15, .sign buf [1] 1, .update 3, .sign buf [2] 1] (by simp)
  have hz : rustSize 16 4 = 2308 := by rw [rustSize, Rs.rustLen_usable usable16, lenW_values.2.2.1]
  obtain ⟨s1, e1⟩ := written_some .debug toySha .shake_128 usable16 4 ((shake256 96 (seed.take 48)).take 32)
    (((shake256 96 (seed.take 48)).drop 32).take 32) ((shake256 96 (seed.take 48)).drop 64) 15 (m := [1])
    (by simp [rustShort, rustRoom])
  obtain ⟨s2, e2⟩ := written_some .debug toySha .shake_128 usable16 4 ((shake256 96 (seed.take 48)).take 32)
    (((shake256 96 (seed.take 48)).drop 32).take 32) ((shake256 96 (seed.take 48)).drop 64) 16 (m := [2])
    (by simp [rustShort, rustRoom])
  simp only [sliceCounter, hz, hb] at this
  rw [if_pos (by decide), if_neg (by decide), if_neg (by decide), show ([1] : Bytes).take 1 = [1] from rfl,
    show ([2] : Bytes).take 1 = [2] from rfl, show (15 : UInt32).toNat = 15 from rfl, e1, if_pos (by decide), if_neg (by decide), e2] at this
  exact ⟨sk', st, _, _, _, this⟩

/-- C91. Every signature that such a history writes while the tree has a leaf is accepted by `xmss_verify_sig` with the public key that
`xmss_fast_gen_keypair` made, whatever follows it in the slice: `s` is what `C91_fast_history` says is written at counter `i`. -/
theorem C91_fast_accepted (b : Rs.Build) (S : Sha256) (hf : HashFn) {w h : Nat} (hw : RangeW w) (h4 : 4 ≤ h) (h30 : h ≤ 30)
    (hev : h % 2 = 0) (pk sk seed : Bytes) (pk' sk' : Bytes) (st : BdsState)
    (hgen : Rs.xmssFastGenKeypairRaw b S hf ⟨Rs.wotsParams w, h⟩ pk sk (Rs.bdsInit h) seed = .ok (pk', sk', st)) (i : Nat) (hi : i < 2 ^ h)
    (msg s : Bytes) (msglen : Nat) (hm : msglen ≤ msg.length)
    (hs : sliceWrittenAt b S hf w h ((shake256 96 (seed.take 48)).take 32) (((shake256 96 (seed.take 48)).drop 32).take 32)
      ((shake256 96 (seed.take 48)).drop 64) i (msg.take msglen) = some s) (rest : Bytes) :
    Rs.xmssVerifySigRaw b S hf (Rs.wotsParams w) msg msglen (s ++ rest) pk' h = .ok (0, msg) := by
  obtain ⟨st', -, e⟩ := Rs.fastGenKeypairRaw_eq (S := S) b hf hw h4 h30 hev pk sk seed
  rw [hgen] at e
  split at e
  · cases e
  have e' := Rs.Res.ok.inj e
  obtain ⟨e1, -, -⟩ := (by simpa using e' : pk' = _ ∧ sk' = _ ∧ st = _)
  rw [sliceWrittenAt, if_pos hi] at hs
  have := slice_accepted hw (by omega) h30 (by simp [length_shake256]) hi hs msg msglen rfl hm rest (pk.drop 64)
  rw [e1]
  simpa only [List.append_assoc] using this

example (seed m rest : Bytes) (hs : seed.length = 48) (hm : m.length = 30) : ∃ pk' s,
    Rs.xmssVerifySigRaw .debug toySha .shake_128 (Rs.wotsParams 16) m 30 (s ++ rest) pk' 4 = .ok (0, m) := by
  obtain ⟨pk', sk', st, h⟩ := demo_slices .debug toySha seed hs
  obtain ⟨s, e⟩ := written_some .debug toySha .shake_128 usable16 4 ((shake256 96 (seed.take 48)).take 32)
    (((shake256 96 (seed.take 48)).drop 32).take 32) ((shake256 96 (seed.take 48)).drop 64) 7 (m := m.take 30)
    (by
      rw [List.take_of_length_le (by omega)]
      show m.length < _
      rw [hm, rustRoom]; decide)
  exact ⟨pk', s, C91_fast_accepted .debug toySha .shake_128 (by decide) (by omega) (by omega) (by omega) _ _ seed pk' sk' st h 7
    (by omega) m s 30 (by omega) e rest⟩

/-- C91. `xmss_fast_sign_msg` does not notice that the key is used up (`XMSSFast::sign` does): after the last leaf it still returns 0
and writes a signature, whose index is not in the tree. -/
theorem C91_fast_exhausted_refuted (b : Rs.Build) (S : Sha256) (hf : HashFn) {w h : Nat} (hw : UsableW w) (hwr : RangeW w) (h4 : 4 ≤ h)
    (h30 : h ≤ 30) (hev : h % 2 = 0) (pk sk seed : Bytes) (pk' sk' : Bytes) (st : BdsState)
    (hgen : Rs.xmssFastGenKeypairRaw b S hf ⟨Rs.wotsParams w, h⟩ pk sk (Rs.bdsInit h) seed = .ok (pk', sk', st)) (buf m : Bytes)
    (hb : rustSize w h ≤ buf.length) (hm : rustShort hf m) :
    ∃ last beyond sk'', (Rs.sliceRun b S hf ⟨Rs.wotsParams w, h⟩ (sk', st)
        [.update (UInt32.ofNat (2 ^ h - 1)), .sign buf m m.length, .sign buf m m.length]).map
        (fun y => (y.1, y.2.1)) = some ([.code 0, .signed 0 last, .signed 0 beyond], sk'') ∧
      sigIndex last = 2 ^ h - 1 ∧ sigIndex beyond = 2 ^ h := by
  have hpow : 2 ^ h ≤ 2 ^ 30 := Nat.pow_le_pow_right (by omega) h30
  have hpos := Nat.two_pow_pos h
  have H := C91_fast_history b S hf hwr h4 h30 hev pk sk seed pk' sk' st hgen
    [.update (UInt32.ofNat (2 ^ h - 1)), .sign buf m m.length, .sign buf m m.length] (by simp; omega)
  have hn : (UInt32.ofNat (2 ^ h - 1)).toNat = 2 ^ h - 1 := UInt32.toNat_ofNat_of_lt' (by rw [UInt32.size]; omega)
  obtain ⟨s1, e1⟩ := written_some b S hf hw h ((shake256 96 (seed.take 48)).take 32)
    (((shake256 96 (seed.take 48)).drop 32).take 32) ((shake256 96 (seed.take 48)).drop 64) (2 ^ h - 1) hm
  obtain ⟨s2, e2⟩ := written_some b S hf hw h ((shake256 96 (seed.take 48)).take 32)
    (((shake256 96 (seed.take 48)).drop 32).take 32) ((shake256 96 (seed.take 48)).drop 64) (2 ^ h - 1 + 1) hm
  simp only [sliceCounter, hn, List.take_length] at H
  rw [if_neg (by omega), if_neg (by omega), if_neg (by omega), e1, Option.bind_some, e2] at H
  simp only [Option.map_some, Option.bind_some] at H
  refine ⟨_, _, _, H, (written_index hwr (by omega) e1 _).2, ?_⟩
  rw [(written_index hwr (by omega) e2 _).2]
  omega

example (seed buf : Bytes) (hs : seed.length = 48) (hb : buf.length = 2308) : ∃ sk' st last beyond sk'',
    (Rs.sliceRun .release toySha .shake_128 ⟨Rs.wotsParams 16, 4⟩ (sk', st)
      [.update (UInt32.ofNat (2 ^ 4 - 1)), .sign buf [1] 1, .sign buf [1] 1]).map (fun y => (y.1, y.2.1)) =
      some ([.code 0, .signed 0 last, .signed 0 beyond], sk'') ∧ sigIndex last = 2 ^ 4 - 1 ∧ sigIndex beyond = 2 ^ 4 := by
  obtain ⟨pk', sk', st, h⟩ := demo_slices .release toySha seed hs
  have hz : rustSize 16 4 = 2308 := by rw [rustSize, Rs.rustLen_usable usable16, lenW_values.2.2.1]
  exact ⟨sk', st, C91_fast_exhausted_refuted .release toySha .shake_128 usable16 (by decide) (by omega) (by omega) (by omega) _ _ seed
    pk' sk' st h buf [1] (by omega) (by simp [rustShort, rustRoom])⟩

end Qrl.Props
