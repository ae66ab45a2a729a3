import Verif.Proof.Sign
import Verif.Props.Verify

namespace Qrl

open Outcome

theorem length_shake256_96 (m : Bytes) : (shake256 96 m).length = 96 := length_shake256 ..

/-- The fixed part of the key derived from a 48-byte seed: 96 bytes of SHAKE256, and the root. -/
def keyOf (S : Sha256) (hf : HashFn) (w h : Nat) (hw : 1 ≤ Spec.lenW w) (seed : Bytes) : KeyParts where
  skSeed := (shake256 96 seed).take 32
  skPrf := ((shake256 96 seed).drop 32).take 32
  ps := (shake256 96 seed).drop 64
  root := Spec.node (hf.prim S) w (Spec.lenW w) ((shake256 96 seed).take 32) ((shake256 96 seed).drop 64) h 0
  l1 := by simp
  l2 := by simp
  l3 := by simp
  l4 := length_node S hf _ _ _ _ hw _ _

theorem keyOf_sk0 (S : Sha256) (hf : HashFn) (w h : Nat) (hw : 1 ≤ Spec.lenW w) (seed : Bytes) (i : Nat) :
    idxBytes i ++ shake256 96 seed ++
      Spec.node (hf.prim S) w (Spec.lenW w) ((shake256 96 seed).take 32) ((shake256 96 seed).drop 64) h 0 =
      (keyOf S hf w h hw seed).sk i := by
  rw [KeyParts.sk, skOf, keyOf, idxBytes_eq]
  have : shake256 96 seed = (shake256 96 seed).take 32 ++ (((shake256 96 seed).drop 32).take 32 ++
      (shake256 96 seed).drop 64) := by
    have h2 : (shake256 96 seed).drop 64 = ((shake256 96 seed).drop 32).drop 32 := by simp
    rw [h2, List.take_append_drop, List.take_append_drop]
  simp only
  generalize Spec.node (hf.prim S) w (Spec.lenW w) _ _ h 0 = r
  conv => lhs; rw [this]
  simp

theorem lenW_pos {w : Nat} (hw : w = 2 ∨ w = 4 ∨ w = 16 ∨ w = 256) : 1 ≤ Spec.lenW w := by
  obtain ⟨p, k, q, hp, hs, h1, _⟩ := Props.base_ok hw
  rw [hs.len]; exact h1

theorem xmssGenkeypair_eq (S : Sha256) (hf : HashFn) {w : Nat} {p : XmssParams} {k q : Nat}
    (hp : SpecParams w p.wots k q) (hlen : 1 ≤ p.wots.len) (hh : p.h < 32) (hw : 1 ≤ Spec.lenW w) (seed : Bytes)
    (hs : seed.length = 48) : xmssGenkeypair S hf p seed = ok ((keyOf S hf w p.h hw seed).sk 0) := by
  have h48 : (seed.drop 0).take 48 = seed := by simp [← hs]
  rw [xmssGenkeypair, slice_eq_ok (by omega), ok_bind, h48]
  simp only
  rw [treehash_eq S hf p _ _ hlen p.h hh 0 0 0 0 0, ok_bind, hp.pw, ← hp.len, keyOf_sk0 S hf w p.h hw]

theorem ofNat?_of_le {hf : Nat} (h : hf ≤ 2) : ∃ f, HashFn.ofNat? hf = some f ∧ f.toNat = hf := by
  match hf, h with
  | 0, _ => exact ⟨_, rfl, rfl⟩
  | 1, _ => exact ⟨_, rfl, rfl⟩
  | 2, _ => exact ⟨_, rfl, rfl⟩

theorem ofNat?_toNat (f : HashFn) : HashFn.ofNat? f.toNat = some f := by cases f <;> rfl

/-- A height the library accepts and can represent. -/
def GoodHeight (h : UInt8) : Prop := 4 ≤ h.toNat ∧ h.toNat ≤ 30 ∧ h.toNat % 2 = 0

theorem basicNew_eq (S : Sha256) (seed : Bytes) (height : UInt8) (hf : HashFn) (af w : Nat)
    (hw : w = 2 ∨ w = 4 ∨ w = 16 ∨ w = 256) (hs : seed.length = 48) (hh : GoodHeight height) :
    ∃ p k q, SpecParams w p k q ∧ 1 ≤ p.len ∧ p.len ≤ 300 ∧ XmssBasic.new S seed height hf.toNat af w =
      ok { params := ⟨p, height.toNat⟩, hashFunction := hf.toNat, addrFormat := af, height := height,
           sk := (keyOf S hf w height.toNat (lenW_pos hw) seed).sk 0, seed := seed } := by
  obtain ⟨p, k, q, hp, hsp, h1, h2, hk, hb⟩ := Props.base_ok hw
  refine ⟨p, k, q, hsp, h1, h2, ?_⟩
  obtain ⟨h4, h30, he⟩ := hh
  have hc : ¬ (2 ≥ height.toNat ∨ (height.toNat - 2) % 2 ≠ 0) := by omega
  simp only [XmssBasic.new, baseCtorCheck, hs, ne_eq, not_true, if_false, show ¬ height.toNat > 254 by omega, ok_bind]
  rw [if_neg hc, xmssSetParams, if_neg hc, hp, ok_bind, ok_bind, withHash, ofNat?_toNat]
  simp only
  rw [xmssGenkeypair_eq S hf (p := ⟨p, height.toNat⟩) hsp h1 (by simp only; omega) (lenW_pos hw) seed hs]
  rfl

theorem baseSetIndex_eq (K : KeyParts) (o : XmssBase) (i n : Nat) (h : o.sk = K.sk i) (hn : n < 2 ^ 32) :
    o.setIndex n = ok (n, { o with sk := K.sk n }) := by
  have hd := K.reindex i n
  have hl := K.length_sk i
  have hg := K.getIndex { o with sk := K.sk n } n rfl hn
  match hsk : K.sk i, hl with
  | a :: b :: c :: d :: rest, _ =>
    rw [hsk] at hd
    have e : K.sk n = UInt8.ofNat (n >>> 8 >>> 8 >>> 8) :: UInt8.ofNat (n >>> 8 >>> 8) :: UInt8.ofNat (n >>> 8) ::
        UInt8.ofNat n :: rest := by
      rw [← hd]
      simp [idxBytes, ← Nat.shiftRight_add]
    simp only [XmssBase.setIndex, h, hsk, wr, List.length_cons, show 3 < rest.length + 1 + 1 + 1 + 1 by omega,
      show 2 < rest.length + 1 + 1 + 1 + 1 by omega, show 1 < rest.length + 1 + 1 + 1 + 1 by omega,
      show 0 < rest.length + 1 + 1 + 1 + 1 by omega, if_true, ok_bind, List.set_cons_succ, List.set_cons_zero]
    rw [← e, hg, ok_bind]

theorem fillBuffer_exact (n : Nat) (d : Bytes) (h : d.length = n) : fillBuffer n d = ok d := by
  simp [fillBuffer, h]

/-- `XmssBasic::sign` at an index inside the tree. -/
theorem basicSign_eq (S : Sha256) (hf : HashFn) {w : Nat} (hw : w = 2 ∨ w = 4 ∨ w = 16 ∨ w = 256) {p : WotsParams}
    {k q : Nat} (hp : SpecParams w p k q) (hlen : 1 ≤ p.len) (o : XmssBase) (hop : o.params = ⟨p, o.height.toNat⟩)
    (hof : o.hashFunction = hf.toNat) (hh : o.height.toNat ≤ 25) (K : KeyParts)
    (hroot : K.root = Spec.node (hf.prim S) w (Spec.lenW w) K.skSeed K.ps o.height.toNat 0)
    (idx : Nat) (hidx : idx < 2 ^ o.height.toNat) (hsk : o.sk = K.sk idx) (msg : Bytes) :
    XmssBasic.sign S o msg =
      ok (Spec.signature (hf.prim S) w o.height.toNat K.skSeed K.skPrf K.ps idx msg, { o with sk := K.sk (idx + 1) }) := by
  have hpw : o.params.wots.w = w := by rw [hop]; exact hp.pw
  rw [XmssBasic.sign, hpw, Props.C22_signature_size o w hw, ok_bind, hof, withHash, ofNat?_toNat]
  simp only
  rw [hsk, hop, xmssSignmsg_eq S hf (p := ⟨p, o.height.toNat⟩) hp hlen hh K idx hidx hroot msg]
  simp only [ok_bind]
  rw [fillBuffer_exact]
  · rfl
  · rw [length_signature S hf hp hlen, hp.len]

/-- `XmssBasic::sign` beyond the last index reads outside the tree array. -/
theorem computeAuthpath_oob (S : Sha256) (hf : HashFn) (p : XmssParams) (sk ps : Bytes)
    (h1 : 1 ≤ p.wots.len) (h0 : 1 ≤ p.h) (hh : p.h ≤ 25) (idx : Nat) (hidx : 2 ^ p.h ≤ idx) (a b c d e : Nat) :
    computeAuthpathWots S hf idx sk p ps ⟨0, 0, 0, a, b, c, d, e⟩ = ub := by
  have hsz : (2 * 2 ^ p.h * 32) % 2 ^ 32 / 32 = 2 * 2 ^ p.h := by
    have : 2 ^ p.h ≤ 2 ^ 25 := Nat.pow_le_pow_right (by omega) hh
    omega
  simp only [computeAuthpathWots, show ¬ p.h ≥ 30 by omega, if_false, Adrs.derive, Adrs.setType, hsz]
  obtain ⟨t1, e1, e2, e3⟩ := authLeaves_eq S hf p sk ps h1 (2 ^ p.h) 0 (List.replicate (2 * 2 ^ p.h) none)
    0 0 0 0 0 0 0 0 (by omega) (by simp) (by intro j hj; omega)
  rw [e1, ok_bind]
  obtain ⟨t2, e4, e5, e6⟩ := authLevels_len S hf p.wots.w p.wots.len sk ps p.h p.h 0 t1 0 0 0 (by omega) e2 (by
    intro l' hl' j hj
    obtain rfl : l' = 0 := by omega
    exact e3 j (by simpa using hj))
  rw [e4, ok_bind]
  obtain ⟨m, hm⟩ : ∃ m, p.h = m + 1 := ⟨p.h - 1, by omega⟩
  have hrd : rdUse t2 ((2 ^ p.h >>> 0) + ((idx >>> 0) ^^^ 1)) = ub := by
    have hge : 2 ^ p.h ≤ Spec.sibling idx := by
      rw [Spec.sibling]
      split
      · omega
      · rename_i hodd
        have : 2 ^ p.h % 2 = 0 := by rw [hm, Nat.pow_succ]; omega
        omega
    rw [xor_one, Nat.shiftRight_zero, Nat.shiftRight_zero, rdUse, rd, List.getElem?_eq_none (by omega)]
    rfl
  have hc : authCopy t2 p.h idx p.h 0 = ub := by
    have : authCopy t2 p.h idx (m + 1) 0 = ub := by
      rw [authCopy, hrd]; rfl
    rw [← hm] at this; exact this
  rw [hc]; rfl

theorem basicSign_oob (S : Sha256) (hf : HashFn) {w : Nat} (hw : w = 2 ∨ w = 4 ∨ w = 16 ∨ w = 256) {p : WotsParams}
    {k q : Nat} (hp : SpecParams w p k q) (hlen : 1 ≤ p.len) (o : XmssBase) (hop : o.params = ⟨p, o.height.toNat⟩)
    (hof : o.hashFunction = hf.toNat) (h0 : 1 ≤ o.height.toNat) (hh : o.height.toNat ≤ 25) (K : KeyParts)
    (idx : Nat) (hidx : 2 ^ o.height.toNat ≤ idx) (h32 : idx < 2 ^ 32) (hsk : o.sk = K.sk idx) (msg : Bytes) :
    XmssBasic.sign S o msg = ub := by
  have hpw : o.params.wots.w = w := by rw [hop]; exact hp.pw
  rw [XmssBasic.sign, hpw, Props.C22_signature_size o w hw, ok_bind, hof, withHash, ofNat?_toNat]
  simp only
  rw [hsk, hop]
  have : xmssSignmsg S hf ⟨p, o.height.toNat⟩ (K.sk idx) msg = ub := by
    simp only [xmssSignmsg, K.idx idx h32, K.seed_slice, K.prf_slice, K.ps_slice, ok_bind, K.reindex, K.root_slice,
      prf_eq, toByte_eq_be, hMsg_eq, Adrs.setType, Adrs.setOTS, getSeed_eq]
    obtain ⟨b', c', d', e⟩ := wotsSign_spec S hf hp (Spec.Hmsg (hf.prim S)
          (Spec.PRF (hf.prim S) K.skPrf (Spec.be 32 idx) ++ K.root ++ Spec.be 32 idx) msg) K.skSeed K.ps idx 0 0 0
      (length_Hmsg ..)
    rw [e]
    simp only [ok_bind]
    rw [computeAuthpath_oob S hf ⟨p, o.height.toNat⟩ K.skSeed K.ps hlen h0 hh idx hidx]
    rfl
  rw [this]; rfl

end Qrl
