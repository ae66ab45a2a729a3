import Verif.Proof.Verify
import Verif.Model.XmssApi

namespace Qrl

open Outcome

theorem u8_ofNat_mod (v : Nat) : UInt8.ofNat (v % 256) = UInt8.ofNat v := by
  apply UInt8.toNat_inj.mp; simp

theorem idxBytes_eq (i : Nat) : idxBytes i = Spec.be 4 i := by
  rw [← toByte_eq_be]
  simp only [idxBytes, toByte, List.nil_append, List.cons_append, u8_ofNat_mod, Nat.shiftRight_eq_div_pow,
    Nat.div_div_eq_div_mul]

/-- The secret key layout. -/
def skOf (idx : Nat) (skSeed skPrf ps root : Bytes) : Bytes := Spec.be 4 idx ++ skSeed ++ skPrf ++ ps ++ root

/-- The fixed part of a key. -/
structure KeyParts where
  skSeed : Bytes
  skPrf : Bytes
  ps : Bytes
  root : Bytes
  l1 : skSeed.length = 32
  l2 : skPrf.length = 32
  l3 : ps.length = 32
  l4 : root.length = 32

/-- The secret key with index `i`. -/
def KeyParts.sk (K : KeyParts) (i : Nat) : Bytes := skOf i K.skSeed K.skPrf K.ps K.root

theorem KeyParts.length_sk (K : KeyParts) (i : Nat) : (K.sk i).length = 132 := by
  simp [KeyParts.sk, skOf, length_be, K.l1, K.l2, K.l3, K.l4]

theorem slice_mid (a b c : Bytes) : slice (a ++ (b ++ c)) a.length b.length = ok b := by
  rw [slice_eq_ok (by simp)]
  simp

theorem KeyParts.seed_slice (K : KeyParts) (i : Nat) : slice (K.sk i) 4 32 = ok K.skSeed := by
  have := slice_mid (Spec.be 4 i) K.skSeed (K.skPrf ++ K.ps ++ K.root)
  rw [length_be, K.l1] at this
  rw [← this, KeyParts.sk, skOf]; simp

theorem KeyParts.prf_slice (K : KeyParts) (i : Nat) : slice (K.sk i) 36 32 = ok K.skPrf := by
  have := slice_mid (Spec.be 4 i ++ K.skSeed) K.skPrf (K.ps ++ K.root)
  rw [List.length_append, length_be, K.l1, K.l2] at this
  rw [← this, KeyParts.sk, skOf]; simp

theorem KeyParts.ps_slice (K : KeyParts) (i : Nat) : slice (K.sk i) 68 32 = ok K.ps := by
  have := slice_mid (Spec.be 4 i ++ K.skSeed ++ K.skPrf) K.ps K.root
  rw [List.length_append, List.length_append, length_be, K.l1, K.l2, K.l3] at this
  rw [← this, KeyParts.sk, skOf]; simp

theorem KeyParts.root_slice (K : KeyParts) (i : Nat) : slice (K.sk i) 100 32 = ok K.root := by
  have := slice_mid (Spec.be 4 i ++ K.skSeed ++ K.skPrf ++ K.ps) K.root []
  rw [List.length_append, List.length_append, List.length_append, length_be, K.l1, K.l2, K.l3, K.l4] at this
  rw [← this, KeyParts.sk, skOf]; simp

theorem KeyParts.idx (K : KeyParts) (i : Nat) (hi : i < 2 ^ 32) : be32At (K.sk i) = ok i := by
  rw [be32At_eq (by rw [K.length_sk]; omega)]
  have : (K.sk i).take 4 = Spec.be 4 i := by
    rw [KeyParts.sk, skOf]
    simp only [List.append_assoc]
    rw [List.take_append, List.take_of_length_le (Nat.le_of_eq (length_be ..)), length_be, Nat.sub_self, List.take_zero,
      List.append_nil]
  rw [this, byteVal_be, Nat.mod_eq_of_lt (by omega)]

theorem KeyParts.drop4 (K : KeyParts) (i : Nat) :
    (K.sk i).drop 4 = K.skSeed ++ K.skPrf ++ K.ps ++ K.root := by
  rw [KeyParts.sk, skOf]
  simp only [List.append_assoc]
  rw [List.drop_append, List.drop_eq_nil_of_le (Nat.le_of_eq (length_be ..)), length_be, Nat.sub_self, List.drop_zero,
    List.nil_append]

theorem KeyParts.reindex (K : KeyParts) (i j : Nat) : idxBytes j ++ (K.sk i).drop 4 = K.sk j := by
  rw [K.drop4, idxBytes_eq, KeyParts.sk, skOf]; simp

theorem KeyParts.getIndex (K : KeyParts) (o : XmssBase) (i : Nat) (h : o.sk = K.sk i) (hi : i < 2 ^ 32) :
    o.getIndex = ok i := by
  have := K.idx i hi
  rw [XmssBase.getIndex, h]
  have hl := K.length_sk i
  match hsk : K.sk i, hl with
  | a :: b :: c :: d :: rest, _ =>
    rw [hsk] at this
    have hb := b.toNat_lt; have hc := c.toNat_lt; have hd := d.toNat_lt; have ha := a.toNat_lt
    simp only [be32At, rd, List.getElem?_cons_zero, List.getElem?_cons_succ, ofOption_some, ok_bind,
      or4_eq a.toNat b.toNat c.toNat d.toNat (by omega) (by omega) (by omega)] at this ⊢
    rw [Outcome.ok.injEq] at this ⊢
    simp only [Nat.shiftLeft_eq]
    omega

theorem wotsSign_spec (S : Sha256) (hf : HashFn) {w : Nat} {p : WotsParams} {k q : Nat}
    (hp : SpecParams w p k q) (m sk ps : Bytes) (i b c d : Nat) (hm : m.length = 32) :
    ∃ b' c' d', wotsSign S hf p m (Spec.PRF (hf.prim S) sk (Spec.address 0 i 0 0 0)) ps ⟨0, 0, 0, 0, i, b, c, d⟩ =
      ok (Spec.wotsSig (hf.prim S) sk ps i (Spec.wotsDigits w m), ⟨0, 0, 0, 0, i, b', c', d'⟩) := by
  have hlt := wotsDigits_lt hp m hm
  have hlen := length_wotsDigits hp m hm
  obtain ⟨b', c', d', e⟩ := wotsSignLoop_eq S hf p ps i
    ((expandSeed S hf (Spec.PRF (hf.prim S) sk (Spec.address 0 i 0 0 0)) p.len).zip (Spec.wotsDigits w m))
    (by intro y hy; rw [hp.pw]; exact Nat.le_of_lt (hlt y.2 (List.of_mem_zip hy).2)) 0 b c d
  refine ⟨b', c', d', ?_⟩
  rw [wotsSign, signDigits_spec hp m hm, ok_bind, e]
  congr 2
  apply List.ext_getElem
  · simp [Spec.wotsSig, expandSeed_eq, hlen]
  · intro j h1 h2
    simp only [List.getElem_map, List.getElem_zipIdx, List.getElem_zip, Spec.wotsSig, expandSeed_eq,
      List.getElem_range, Nat.zero_add]
    rfl

/-- The signature assembled by the signers from its four parts. -/
theorem signature_parts (S : Sha256) (hf : HashFn) (w h : Nat) (K : KeyParts) (idx : Nat) (msg : Bytes)
    (hroot : K.root = Spec.node (hf.prim S) w (Spec.lenW w) K.skSeed K.ps h 0) :
    Spec.signature (hf.prim S) w h K.skSeed K.skPrf K.ps idx msg =
      idxBytes idx ++ Spec.PRF (hf.prim S) K.skPrf (Spec.be 32 idx) ++
        (Spec.wotsSig (hf.prim S) K.skSeed K.ps idx (Spec.wotsDigits w (Spec.Hmsg (hf.prim S)
          (Spec.PRF (hf.prim S) K.skPrf (Spec.be 32 idx) ++ K.root ++ Spec.be 32 idx) msg))).flatten ++
        (Spec.authPath (hf.prim S) w (Spec.lenW w) K.skSeed K.ps h idx).flatten := by
  rw [Spec.signature, idxBytes_eq, hroot]; rfl

/-- `xmss_Signmsg` at an index inside the tree. -/
theorem xmssSignmsg_eq (S : Sha256) (hf : HashFn) {w : Nat} {p : XmssParams} {k q : Nat}
    (hp : SpecParams w p.wots k q) (hlen : 1 ≤ p.wots.len) (hh : p.h ≤ 25) (K : KeyParts) (idx : Nat)
    (hidx : idx < 2 ^ p.h) (hroot : K.root = Spec.node (hf.prim S) w (Spec.lenW w) K.skSeed K.ps p.h 0)
    (msg : Bytes) :
    xmssSignmsg S hf p (K.sk idx) msg =
      ok (K.sk (idx + 1), Spec.signature (hf.prim S) w p.h K.skSeed K.skPrf K.ps idx msg) := by
  have h32 : idx < 2 ^ 32 := Nat.lt_of_lt_of_le hidx (Nat.pow_le_pow_right (by omega) (by omega))
  simp only [xmssSignmsg, K.idx idx h32, K.seed_slice, K.prf_slice, K.ps_slice, ok_bind, K.reindex, K.root_slice,
    prf_eq, toByte_eq_be, hMsg_eq, Adrs.setType, Adrs.setOTS, getSeed_eq]
  obtain ⟨b', c', d', e⟩ := wotsSign_spec S hf hp (Spec.Hmsg (hf.prim S)
          (Spec.PRF (hf.prim S) K.skPrf (Spec.be 32 idx) ++ K.root ++ Spec.be 32 idx) msg) K.skSeed K.ps idx 0 0 0
    (length_Hmsg ..)
  rw [e]
  simp only [ok_bind]
  rw [computeAuthpathWots_eq S hf p K.skSeed K.ps hlen hh idx hidx]
  simp only [ok_bind]
  rw [signature_parts S hf w p.h K idx msg hroot, hp.len, hp.pw]

end Qrl
