import Verif.Proof.BasicApi
import Verif.Spec.History

namespace Qrl

open Outcome

theorem getPK_eq (K : KeyParts) (o : XmssBase) (i : Nat) (h : o.sk = K.sk i) :
    o.getPK = ok (o.getDescriptorBytes ++ K.root ++ K.ps) := by
  rw [XmssBase.getPK, XmssBase.getRoot, XmssBase.getPKSeed, h, K.root_slice, K.ps_slice]; rfl

theorem length_descBytes (o : XmssBase) : o.getDescriptorBytes.length = 3 := by
  simp [XmssBase.getDescriptorBytes, Descriptor.getBytes]

theorem pk_fields (K : KeyParts) (o : XmssBase) (hf : HashFn) (hof : o.hashFunction = hf.toNat)
    (hh : GoodHeight o.height) :
    (o.getDescriptorBytes ++ K.root ++ K.ps).length = 67 ∧
    Props.keyHash (o.getDescriptorBytes ++ K.root ++ K.ps) = hf.toNat ∧
    Props.keyHeight (o.getDescriptorBytes ++ K.root ++ K.ps) = o.height.toNat ∧
    Props.keyRoot (o.getDescriptorBytes ++ K.root ++ K.ps) = K.root ∧
    Props.keySeed (o.getDescriptorBytes ++ K.root ++ K.ps) = K.ps := by
  obtain ⟨h4, h30, he⟩ := hh
  have e : o.getDescriptorBytes = [UInt8.ofNat (16 * 0 + hf.toNat % 16),
      UInt8.ofNat (16 * o.addrFormat + o.height.toNat / 2 % 16), 0] := by
    rw [XmssBase.getDescriptorBytes, Props.getBytes_eq, XmssBase.getDescriptor, hof]; rfl
  have hl := length_descBytes o
  have hn : hf.toNat ≤ 2 := by cases hf <;> decide
  refine ⟨by simp [hl, K.l4, K.l3], ?_, ?_, ?_, ?_⟩
  · rw [e]; simp only [Props.keyHash, List.cons_append, List.getD_cons_zero, UInt8.toNat_ofNat']; omega
  · rw [e]
    simp only [Props.keyHeight, List.cons_append, List.getD_cons_succ, List.getD_cons_zero, UInt8.toNat_ofNat']
    omega
  · rw [Props.keyRoot, List.append_assoc, List.drop_append, List.drop_eq_nil_of_le (by omega), hl, Nat.sub_self,
      List.drop_zero, List.nil_append, List.take_append, List.take_of_length_le (by rw [K.l4]), K.l4, Nat.sub_self,
      List.take_zero, List.append_nil]
  · rw [Props.keySeed, List.drop_append, List.drop_eq_nil_of_le (by simp [hl, K.l4]), List.length_append, hl, K.l4,
      List.nil_append]
    rfl

/-- An honest signature verifies under the public key of the object. -/
theorem verify_honest (S : Sha256) (hf : HashFn) {w : Nat} (hw : w = 2 ∨ w = 4 ∨ w = 16 ∨ w = 256)
    (K : KeyParts) (o : XmssBase) (i : Nat) (h : o.sk = K.sk i) (hof : o.hashFunction = hf.toNat)
    (hh : GoodHeight o.height)
    (hroot : K.root = Spec.node (hf.prim S) w (Spec.lenW w) K.skSeed K.ps o.height.toNat 0)
    (idx : Nat) (hidx : idx < 2 ^ o.height.toNat) (msg : Bytes) :
    ∃ pk, o.getPK = ok pk ∧
      verify S msg (Spec.signature (hf.prim S) w o.height.toNat K.skSeed K.skPrf K.ps idx msg) pk w = ok true := by
  obtain ⟨f1, f2, f3, f4, f5⟩ := pk_fields K o hf hof hh
  refine ⟨_, getPK_eq K o i h, ?_⟩
  obtain ⟨p, k, q, hp, hs, h1, h2, hk, hb⟩ := Props.base_ok hw
  rw [Props.C20_verify_spec S msg _ _ w hw, if_pos]
  · rw [f2, ofNat?_toNat]
    simp only [f3, f4, f5]
    have := rootFromSig_signature S hf hs h1 o.height.toNat (by have := hh.2.1; omega) K.skSeed K.skPrf K.ps idx hidx msg
    rw [← hroot] at this
    simp [this]
  · exact ⟨f1, by rw [f3]; exact hh.1, by rw [f3, length_signature S hf hs h1, hs.len]⟩

theorem sigIndex_signature (S : Sha256) (hf : HashFn) (w h : Nat) (sk skPrf ps : Bytes) (idx : Nat) (msg : Bytes)
    (hi : idx < 2 ^ 32) : sigIndex (Spec.signature (hf.prim S) w h sk skPrf ps idx msg) = idx := by
  rw [sigIndex, Spec.signature]
  simp only [List.append_assoc]
  rw [List.take_append, List.take_of_length_le (Nat.le_of_eq (length_be ..)), length_be, Nat.sub_self, List.take_zero,
    List.append_nil, byteVal_be, Nat.mod_eq_of_lt (by omega)]

/-- Every object reached from a fresh `XmssBasic` is the fresh one with another index, and each returned
signature is the specified one for an index below `2^height`. -/
theorem basic_reach (S : Sha256) (hf : HashFn) {w : Nat} (hw : w = 2 ∨ w = 4 ∨ w = 16 ∨ w = 256) {p : WotsParams}
    {k q : Nat} (hp : SpecParams w p k q) (hlen : 1 ≤ p.len) (K : KeyParts)
    (cs : List Call) : ∀ (o : XmssBase) (i : Nat) (rs : List Reply) (o' : XmssBase),
      o.params = ⟨p, o.height.toNat⟩ → o.hashFunction = hf.toNat → 1 ≤ o.height.toNat → o.height.toNat ≤ 25 →
      K.root = Spec.node (hf.prim S) w (Spec.lenW w) K.skSeed K.ps o.height.toNat 0 →
      o.sk = K.sk i → i < 2 ^ 32 → runCalls (XmssBasic.call S) o cs = some (rs, o') →
      ∃ j, j < 2 ^ 32 ∧ o' = { o with sk := K.sk j } := by
  induction cs with
  | nil =>
    intro o i rs o' _ _ _ _ _ hsk hi h
    simp only [runCalls, Option.some.injEq, Prod.mk.injEq] at h
    refine ⟨i, hi, ?_⟩
    rw [← h.2, ← hsk]
  | cons c cs ih =>
    intro o i rs o' hop hof h0 hh hroot hsk hi h
    rw [runCalls] at h
    have key : ∀ r o1, XmssBasic.call S o c = some (r, o1) → ∃ j, j < 2 ^ 32 ∧ o1 = { o with sk := K.sk j } := by
      intro r o1 hc
      cases c with
      | setIndex n =>
        simp only [XmssBasic.call, baseSetIndex_eq K o i n.toNat hsk n.toNat_lt, Option.some.injEq,
          Prod.mk.injEq] at hc
        exact ⟨n.toNat, n.toNat_lt, hc.2.symm⟩
      | sign m =>
        rcases Nat.lt_or_ge i (2 ^ o.height.toNat) with hlt | hge
        · simp only [XmssBasic.call, basicSign_eq S hf hw hp hlen o hop hof hh K hroot i hlt hsk m,
            Option.some.injEq, Prod.mk.injEq] at hc
          refine ⟨i + 1, ?_, hc.2.symm⟩
          have : 2 ^ o.height.toNat ≤ 2 ^ 25 := Nat.pow_le_pow_right (by omega) hh
          omega
        · simp [XmssBasic.call, basicSign_oob S hf hw hp hlen o hop hof h0 hh K i hge hi hsk m] at hc
    cases hc : XmssBasic.call S o c with
    | none => rw [hc] at h; cases h
    | some ro =>
      obtain ⟨r, o1⟩ := ro
      obtain ⟨j, hj, rfl⟩ := key r o1 hc
      rw [hc] at h
      simp only at h
      cases hr : runCalls (XmssBasic.call S) { o with sk := K.sk j } cs with
      | none => rw [hr] at h; cases h
      | some x =>
        obtain ⟨rs2, o2⟩ := x
        rw [hr] at h
        simp only [Option.some.injEq, Prod.mk.injEq] at h
        obtain ⟨j2, hj2, e2⟩ := ih { o with sk := K.sk j } j rs2 o2 hop hof h0 hh hroot rfl hj hr
        exact ⟨j2, hj2, by rw [← h.2, e2]⟩

end Qrl
