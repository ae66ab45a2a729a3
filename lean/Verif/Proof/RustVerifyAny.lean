import Verif.Proof.RustFastAny
/-!
# `verify` in Rust for every Winternitz parameter below 2^16
-/

namespace Qrl.Props

open Qrl.Spec

/-- `WellFormed` with the number of chains of the Rust port. -/
def RustWellFormed (w : Nat) (sig epk : Bytes) : Prop :=
  epk.length = 67 ∧ 4 ≤ keyHeight epk ∧ sig.length = 4 + 32 + 32 * rustLen w + 32 * keyHeight epk

instance (w : Nat) (sig epk : Bytes) : Decidable (RustWellFormed w sig epk) := inferInstanceAs (Decidable (_ ∧ _ ∧ _))

end Qrl.Props

namespace Qrl.Rs

open Res Qrl.Props

variable {S : Sha256}

theorem wotsPkFromSig_rsAny (hf : HashFn) {b : Build} {w : Nat} (h : Spec.RangeW w) {m : Bytes} (hm : m.length = 32) {ds : List Nat}
    (hd : Spec.rustPositions b w m = some ds) (sig : List Bytes) (ps : Bytes) (hps : ps.length = 32) (i x y z : Nat) :
    ∃ x' y' z', wotsPkFromSig b S hf (wotsParams w) sig m ps ⟨0, 0, 0, 0, i, x, y, z⟩ =
      ok (Spec.wotsPkFromSig (hf.prim S) w ps i sig ds, ⟨0, 0, 0, 0, i, x', y', z'⟩) := by
  obtain ⟨hlen, hlt⟩ := rustPositions_props h hm hd
  obtain ⟨b', c', d', e⟩ := pkFromSigLoop_eq S hf (wotsParams w) ps i (sig.zip ds)
    (by intro v hv; exact hlt v.2 (List.of_mem_zip hv).2) 0 x y z
  refine ⟨b', c', d', ?_⟩
  rw [wotsPkFromSig, verifyDigits_rs, signDigits_some h hm hd, ok_bind, pkFromSigLoop_rs S hf _ ps (by omega), take32_of hps, e]
  rfl

theorem verifyRoot_rsAny (hf : HashFn) (b : Build) {w : Nat} (hw : Spec.RangeW w) (m : Bytes) (hm : m.length = 32)
    (sig ps : Bytes) (hps : ps.length = 32) (h : Nat) (h1 : 1 ≤ h) (hsig : 36 + 32 * Spec.rustLen w + 32 * h ≤ sig.length) :
    verifyRoot b S hf (wotsParams w) m sig ps (Spec.byteVal (sig.take 4)) h =
      match Spec.rustPositions b w m with
      | none => panic
      | some ds => ok (Spec.rootFromPositions (hf.prim S) w h ps sig ds) := by
  have hl : (wotsParams w).len = Spec.rustLen w := rfl
  have hk : (wotsParams w).keysize = 32 * Spec.rustLen w := Nat.mul_comm _ _
  rw [verifyRoot]
  rw [sliceChunks_sim _ _ _ _ (sliceChunks_eq sig (wotsParams w).len 36 (by rw [hl]; omega)), ok_bind]
  cases hp : Spec.rustPositions b w m with
  | none =>
    rw [wotsPkFromSig, verifyDigits_rs, signDigits_none hw hm hp]
    rfl
  | some ds =>
    dsimp only
    obtain ⟨hlen, hlt⟩ := rustPositions_props hw hm hp
    obtain ⟨x, y, z, e⟩ := wotsPkFromSig_rsAny (S := S) hf hw hm hp (Spec.chunks sig 36 (wotsParams w).len) ps hps
      (Spec.byteVal (sig.take 4)) 0 0 0
    rw [show wotsPkFromSig b S hf (wotsParams w) (Spec.chunks sig 36 (wotsParams w).len) m ps
      (setOTS (setType {} 0) (Spec.byteVal (sig.take 4))) = _ from e]
    simp only [ok_bind]
    obtain ⟨x2, y2, z2, e2⟩ := lTree_eq S hf (wotsParams w) (Spec.wotsPkFromSig (hf.prim S) w ps
      (Spec.byteVal (sig.take 4)) (Spec.chunks sig 36 (wotsParams w).len) ds) ps (Spec.byteVal (sig.take 4)) 0 0 0 (rustLen_pos hw)
      (by simp only [Spec.wotsPkFromSig, List.length_map, List.length_zipIdx, List.length_zip, length_chunks, hlen, hl, Nat.min_self])
    have t := lTree_sim S hf (wotsParams w) (Spec.wotsPkFromSig (hf.prim S) w ps
      (Spec.byteVal (sig.take 4)) (Spec.chunks sig 36 (wotsParams w).len) ds) ps ⟨0, 0, 0, 1, Spec.byteVal (sig.take 4), 0, 0, 0⟩ (by omega)
    rw [take32_of hps] at t
    rw [show lTree S hf (wotsParams w) (Spec.wotsPkFromSig (hf.prim S) w ps
      (Spec.byteVal (sig.take 4)) (Spec.chunks sig 36 (wotsParams w).len) ds) ps (setLtree (setType {} 1) (Spec.byteVal (sig.take 4))) = _ from t _ e2]
    simp only [ok_bind]
    have v := validateAuthpath_sim S hf (Spec.ltree (hf.prim S) ps (Spec.byteVal (sig.take 4)) 0 (Spec.wotsPkFromSig (hf.prim S) w ps
      (Spec.byteVal (sig.take 4)) (Spec.chunks sig 36 (wotsParams w).len) ds)) (Spec.byteVal (sig.take 4)) sig (36 + (wotsParams w).keysize) h ps
      ⟨0, 0, 0, 2, 0, 0, 0, 0⟩ (by omega)
    rw [take32_of hps] at v
    rw [show (setType {} 2 : Adrs) = ⟨0, 0, 0, 2, 0, 0, 0, 0⟩ from rfl]
    rw [v _ (validateAuthpath_eq S hf _ _ _ _ _ _ _ _ _ h1 (by rw [hk]; omega))]
    rw [hk]
    rfl

theorem xmssVerifySig_rsAny (hf : HashFn) (b : Build) {w : Nat} (hw : Spec.RangeW w) (m sig pk : Bytes) (h : Nat) (h1 : 1 ≤ h)
    (hsig : sig.length = 36 + 32 * Spec.rustLen w + 32 * h) (hpk : pk.length = 64) :
    xmssVerifySig b S hf (wotsParams w) m sig pk h =
      match Spec.rustRootAny b S hf w h (pk.take 32) (pk.drop 32) m sig with
      | none => panic
      | some r => ok (if r = pk.take 32 then 0 else -1, m) := by
  have hk : (wotsParams w).keysize = (wotsParams w).len * 32 := rfl
  rw [xmssVerifySig]
  rw [slice, if_pos (by omega), ok_bind, be32At_sim _ _ (be32At_eq (by omega)), ok_bind, slice, if_pos (by omega), ok_bind,
    slice, if_pos (by omega), ok_bind]
  simp only [toByte_rs, toByte_eq_be, List.drop_zero]
  have hps : (pk.drop 32).take 32 = pk.drop 32 := List.take_of_length_le (by rw [List.length_drop]; omega)
  rw [hMsg_rs hf m _ (by
    rw [List.length_append, List.length_append, length_be, List.length_take, List.length_take, List.length_drop]; omega), hps]
  rw [Spec.rustRootAny, Spec.keyInSig]
  cases Spec.rustSigned hf ((sig.drop 4).take 32 ++ pk.take 32 ++ Spec.be 32 (Spec.byteVal (sig.take 4))) m with
  | none => rfl
  | some m' =>
    dsimp only
    rw [ok_bind, hMsg_eq, Option.bind_eq_bind, Option.bind_some]
    have hd : (Spec.Hmsg (hf.prim S) ((sig.drop 4).take 32 ++ pk.take 32 ++ Spec.be 32 (Spec.byteVal (sig.take 4))) m').length = 32 :=
      length_Hmsg ..
    rw [verifyRoot_rsAny hf b hw _ hd sig (pk.drop 32) (by rw [List.length_drop]; omega) h h1 (by omega), Spec.digest]
    cases Spec.rustPositions b w
      (Spec.Hmsg (hf.prim S) ((sig.drop 4).take 32 ++ pk.take 32 ++ Spec.be 32 (Spec.byteVal (sig.take 4))) m') with
    | none => rfl
    | some ds =>
      dsimp only
      rw [ok_bind, Option.bind_eq_bind, Option.bind_some]
      dsimp only
      rw [show 4 + 32 + (wotsParams w).len * 32 + h * 32 - 36 - (wotsParams w).keysize - h * 32 = 0 by rw [hk]; omega]
      by_cases hr : Spec.rootFromPositions (hf.prim S) w h (pk.drop 32) sig ds = pk.take 32
      · rw [if_neg (not_not.mpr hr), if_pos hr]; rfl
      · rw [if_pos hr, if_neg hr]; rfl

/-- What `verify` does. -/
def verifySpecAny (b : Build) (S : Sha256) (msg sig epk : Bytes) (w : Nat) : Option (Step Bytes Unit) :=
  if RustWellFormed w sig epk ∧ (epk.getD 1 0).toNat / 16 = 0 then
    (HashFn.ofNat? (keyHash epk)).map fun hf =>
      match Spec.rustRootAny b S hf w (keyHeight epk) (keyRoot epk) (keySeed epk) msg sig with
      | none => .panic
      | some r => if r = keyRoot epk then .ret () msg else .fail .invalidArgument msg
  else none

theorem verify_rsAny (b : Build) (msg sig epk : Bytes) (w : Nat) (hw : Spec.RangeW w) :
    match verifySpecAny b S msg sig epk w with
    | some r => verify b S msg sig epk w = r
    | none => ∃ e, verify b S msg sig epk w = .fail e msg := by
  have h300 := rustLen_small hw
  have hb : signatureBaseSize w = 4 + 32 + 32 * Spec.rustLen w := by
    rw [signatureBaseSize, show (wotsParams w).keysize = Spec.rustLen w * 32 from rfl, Nat.mul_comm 32]
  rw [verify, verifySpecAny]
  by_cases hl : epk.length = 67
  swap
  · rw [if_neg (show ¬ (RustWellFormed w sig epk ∧ _) from fun h => hl h.1.1), if_pos hl]; exact ⟨_, rfl⟩
  rw [if_neg (not_not.mpr hl), hb]
  have hkh : keyHeight epk ≤ 30 := by rw [keyHeight]; omega
  have hke : keyHeight epk % 2 = 0 := by rw [keyHeight]; omega
  have hku : (UInt8.ofNat (keyHeight epk)).toNat = keyHeight epk := by
    simp only [UInt8.toNat_ofNat']; omega
  by_cases hbig : sig.length > 4 + 32 + 32 * Spec.rustLen w + 254 * 32
  · rw [if_pos hbig, if_neg (by simp only [RustWellFormed]; omega)]; exact ⟨_, rfl⟩
  rw [if_neg hbig, rs_fromExtendedPk epk hl]
  cases hof : HashFn.ofNat? (keyHash epk) with
  | none =>
    dsimp only
    split
    · next heq => split at heq <;> cases heq
    · exact ⟨_, rfl⟩
  | some hf =>
    dsimp only
    by_cases hfm : (epk.getD 1 0).toNat / 16 = 0
    swap
    · rw [if_neg hfm, if_neg (fun h => hfm h.2)]; exact ⟨_, rfl⟩
    rw [if_pos hfm]
    dsimp only
    rw [getHeightFromSigSize, hb]
    by_cases hbad : sig.length < 4 + 32 + 32 * Spec.rustLen w
    · rw [if_pos hbad, if_neg (by simp only [RustWellFormed]; omega)]; exact ⟨_, rfl⟩
    rw [if_neg hbad]
    by_cases hbad2 : (sig.length - 4) % 32 ≠ 0
    · rw [if_pos hbad2, if_neg (by simp only [RustWellFormed]; omega)]; exact ⟨_, rfl⟩
    rw [if_neg hbad2]
    dsimp only
    generalize hH : (sig.length - (4 + 32 + 32 * Spec.rustLen w)) / 32 = H
    have hHl : H ≤ 254 := by omega
    have hsl : sig.length = 4 + 32 + 32 * Spec.rustLen w + 32 * H := by omega
    have hHu : (UInt8.ofNat H).toNat = H := by simp only [UInt8.toNat_ofNat']; omega
    by_cases hz : UInt8.ofNat H = 0 ∨ UInt8.ofNat (keyHeight epk) ≠ UInt8.ofNat H
    · rw [if_pos hz, if_neg]
      · exact ⟨_, rfl⟩
      · simp only [RustWellFormed]
        intro hwf
        rcases hz with hz | hz
        · have := congrArg UInt8.toNat hz
          rw [hHu] at this
          have h0 : H = 0 := this
          omega
        · apply hz
          congr 1; omega
    rw [if_neg hz]
    have hHk : keyHeight epk = H := by
      have : UInt8.ofNat (keyHeight epk) = UInt8.ofNat H := Classical.byContradiction fun h => hz (Or.inr h)
      have := congrArg UInt8.toNat this
      rw [hHu, hku] at this; exact this
    rw [hHu]
    by_cases h2H : 2 ≥ H ∨ (H - 2) % 2 ≠ 0
    · rw [if_pos h2H, if_neg (by simp only [RustWellFormed]; omega)]; exact ⟨_, rfl⟩
    rw [if_neg h2H, if_pos (by simp only [RustWellFormed]; omega)]
    rw [xmssParams, if_neg h2H]
    simp only [Option.map_some]
    have hd : (epk.drop 3).drop 32 = keySeed epk := by simp [keySeed]
    have hpk64 : (epk.drop 3).length = 64 := by rw [List.length_drop, hl]
    rw [xmssVerifySig_rsAny (S := S) hf b hw msg sig (epk.drop 3) H (by omega) (by omega) hpk64, hd, hHk]
    rw [show (epk.drop 3).take 32 = keyRoot epk from rfl]
    cases Spec.rustRootAny b S hf w H (keyRoot epk) (keySeed epk) msg sig with
    | none => rfl
    | some r =>
      dsimp only
      by_cases hr : r = keyRoot epk
      · rw [if_pos hr, if_pos hr]; rfl
      · rw [if_neg hr, if_neg hr]; rfl

/-- An honest signature leads to the root. -/
theorem rootFromPositions_honest (hf : HashFn) {w : Nat} (hw : Spec.RangeW w) (h : Nat) (sk skPrf ps : Bytes) (idx : Nat)
    (hi : idx < 2 ^ h) (h32 : idx < 2 ^ 32) (ds : List Nat) (hdl : ds.length = Spec.rustLen w) (hdlt : ∀ d ∈ ds, d < w) :
    Spec.rootFromPositions (hf.prim S) w h ps (Spec.signatureFrom (hf.prim S) w h sk skPrf ps idx ds) ds =
      Spec.node (hf.prim S) w (Spec.rustLen w) sk ps h 0 ∧
    (Spec.signatureFrom (hf.prim S) w h sk skPrf ps idx ds).take 4 = Spec.be 4 idx ∧
    ((Spec.signatureFrom (hf.prim S) w h sk skPrf ps idx ds).drop 4).take 32 = Spec.PRF (hf.prim S) skPrf (Spec.be 32 idx) := by
  generalize hr : Spec.PRF (hf.prim S) skPrf (Spec.be 32 idx) = r
  have hrl : r.length = 32 := by rw [← hr]; exact length_PRF ..
  generalize hws : Spec.wotsSig (hf.prim S) sk ps idx ds = ws
  have hwsx : ∀ x ∈ ws, x.length = 32 := by rw [← hws]; exact mem_wotsSig S hf sk ps idx ds
  have hwsl : ws.length = Spec.rustLen w := by rw [← hws]; simp [Spec.wotsSig, hdl]
  generalize hau : Spec.authPath (hf.prim S) w (Spec.rustLen w) sk ps h idx = au
  have haux : ∀ x ∈ au, x.length = 32 := by
    rw [← hau]; exact mem_authPath S hf w _ sk ps h idx (rustLen_pos hw)
  have haul : au.length = h := by rw [← hau]; simp [Spec.authPath]
  have hsig : Spec.signatureFrom (hf.prim S) w h sk skPrf ps idx ds =
      Spec.be 4 idx ++ r ++ ws.flatten ++ au.flatten := by
    rw [Spec.signatureFrom]; simp only [hr, hws, hau]
  have hb4 := length_be 4 idx
  have t1 : (Spec.be 4 idx ++ r ++ ws.flatten ++ au.flatten).take 4 = Spec.be 4 idx := by
    rw [List.append_assoc, List.append_assoc, List.take_append, List.take_of_length_le (by omega),
      hb4, Nat.sub_self, List.take_zero, List.append_nil]
  have t2 : ((Spec.be 4 idx ++ r ++ ws.flatten ++ au.flatten).drop 4).take 32 = r := by
    rw [List.append_assoc, List.append_assoc, List.drop_append, List.drop_eq_nil_of_le (by omega), hb4,
      Nat.sub_self, List.nil_append, List.drop_zero, List.take_append, List.take_of_length_le (by omega), hrl,
      Nat.sub_self, List.take_zero, List.append_nil]
  have t3 : Spec.chunks (Spec.be 4 idx ++ r ++ ws.flatten ++ au.flatten) 36 (Spec.rustLen w) = ws := by
    rw [List.append_assoc, ← hwsl]
    exact chunks_flatten _ ws hwsx _ 36 (by simp [hb4, hrl])
  have t4 : Spec.chunks (Spec.be 4 idx ++ r ++ ws.flatten ++ au.flatten) (36 + 32 * Spec.rustLen w) h = au := by
    have := chunks_flatten (Spec.be 4 idx ++ r ++ ws.flatten) au haux [] (36 + 32 * Spec.rustLen w)
      (by simp only [List.length_append, hb4, hrl, length_flatten32 ws hwsx, hwsl])
    rw [List.append_nil, haul] at this
    exact this
  have t5 : Spec.byteVal (Spec.be 4 idx) = idx := by rw [byteVal_be, Nat.mod_eq_of_lt (by omega)]
  simp only [hsig, Spec.rootFromPositions, t1, t2, t3, t4, t5]
  refine ⟨?_, trivial, trivial⟩
  rw [← hws, wotsPkFromSig_wotsSig (hf.prim S) w (Spec.rustLen w) sk ps idx ds hdl hdlt, ← hau]
  exact climb_authPath (hf.prim S) w (Spec.rustLen w) sk ps h idx hi

end Qrl.Rs
