import Verif.Proof.RustAnyW
import Verif.Proof.FastAny
/-!
# The Rust signers and verifier for every Winternitz parameter below 2^16
-/

namespace Qrl.Rs

open Res

variable {S : Sha256}

theorem oneByte_props {w : Nat} (hw : 1 ≤ w) (k : Nat) (x : UInt8) :
    (Spec.oneByte w k x).length = k ∧ ∀ d ∈ Spec.oneByte w k x, d < w := by
  constructor
  · simp [Spec.oneByte]
  · intro d hd
    obtain ⟨j, -, rfl⟩ := List.mem_map.mp hd
    have := Nat.and_le_right (n := x.toNat / 2 ^ ((8 - Spec.lgW w * (j + 1) % 8) % 8)) (m := w - 1)
    omega

theorem rustLen_usable {w : Nat} (hw : Spec.UsableW w) : Spec.rustLen w = Spec.lenW w := by
  obtain ⟨k, q, hp⟩ := usable_params hw
  rw [hp.len]; rfl

theorem rustLen_pos {w : Nat} (h : Spec.RangeW w) : 1 ≤ Spec.rustLen w :=
  Nat.le_trans (len2_range h.1 h.2).1 (Nat.le_add_left _ _)

theorem rustLen_small {w : Nat} (h : Spec.RangeW w) : Spec.rustLen w ≤ 300 := by
  have a := (len2_range h.1 h.2).2
  obtain ⟨l1, l15, -, -⟩ := log_range h.1 h.2
  have c := (len1_range l1 l15).1
  show (wotsParams w).len1 + (wotsParams w).len2 ≤ 300
  have : (wotsParams w).len1 ≤ 256 := c
  omega

/-- Number and size of the positions. -/
theorem rustPositions_props {b : Build} {w : Nat} (h : Spec.RangeW w) {m : Bytes} (hm : m.length = 32) {ds : List Nat}
    (hd : Spec.rustPositions b w m = some ds) : ds.length = Spec.rustLen w ∧ ∀ d ∈ ds, d < w := by
  rw [Spec.rustPositions.eq_def] at hd
  by_cases hw : Spec.UsableW w
  · rw [if_pos hw] at hd
    cases hd
    obtain ⟨k, q, hp⟩ := usable_params hw
    exact ⟨length_positions hp m hm, positions_lt hp m⟩
  · rw [if_neg hw] at hd
    cases b with
    | debug => cases hd
    | release =>
      cases hd
      have h1 : 1 ≤ w := by have := h.1; omega
      rw [Spec.stuckPositions]
      constructor
      · rw [List.length_append, (oneByte_props h1 _ _).1, (oneByte_props h1 _ _).1, Spec.rustLen]
      · intro d hd
        rcases List.mem_append.mp hd with hd | hd
        · exact (oneByte_props h1 _ _).2 d hd
        · exact (oneByte_props h1 _ _).2 d hd

theorem signDigits_some {b : Build} {w : Nat} (h : Spec.RangeW w) {m : Bytes} (hm : m.length = 32) {ds : List Nat}
    (hd : Spec.rustPositions b w m = some ds) : signDigits b (wotsParams w) m = ok ds := by
  rw [signDigits_rs b h.1 h.2 m hm, hd]

theorem signDigits_none {b : Build} {w : Nat} (h : Spec.RangeW w) {m : Bytes} (hm : m.length = 32)
    (hd : Spec.rustPositions b w m = none) : signDigits b (wotsParams w) m = panic := by
  rw [signDigits_rs b h.1 h.2 m hm, hd]

theorem wotsSign_rsAny (hf : HashFn) {b : Build} {w : Nat} (h : Spec.RangeW w) {m : Bytes} (hm : m.length = 32) {ds : List Nat}
    (hd : Spec.rustPositions b w m = some ds) (sk ps : Bytes) (hps : ps.length = 32) (i x y z : Nat) :
    ∃ x' y' z', wotsSign b S hf (wotsParams w) m (Spec.PRF (hf.prim S) sk (Spec.address 0 i 0 0 0)) ps ⟨0, 0, 0, 0, i, x, y, z⟩ =
      ok (Spec.wotsSig (hf.prim S) sk ps i ds, ⟨0, 0, 0, 0, i, x', y', z'⟩) := by
  obtain ⟨hlen, hlt⟩ := rustPositions_props h hm hd
  have hl : (Spec.PRF (hf.prim S) sk (Spec.address 0 i 0 0 0)).length = 32 := length_PRF ..
  obtain ⟨b', c', d', e⟩ := wotsSignLoop_eq S hf (wotsParams w) ps i
    ((Qrl.expandSeed S hf (Spec.PRF (hf.prim S) sk (Spec.address 0 i 0 0 0)) (wotsParams w).len).zip ds)
    (by intro v hv; exact Nat.le_of_lt (hlt v.2 (List.of_mem_zip hv).2)) 0 x y z
  refine ⟨b', c', d', ?_⟩
  rw [wotsSign, signDigits_some h hm hd, ok_bind, expandSeed, expandSeedLoop_rs S hf _ (by omega), ok_bind,
    wotsSignLoop_rs S hf _ ps (by omega), take32_of hl, take32_of hps,
    show Qrl.expandSeedLoop S hf (Spec.PRF (hf.prim S) sk (Spec.address 0 i 0 0 0)) 0 (wotsParams w).len =
      Qrl.expandSeed S hf (Spec.PRF (hf.prim S) sk (Spec.address 0 i 0 0 0)) (wotsParams w).len from rfl, e]
  congr 2
  have hl2 : (wotsParams w).len = Spec.rustLen w := rfl
  apply List.ext_getElem
  · simp [Spec.wotsSig, expandSeed_eq, hlen, hl2]
  · intro j h1 h2
    simp only [List.getElem_map, List.getElem_zipIdx, List.getElem_zip, Spec.wotsSig, expandSeed_eq,
      List.getElem_range, Nat.zero_add]
    rfl

/-- What is known of an `XMSSFast` whose tree was just built with `w`. -/
structure FastW (S : Sha256) (w : Nat) (K : KeyParts) (o0 : XMSSFast) : Prop where
  range : Spec.RangeW w
  hop : o0.params = ⟨wotsParams w, o0.height.toNat⟩
  hh : GoodHeight o0.height
  hroot : K.root = Spec.node (o0.hashFunction.prim S) w (Spec.rustLen w) K.skSeed K.ps o0.height.toNat 0
  hsk : o0.sk = K.sk 0
  init : BdsInv (Spec.node (o0.hashFunction.prim S) w (Spec.rustLen w) K.skSeed K.ps) o0.height.toNat 0 (fun _ => none) o0.state

namespace FastW

variable {w : Nat} {K : KeyParts} {o0 : XMSSFast} (H : FastW S w K o0)
include H

theorem zero : fastAt S K o0 0 = o0 := by
  have e : stAt S o0.hashFunction o0.params K.skSeed K.ps o0.state 0 = o0.state := rfl
  rw [fastAt, Nat.zero_min, e, ← H.hsk]

theorem pow_le : 2 ^ o0.height.toNat ≤ 2 ^ 30 := Nat.pow_le_pow_right (by omega) H.hh.2.1

theorem h_eq : o0.params.h = o0.height.toNat := by rw [H.hop]

theorem lenw : 1 ≤ o0.params.wots.len := by rw [H.hop]; exact rustLen_pos H.range

theorem init' : BdsInv (Spec.node (o0.hashFunction.prim S) o0.params.wots.w o0.params.wots.len K.skSeed K.ps)
    o0.params.h 0 (fun _ => none) o0.state := by
  rw [H.hop]; exact H.init

theorem getIndex (i : Nat) (hi : i ≤ 2 ^ o0.height.toNat) : (fastAt S K o0 i).getIndex = ok i :=
  have := H.pow_le
  getIndex_sim (fastAt S K o0 i).toXMSSBase o0.params i (K.getIndex _ i rfl (by omega))

theorem setIndex_ok (b : Build) (i n : Nat) (hi : i ≤ n) (hn : n < 2 ^ o0.height.toNat) :
    (fastAt S K o0 i).setIndex b S n = .ret n (fastAt S K o0 n) := by
  have hlt := H.pow_le
  have h30 := H.hh.2.1
  have hadv := adv_skip_rs o0.hashFunction o0.params K.skSeed K.ps H.lenw K.l1 K.l3 (by rw [H.h_eq]; exact H.hh.1)
    (by rw [H.h_eq]; exact h30) (by rw [H.h_eq]; exact H.hh.2.2) H.init' (n - i) i (by rw [H.h_eq]; omega)
  have e : min i (2 ^ o0.height.toNat - 1) = i := by omega
  have e2 : min n (2 ^ o0.height.toNat - 1) = n := by omega
  have s1 := sim_slice _ _ _ _ (K.seed_slice i)
  have s2 := sim_slice _ _ _ _ (K.ps_slice i)
  have s3 := be32At_sim _ _ (K.idx i (by omega))
  have sh : shl1 b o0.height.toNat = ok (2 ^ o0.height.toNat) :=
    shl1_lt b (Nat.lt_of_le_of_lt h30 (by omega))
  rw [XMSSFast.setIndex, xmssFastUpdate]
  simp only [fastAt, H.h_eq, sh, s3, ok_bind, e]
  rw [if_neg (by omega), if_neg (by omega)]
  simp only [s1, s2, ok_bind, hadv, show i + (n - i) = n by omega, e2]
  rw [show idxBytes n ++ (K.sk i).drop 4 = K.sk n from K.reindex i n]
  rfl

theorem setIndex_fail (b : Build) (i n : Nat) (hi : i ≤ 2 ^ o0.height.toNat)
    (hn : 2 ^ o0.height.toNat ≤ n ∨ n < i) :
    (fastAt S K o0 i).setIndex b S n = .fail .invalidArgument (fastAt S K o0 i) := by
  have hlt := H.pow_le
  have h30 := H.hh.2.1
  have s3 := be32At_sim _ _ (K.idx i (by omega))
  have sh : shl1 b o0.height.toNat = ok (2 ^ o0.height.toNat) :=
    shl1_lt b (Nat.lt_of_le_of_lt h30 (by omega))
  rw [XMSSFast.setIndex, xmssFastUpdate]
  simp only [fastAt, H.h_eq, sh, s3, ok_bind]
  by_cases hc : n ≥ 2 ^ o0.height.toNat
  · rw [if_pos hc]; rfl
  · rw [if_neg hc, if_pos (by omega)]; rfl

/-- The specified signature. -/
def _root_.Qrl.Rs.sigW (b : Build) (S : Sha256) (f : HashFn) (w h : Nat) (K : KeyParts) (i : Nat) (m : Bytes) : Option Bytes :=
  Spec.rustSignatureAny b S f w h K.skSeed K.skPrf K.ps i m

/-- Up to the digest. -/
theorem signmsg_digest (b : Build) (i : Nat) (hi : i < 2 ^ o0.height.toNat) (st : BdsState) (m : Bytes) :
    xmssFastSignMsg b S o0.hashFunction o0.params (K.sk i) st m =
      match Spec.rustSigned o0.hashFunction (Spec.PRF (o0.hashFunction.prim S) K.skPrf (Spec.be 32 i) ++ K.root ++ Spec.be 32 i) m with
      | none => panic
      | some m' =>
        fastSignDigest b S o0.hashFunction o0.params st K.skSeed K.ps (Spec.PRF (o0.hashFunction.prim S) K.skPrf (Spec.be 32 i))
          (Spec.digest (o0.hashFunction.prim S) (Spec.PRF (o0.hashFunction.prim S) K.skPrf (Spec.be 32 i)) K.root i m') i >>=
          fun x => ok (x.1, (K.sk (i + 1), x.2)) := by
  have hlt := H.pow_le
  have s0 := be32At_sim _ _ (K.idx i (by omega))
  have s1 := sim_slice _ _ _ _ (K.seed_slice i)
  have s2 := sim_slice _ _ _ _ (K.prf_slice i)
  have s3 := sim_slice _ _ _ _ (K.ps_slice i)
  have s4 := sim_slice _ _ _ _ (K.root_slice (i + 1))
  rw [xmssFastSignMsg]
  simp only [s0, s1, s2, s3, ok_bind, u32_lt b (show i + 1 < 2 ^ 32 by omega), toByte_rs]
  rw [prf_rs S _ _ K.skPrf (length_toByte _ _) (by rw [K.l2]), take32_of K.l2]
  simp only [ok_bind, prf_eq, toByte_eq_be]
  rw [show idxBytes (i + 1) ++ (K.sk i).drop 4 = K.sk (i + 1) from K.reindex i (i + 1), s4]
  simp only [ok_bind]
  rw [hMsg_rs _ _ _ (length_signKey _ K i)]
  cases Spec.rustSigned o0.hashFunction (Spec.PRF (o0.hashFunction.prim S) K.skPrf (Spec.be 32 i) ++ K.root ++ Spec.be 32 i) m with
  | none => rfl
  | some m' =>
    dsimp only
    rw [ok_bind, hMsg_eq]
    rfl

theorem signDigest (b : Build) (i : Nat) (hi : i < 2 ^ o0.height.toNat) (r d : Bytes) (hd : d.length = 32) :
    fastSignDigest b S o0.hashFunction o0.params (stAt S o0.hashFunction o0.params K.skSeed K.ps o0.state i) K.skSeed K.ps r d i =
      match Spec.rustPositions b w d with
      | none => panic
      | some ds => ok (Spec.be 4 i ++ r ++ (Spec.wotsSig (o0.hashFunction.prim S) K.skSeed K.ps i ds).flatten ++
          (Spec.authPath (o0.hashFunction.prim S) w (Spec.rustLen w) K.skSeed K.ps o0.height.toNat i).flatten,
          stAt S o0.hashFunction o0.params K.skSeed K.ps o0.state (min (i + 1) (2 ^ o0.height.toNat - 1))) := by
  have hlt := H.pow_le
  have h30 := H.hh.2.1
  have hl : (Spec.PRF (o0.hashFunction.prim S) K.skSeed (Spec.address 0 i 0 0 0)).length = 32 := length_PRF ..
  have e7 : o0.params.wots = wotsParams w := by rw [H.hop]
  rw [fastSignDigest, getSeed_rs S _ _ _ (by rw [K.l1]), take32_of K.l1]
  simp only [ok_bind, setType, setOTS, getSeed_eq, e7]
  cases hp : Spec.rustPositions b w d with
  | none =>
    rw [wotsSign, signDigits_none H.range hd hp]
    rfl
  | some ds =>
    dsimp only
    obtain ⟨x', y', z', e⟩ := wotsSign_rsAny (S := S) o0.hashFunction H.range hd hp K.skSeed K.ps K.l3 i 0 0 0
    have e' : wotsSign b S o0.hashFunction (wotsParams w) d (Spec.PRF (o0.hashFunction.prim S) K.skSeed (Spec.address 0 i 0 0 0)) K.ps
      ⟨0, 0, 0, 0, i, 0, 0, 0⟩ = _ := e
    rw [e']
    simp only [ok_bind]
    obtain ⟨T, hinv⟩ := (adv_inv S o0.hashFunction o0.params K.skSeed K.ps H.lenw (by rw [H.h_eq]; exact H.hh.1)
      (by rw [H.h_eq]; exact h30) (by rw [H.h_eq]; exact H.hh.2.2) H.init' i (by rw [H.h_eq]; exact hi)).2
    rw [H.h_eq] at hinv
    have hpath := authOut_sim _ _ _ _ (authOut_eq _ o0.height.toNat i _ hinv.auth.auth o0.height.toNat 0 (by omega))
    rw [H.h_eq, hpath, ok_bind, shl1_lt b (Nat.lt_of_le_of_lt h30 (by omega)), ok_bind]
    have hauth : (List.range' 0 o0.height.toNat).map (fun l =>
          Spec.node (o0.hashFunction.prim S) o0.params.wots.w o0.params.wots.len K.skSeed K.ps l (Spec.sibling (i / 2 ^ l))) =
        Spec.authPath (o0.hashFunction.prim S) w (Spec.rustLen w) K.skSeed K.ps o0.height.toNat i := by
      rw [Spec.authPath, List.range_eq_range', e7]; rfl
    rw [hauth, show idxBytes i = Spec.be 4 i from idxBytes_eq i]
    by_cases hc : i < 2 ^ o0.height.toNat - 1
    · rw [if_pos hc]
      have hstep := adv_step_rs o0.hashFunction o0.params K.skSeed K.ps H.lenw K.l1 K.l3 (by rw [H.h_eq]; exact H.hh.1)
        (by rw [H.h_eq]; exact h30) (by rw [H.h_eq]; exact H.hh.2.2) H.init' i (by rw [H.h_eq]; omega) 0 i x' y' z'
      rw [H.h_eq] at hstep
      rw [← Res.bind_assoc, hstep, ok_bind, Nat.min_eq_left (by omega)]
    · rw [if_neg hc, show min (i + 1) (2 ^ o0.height.toNat - 1) = i by omega]

theorem signmsg (b : Build) (i : Nat) (hi : i < 2 ^ o0.height.toNat) (m : Bytes) :
    xmssFastSignMsg b S o0.hashFunction o0.params (K.sk i) (stAt S o0.hashFunction o0.params K.skSeed K.ps o0.state i) m =
      match sigW b S o0.hashFunction w o0.height.toNat K i m with
      | none => panic
      | some s => ok (s, (K.sk (i + 1), stAt S o0.hashFunction o0.params K.skSeed K.ps o0.state (min (i + 1) (2 ^ o0.height.toNat - 1)))) := by
  rw [H.signmsg_digest b i hi, sigW, Spec.rustSignatureAny]
  rw [← H.hroot]
  cases hm : Spec.rustSigned o0.hashFunction (Spec.PRF (o0.hashFunction.prim S) K.skPrf (Spec.be 32 i) ++ K.root ++ Spec.be 32 i) m with
  | none => rfl
  | some m' =>
    dsimp only
    have hd : (Spec.digest (o0.hashFunction.prim S) (Spec.PRF (o0.hashFunction.prim S) K.skPrf (Spec.be 32 i)) K.root i m').length = 32 := by
      rw [Spec.digest]; exact length_Hmsg ..
    rw [H.signDigest b i hi _ _ hd, Option.bind_eq_bind, Option.bind_some]
    cases Spec.rustPositions b w (Spec.digest (o0.hashFunction.prim S) (Spec.PRF (o0.hashFunction.prim S) K.skPrf (Spec.be 32 i)) K.root i m') with
    | none => rfl
    | some ds => rfl

theorem length_sig (f : HashFn) (h i : Nat) (ds : List Nat) (hl : ds.length = Spec.rustLen w) :
    (Spec.signatureFrom (f.prim S) w h K.skSeed K.skPrf K.ps i ds).length = 36 + 32 * Spec.rustLen w + 32 * h := by
  rw [Spec.signatureFrom]
  simp only [List.length_append, length_be, length_PRF, length_flatten32 _ (mem_wotsSig S f _ _ i _),
    length_flatten32 _ (mem_authPath S f w (Spec.rustLen w) _ _ h i (rustLen_pos H.range))]
  simp only [Spec.wotsSig, Spec.authPath, List.length_map, List.length_zipIdx, List.length_range, hl]

theorem sigW_some {b : Build} {f : HashFn} {h i : Nat} {m s : Bytes} (hs : sigW b S f w h K i m = some s) :
    ∃ m' ds, Spec.rustSigned f (Spec.PRF (f.prim S) K.skPrf (Spec.be 32 i) ++
        Spec.node (f.prim S) w (Spec.rustLen w) K.skSeed K.ps h 0 ++ Spec.be 32 i) m = some m' ∧
      Spec.rustPositions b w (Spec.digest (f.prim S) (Spec.PRF (f.prim S) K.skPrf (Spec.be 32 i))
        (Spec.node (f.prim S) w (Spec.rustLen w) K.skSeed K.ps h 0) i m') = some ds ∧
      s = Spec.signatureFrom (f.prim S) w h K.skSeed K.skPrf K.ps i ds ∧ ds.length = Spec.rustLen w ∧ ∀ d ∈ ds, d < w := by
  rw [sigW, Spec.rustSignatureAny] at hs
  obtain ⟨m', hm', hs⟩ := Option.bind_eq_some_iff.mp hs
  obtain ⟨ds, hds, hs⟩ := Option.bind_eq_some_iff.mp hs
  cases hs
  obtain ⟨h1, h2⟩ := rustPositions_props H.range (by rw [Spec.digest]; exact length_Hmsg ..) hds
  exact ⟨m', ds, hm', hds, rfl, h1, h2⟩

theorem sign (b : Build) (i : Nat) (hi : i < 2 ^ o0.height.toNat) (m : Bytes) :
    (fastAt S K o0 i).sign b S m =
      match sigW b S o0.hashFunction w o0.height.toNat K i m with
      | none => .panic
      | some s => .ret s (fastAt S K o0 (i + 1)) := by
  have e : min i (2 ^ o0.height.toNat - 1) = i := by omega
  rw [XMSSFast.sign, H.getIndex i (by omega)]
  simp only
  rw [H.setIndex_ok b i i (Nat.le_refl _) hi]
  simp only
  have hs := H.signmsg b i hi m
  have hpw : o0.params.wots.w = w := by rw [H.hop]; rfl
  have hst : (fastAt S K o0 i).state = stAt S o0.hashFunction o0.params K.skSeed K.ps o0.state i := by
    simp only [fastAt, e]
  rw [← hst] at hs
  rw [show xmssFastSignMsg b S (fastAt S K o0 i).hashFunction (fastAt S K o0 i).params (fastAt S K o0 i).sk
    (fastAt S K o0 i).state m = _ from hs]
  cases hsg : sigW b S o0.hashFunction w o0.height.toNat K i m with
  | none => rfl
  | some s =>
    dsimp only
    obtain ⟨m', ds, -, -, rfl, hl, -⟩ := H.sigW_some hsg
    rw [ok_bind, fillBuffer_exact]
    · rfl
    · show _ = 4 + 32 + (wotsParams o0.params.wots.w).keysize + o0.height.toNat * 32
      rw [hpw, H.length_sig _ _ _ _ hl, show (wotsParams w).keysize = Spec.rustLen w * 32 from rfl]
      omega

theorem sign_fail (b : Build) (m : Bytes) :
    (fastAt S K o0 (2 ^ o0.height.toNat)).sign b S m = .fail .invalidArgument (fastAt S K o0 (2 ^ o0.height.toNat)) := by
  rw [XMSSFast.sign, H.getIndex _ (Nat.le_refl _)]
  simp only
  rw [H.setIndex_fail b _ _ (Nat.le_refl _) (Or.inl (Nat.le_refl _))]

end FastW

/-- `initialize_tree` on any object with a good height and a seed of 48 bytes. -/
theorem initializeTree_rsAny (b : Build) (o : XMSSFast) {w : Nat} (hw : Spec.RangeW w)
    (hs : o.seed.length = 48) (hh : GoodHeight o.height) :
    ∃ o0 : XMSSFast, o.initializeTree b S w = .ret () o0 ∧ o0.hashFunction = o.hashFunction ∧ o0.height = o.height ∧ o0.seed = o.seed ∧
      FastW S w (keyP S o.hashFunction w (Spec.rustLen w) o.height.toNat (rustLen_pos hw) o.seed) o0 := by
  have hgh := hh
  obtain ⟨h4, h30, he⟩ := hh
  have hc : ¬ (2 ≥ o.height.toNat ∨ (o.height.toNat - 2) % 2 ≠ 0) := by omega
  have h48 : (o.seed.drop 0).take 48 = o.seed := by simp [← hs]
  obtain ⟨st, e1, e2⟩ := treehashSetup_eq S o.hashFunction ⟨wotsParams w, o.height.toNat⟩ ((Qrl.shake256 96 o.seed).take 32)
    ((Qrl.shake256 96 o.seed).drop 64) (rustLen_pos hw) h4 h30
  have hgen : Qrl.xmssfastGenkeypair S o.hashFunction ⟨wotsParams w, o.height.toNat⟩ (List.replicate 132 0)
      (Qrl.bdsInit o.height.toNat) o.seed =
      .ok ((keyP S o.hashFunction w (Spec.rustLen w) o.height.toNat (rustLen_pos hw) o.seed).sk 0, st) := by
    rw [xmssfastGenkeypair, if_neg (by simp only [and_one_eq]; omega), slice_eq_ok (by omega), Outcome.ok_bind, h48]
    simp only at e1 ⊢
    rw [e1]
    simp only [Outcome.ok_bind]
    rw [← keyP_sk0 S o.hashFunction w (Spec.rustLen w) o.height.toNat (rustLen_pos hw) o.seed 0]
    rfl
  have hrs := fastGenKeypair_sim (S := S) b o.hashFunction ⟨wotsParams w, o.height.toNat⟩ (List.replicate 132 0) (o.sk.drop 100)
    (Qrl.bdsInit o.height.toNat) o.seed hs he h30 (by show 2 ≤ o.height.toNat; omega) (by simp [Qrl.bdsInit]) _ hgen
  refine ⟨{ o with params := ⟨wotsParams w, o.height.toNat⟩, state := st
                   sk := (keyP S o.hashFunction w (Spec.rustLen w) o.height.toNat (rustLen_pos hw) o.seed).sk 0 }, ?_, rfl, rfl, rfl, ?_⟩
  · rw [XMSSFast.initializeTree, if_neg hc, xmssParams, if_neg hc]
    simp only
    rw [show bdsInit o.height.toNat = Qrl.bdsInit o.height.toNat from rfl, hrs]
    rfl
  · exact ⟨hw, rfl, hgh, rfl, rfl, e2⟩

theorem fast_new_rsAny (b : Build) (seed : Bytes) (height : UInt8) (hf : HashFn) {w : Nat}
    (hw : Spec.RangeW w) (hs : seed.length = 48) (hh : GoodHeight height) :
    ∃ o0 : XMSSFast, XMSSFast.new b S seed height hf w = ok o0 ∧
      o0.hashFunction = hf ∧ o0.height = height ∧ o0.seed = seed ∧
      FastW S w (keyP S hf w (Spec.rustLen w) height.toNat (rustLen_pos hw) seed) o0 := by
  obtain ⟨o0, e1, e2, e3, e4, H⟩ := initializeTree_rsAny (S := S) b (XMSSFast.blank { hashFunction := hf, height := height, sk := List.replicate 132 0, seed := seed }) hw hs hh
  refine ⟨o0, ?_, e2, e3, e4, H⟩
  have := hh.2.1
  rw [XMSSFast.new, if_neg (by omega), XMSSBase.new, if_neg (by omega), if_neg (by omega), ok_bind, XMSSFast.build, e1]

end Qrl.Rs
