import Verif.Proof.RustBds
import Verif.Proof.Counter
import Verif.Spec.RustHistory
/-!
# The Rust `XMSSFast` and `XMSSBasic`, by simulation of the C++ ones
-/

namespace Qrl.Rs

open Res

variable {S : Sha256}

theorem _root_.Qrl.GoodParams.one_le {p : WotsParams} {k q : Nat} (h : GoodParams p k q) : 1 ≤ p.logW := by
  rw [h.logW]
  rcases Nat.eq_zero_or_pos k with hk | hk
  · have := h.kq; rw [hk, Nat.zero_mul] at this; cases this
  · exact hk

theorem wotsParams_eq {w : Nat} (hw : w = 2 ∨ w = 4 ∨ w = 16 ∨ w = 256) : wotsSetParams w = .ok (wotsParams w) := by
  rcases hw with rfl | rfl | rfl | rfl <;> decide +kernel

theorem hMsg_rs (hf : HashFn) (m key : Bytes) (hk : key.length = 96) :
    hMsg S hf m key =
      match Spec.rustSigned hf key m with
      | some m' => ok (Qrl.hMsg S hf m' key)
      | none => panic := by
  by_cases hm : m.length + 128 < 2 ^ 32
  · rw [hMsg_eq_seen S hf m key hk hm]
    cases hf <;> simp only [seen, Spec.rustSigned, room, if_pos hm] <;> rfl
  · have e : hMsg S hf m key = panic := by
      rw [hMsg]
      split
      · rfl
      · rw [coreHash, if_pos (by omega)]
    rw [e]
    cases hf
    · rw [Spec.rustSigned, if_neg hm]
    · rw [Spec.rustSigned, Spec.rustSeen, if_neg (by omega), if_neg (by omega)]
    · rw [Spec.rustSigned, Spec.rustSeen, if_neg (by omega), if_neg (by omega)]

theorem rustSigned_seen {hf : HashFn} {key m m' : Bytes} (h : Spec.rustSigned hf key m = some m') :
    m.length + 128 < 2 ^ 32 ∧ seen hf key m = some m' := by
  cases hf with
  | sha2_256 =>
    rw [Spec.rustSigned] at h
    split at h
    · next hm => exact ⟨hm, h⟩
    · cases h
  | shake_128 =>
    refine ⟨?_, h⟩
    rw [Spec.rustSigned, Spec.rustSeen] at h
    split at h
    · omega
    · split at h
      · omega
      · cases h
  | shake_256 =>
    refine ⟨?_, h⟩
    rw [Spec.rustSigned, Spec.rustSeen] at h
    split at h
    · omega
    · split at h
      · omega
      · cases h

/-- The C++ object with the same contents. -/
def XMSSFast.cpp (o : XMSSFast) : Qrl.XmssFast :=
  { params := o.params, hashFunction := o.hashFunction.toNat, addrFormat := 0, height := o.height, sk := o.sk
    seed := o.seed, state := o.state }

/-- The C++ object with the same contents. -/
def XMSSBase.cpp (o : XMSSBase) (p : XmssParams) : Qrl.XmssBase :=
  { params := p, hashFunction := o.hashFunction.toNat, addrFormat := 0, height := o.height, sk := o.sk
    seed := o.seed }

theorem getIndex_sim (o : XMSSBase) (p : XmssParams) : Sim (o.cpp p).getIndex o.getIndex := by
  unfold Qrl.XmssBase.getIndex XMSSBase.getIndex
  refine Sim.bind (sim_rd _ _) (fun b0 => Sim.bind (sim_rd _ _) (fun b1 => Sim.bind (sim_rd _ _) (fun b2 =>
    Sim.bind (sim_rd _ _) (fun b3 => ?_))))
  have h0 := b0.toNat_lt
  have h1 := b1.toNat_lt
  have h2 := b2.toNat_lt
  have h3 := b3.toNat_lt
  rw [Nat.mod_eq_of_lt (by simp only [Nat.shiftLeft_eq]; omega)]
  exact Sim.rfl' _

theorem fillBuffer_exact (n : Nat) (d : Bytes) (h : d.length = n) : fillBuffer n d = ok d := by
  simp [fillBuffer, h]

/-- One step of the traversal, at a state of the C++ traversal. -/
theorem adv_step_rs (hf : HashFn) (p : XmssParams) (sk ps : Bytes) (h1 : 1 ≤ p.wots.len) (hs : sk.length = 32)
    (hps : ps.length = 32)
    (hh4 : 4 ≤ p.h) (hh30 : p.h ≤ 30) (hev : p.h % 2 = 0) {st0 : BdsState}
    (H : BdsInv (Spec.node (hf.prim S) p.wots.w p.wots.len sk ps) p.h 0 (fun _ => none) st0) (t : Nat)
    (ht : t + 1 < 2 ^ p.h) (a b c d e : Nat) :
    (bdsRound S hf (stAt S hf p sk ps st0 t) t sk p ps ⟨0, 0, 0, a, b, c, d, e⟩ >>= fun st =>
      bdsTreehashUpdate S hf sk p ps ⟨0, 0, 0, a, b, c, d, e⟩ ((p.h - 2) >>> 1) st) =
      ok (stAt S hf p sk ps st0 (t + 1)) := by
  obtain ⟨T, hinv⟩ := (adv_inv S hf p sk ps h1 hh4 hh30 hev H t (by omega)).2
  have hr : (stAt S hf p sk ps st0 t).retain.length ≤ 1 := by rw [hinv.auth.retain]; simp
  have hcpp := adv_step S hf p sk ps h1 hh4 hh30 hev H t ht a b c d e
  have s1 := bdsRound_sim S hf (stAt S hf p sk ps st0 t) t sk p ps ⟨0, 0, 0, a, b, c, d, e⟩ (by omega) (by omega) hh30 hh4
    (by omega) hr
  rw [take32_of hs, take32_of hps] at s1
  refine Sim.bind s1 (fun st => ?_) _ hcpp
  have s2 := bdsTreehashUpdate_sim S hf sk p ps ⟨0, 0, 0, a, b, c, d, e⟩ (by omega) (by omega) ((p.h - 2) >>> 1) st
  rw [take32_of hs, take32_of hps] at s2
  exact s2

theorem adv_skip_rs (hf : HashFn) (p : XmssParams) (sk ps : Bytes) (h1 : 1 ≤ p.wots.len) (hs : sk.length = 32)
    (hps : ps.length = 32)
    (hh4 : 4 ≤ p.h) (hh30 : p.h ≤ 30) (hev : p.h % 2 = 0) {st0 : BdsState}
    (H : BdsInv (Spec.node (hf.prim S) p.wots.w p.wots.len sk ps) p.h 0 (fun _ => none) st0) :
    ∀ (m i : Nat), i + m < 2 ^ p.h →
    advanceLoop S hf sk p ps m i (stAt S hf p sk ps st0 i) = ok (stAt S hf p sk ps st0 (i + m)) := by
  intro m
  induction m with
  | zero => intro i _; rfl
  | succ m ih =>
    intro i hi
    have hstep := adv_step_rs hf p sk ps h1 hs hps hh4 hh30 hev H i (by omega) 0 0 0 0 0
    rw [advanceLoop]
    rw [show ∀ (x : Res BdsState) (f g : BdsState → Res BdsState), (x >>= fun a => f a >>= g) = (x >>= f) >>= g from
      fun x f g => (Res.bind_assoc x f g).symm]
    rw [show (bdsRound S hf (stAt S hf p sk ps st0 i) i sk p ps {} >>= fun st =>
      bdsTreehashUpdate S hf sk p ps {} ((p.h - 2) >>> 1) st) = ok (stAt S hf p sk ps st0 (i + 1)) from hstep, ok_bind,
      ih (i + 1) (by omega)]
    congr 2
    omega

/-- The object at index `i`. -/
def fastAt (S : Sha256) (K : KeyParts) (o0 : XMSSFast) (i : Nat) : XMSSFast :=
  { o0 with
    sk := K.sk i
    state := stAt S o0.hashFunction o0.params K.skSeed K.ps o0.state (min i (2 ^ o0.height.toNat - 1)) }

theorem fastAt_cpp (K : KeyParts) (o0 : XMSSFast) (i : Nat) :
    (fastAt S K o0 i).cpp = Qrl.fastAt S o0.hashFunction K o0.cpp i := rfl

theorem authOut_sim (auth : List Cell) : ∀ (m i : Nat), Sim (Qrl.authOut auth m i) (authOut auth m i)
  | 0, _ => Sim.rfl' _
  | m + 1, i => Sim.bind (sim_rdNode _ _) (fun _ => Sim.bind (authOut_sim auth m (i + 1)) (fun _ => Sim.rfl' _))

theorem length_signKey (hf : HashFn) (K : KeyParts) (i : Nat) :
    (Spec.PRF (hf.prim S) K.skPrf (Spec.be 32 i) ++ K.root ++ Spec.be 32 i).length = 96 := by
  rw [List.length_append, List.length_append, length_PRF, K.l4, length_be]

theorem keysize_eq {w : Nat} (hw : w = 2 ∨ w = 4 ∨ w = 16 ∨ w = 256) : (wotsParams w).keysize = 32 * Spec.lenW w := by
  rcases hw with rfl | rfl | rfl | rfl <;> decide +kernel

section
variable {w : Nat} {K : KeyParts} {p : WotsParams} {k q : Nat} {o0 : XMSSFast}
variable (H : FastOk S o0.hashFunction w K p k q o0.cpp)
include H

theorem rs_pow_lt : 2 ^ o0.height.toNat ≤ 2 ^ 30 := Nat.pow_le_pow_right (by omega) H.hh.2.1

theorem rs_h : o0.params.h = o0.height.toNat := by
  have := H.hop
  simp only [XMSSFast.cpp] at this
  rw [this]

theorem rs_init : BdsInv (Spec.node (o0.hashFunction.prim S) o0.params.wots.w o0.params.wots.len K.skSeed K.ps)
    o0.params.h 0 (fun _ => none) o0.state := by
  have h := H.hop
  simp only [XMSSFast.cpp] at h
  have := H.init
  simp only [XMSSFast.cpp] at this
  rw [h]
  exact this

theorem rs_logW : 1 ≤ o0.params.wots.logW := by
  have h := H.hop
  simp only [XMSSFast.cpp] at h
  rw [h]; exact H.hp.good.one_le

theorem rs_lenw : 1 ≤ o0.params.wots.len := by
  have h := H.hop
  simp only [XMSSFast.cpp] at h
  rw [h]; exact H.hlen

theorem rs_getIndex (i : Nat) (hi : i ≤ 2 ^ o0.height.toNat) : (fastAt S K o0 i).getIndex = ok i :=
  getIndex_sim (fastAt S K o0 i).toXMSSBase o0.params i (H.getIndex i hi)

theorem rs_setIndex_ok (b : Build) (i n : Nat) (hi : i ≤ n) (hn : n < 2 ^ o0.height.toNat) :
    (fastAt S K o0 i).setIndex b S n = .ret n (fastAt S K o0 n) := by
  have hlt := rs_pow_lt H
  have h30 := H.hh.2.1
  have hadv := adv_skip_rs o0.hashFunction o0.params K.skSeed K.ps (rs_lenw H) K.l1 K.l3 (by rw [rs_h H]; exact H.hh.1)
    (by rw [rs_h H]; exact h30) (by rw [rs_h H]; exact H.hh.2.2) (rs_init H) (n - i) i (by rw [rs_h H]; omega)
  have e : min i (2 ^ o0.height.toNat - 1) = i := by omega
  have e2 : min n (2 ^ o0.height.toNat - 1) = n := by omega
  have s1 := sim_slice _ _ _ _ (K.seed_slice i)
  have s2 := sim_slice _ _ _ _ (K.ps_slice i)
  have s3 := be32At_sim _ _ (K.idx i (by omega))
  have sh : shl1 b o0.height.toNat = ok (2 ^ o0.height.toNat) := 
    shl1_lt b (Nat.lt_of_le_of_lt h30 (by omega))
  rw [XMSSFast.setIndex, xmssFastUpdate]
  simp only [fastAt, rs_h H, sh, s3, ok_bind, e]
  rw [if_neg (by omega), if_neg (by omega)]
  simp only [s1, s2, ok_bind, hadv, show i + (n - i) = n by omega, e2]
  rw [show idxBytes n ++ (K.sk i).drop 4 = K.sk n from K.reindex i n]
  rfl

theorem rs_setIndex_fail (b : Build) (i n : Nat) (hi : i ≤ 2 ^ o0.height.toNat)
    (hn : 2 ^ o0.height.toNat ≤ n ∨ n < i) :
    (fastAt S K o0 i).setIndex b S n = .fail .invalidArgument (fastAt S K o0 i) := by
  have hlt := rs_pow_lt H
  have h30 := H.hh.2.1
  have s3 := be32At_sim _ _ (K.idx i (by omega))
  have sh : shl1 b o0.height.toNat = ok (2 ^ o0.height.toNat) := 
    shl1_lt b (Nat.lt_of_le_of_lt h30 (by omega))
  rw [XMSSFast.setIndex, xmssFastUpdate]
  simp only [fastAt, rs_h H, sh, s3, ok_bind]
  by_cases hc : n ≥ 2 ^ o0.height.toNat
  · rw [if_pos hc]; rfl
  · rw [if_neg hc, if_pos (by omega)]; rfl

/-- The message hash inside `sign`. -/
theorem rs_signmsg_panic (b : Build) (i : Nat) (hi : i < 2 ^ o0.height.toNat) (st : BdsState) (m : Bytes)
    (hm : Spec.rustSigned o0.hashFunction (Spec.PRF (o0.hashFunction.prim S) K.skPrf (Spec.be 32 i) ++ K.root ++ Spec.be 32 i) m = none) :
    xmssFastSignMsg b S o0.hashFunction o0.params (K.sk i) st m = panic := by
  have hlt := rs_pow_lt H
  have s0 := be32At_sim _ _ (K.idx i (by omega))
  have s1 := sim_slice _ _ _ _ (K.seed_slice i)
  have s2 := sim_slice _ _ _ _ (K.prf_slice i)
  have s3 := sim_slice _ _ _ _ (K.ps_slice i)
  have s4 := sim_slice _ _ _ _ (K.root_slice (i + 1))
  rw [xmssFastSignMsg]
  simp only [s0, s1, s2, s3, ok_bind, u32_lt b (show i + 1 < 2 ^ 32 by omega), toByte_rs]
  rw [prf_rs S _ _ K.skPrf (length_toByte _ _) (by rw [K.l2]), take32_of K.l2]
  simp only [ok_bind, prf_eq, toByte_eq_be]
  rw [show idxBytes (i + 1) ++ (K.sk i).drop 4 = K.sk (i + 1) from K.reindex i (i + 1), s4]
  simp only [ok_bind]
  rw [hMsg_rs _ _ _ (length_signKey _ K i), hm]
  rfl

theorem rs_signmsg (b : Build) (i : Nat) (hi : i < 2 ^ o0.height.toNat) (m m' : Bytes)
    (hm : Spec.rustSigned o0.hashFunction (Spec.PRF (o0.hashFunction.prim S) K.skPrf (Spec.be 32 i) ++ K.root ++ Spec.be 32 i) m = some m') :
    xmssFastSignMsg b S o0.hashFunction o0.params (K.sk i) (stAt S o0.hashFunction o0.params K.skSeed K.ps o0.state i) m =
      ok (Spec.signature (o0.hashFunction.prim S) w o0.height.toNat K.skSeed K.skPrf K.ps i m',
        (K.sk (i + 1), stAt S o0.hashFunction o0.params K.skSeed K.ps o0.state (min (i + 1) (2 ^ o0.height.toNat - 1)))) := by
  have hlt := rs_pow_lt H
  have h30 := H.hh.2.1
  have hcpp : Qrl.xmssfastSignmsg S o0.hashFunction o0.params (K.sk i)
      (stAt S o0.hashFunction o0.params K.skSeed K.ps o0.state i) m' = _ := H.signmsg i hi m'
  have s0 := be32At_sim _ _ (K.idx i (by omega))
  have s1 := sim_slice _ _ _ _ (K.seed_slice i)
  have s2 := sim_slice _ _ _ _ (K.prf_slice i)
  have s3 := sim_slice _ _ _ _ (K.ps_slice i)
  have s4 := sim_slice _ _ _ _ (K.root_slice (i + 1))
  have sh : shl1 b o0.height.toNat = ok (2 ^ o0.height.toNat) := 
    shl1_lt b (Nat.lt_of_le_of_lt h30 (by omega))
  refine (?_ : Sim _ _) _ hcpp
  rw [xmssFastSignMsg, Qrl.xmssfastSignmsg]
  simp only [s0, s1, s2, s3, ok_bind, u32_lt b (show i + 1 < 2 ^ 32 by omega), toByte_rs, K.idx i (by omega), K.seed_slice,
    K.prf_slice, K.ps_slice, Outcome.ok_bind, K.reindex, K.root_slice]
  rw [prf_rs S _ _ K.skPrf (length_toByte _ _) (by rw [K.l2]), take32_of K.l2]
  simp only [ok_bind]
  rw [show idxBytes (i + 1) ++ (K.sk i).drop 4 = K.sk (i + 1) from K.reindex i (i + 1), s4]
  simp only [ok_bind]
  rw [hMsg_rs _ _ _ (by rw [prf_eq, toByte_eq_be]; exact length_signKey _ K i)]
  have hm2 := hm
  rw [← toByte_eq_be, ← prf_eq] at hm2
  rw [hm2]
  simp only [ok_bind]
  unfold fastSignDigest
  dsimp only
  rw [getSeed_rs S _ _ _ (by rw [K.l1]), take32_of K.l1]
  simp only [ok_bind, Res.bind_assoc]
  have hl := length_getSeed S o0.hashFunction K.skSeed (setOTS (setType {} 0) i)
  have wsim := wotsSign_sim S o0.hashFunction b o0.params.wots (rs_logW H) (Qrl.hMsg S o0.hashFunction m' (Qrl.prf S o0.hashFunction (Qrl.toByte i 32) K.skPrf ++ K.root ++ Qrl.toByte i 32)) (Qrl.getSeed S o0.hashFunction K.skSeed (setOTS (setType {} 0) i)).1 K.ps
    (Qrl.getSeed S o0.hashFunction K.skSeed (setOTS (setType {} 0) i)).2 (by omega) (by rw [K.l3])
  rw [take32_of hl, take32_of K.l3] at wsim
  refine Sim.bind wsim (fun x => ?_)
  refine Sim.bind (authOut_sim _ _ _) (fun path => ?_)
  rw [rs_h H, sh]
  simp only [ok_bind]
  obtain ⟨T, hinv⟩ := H.adv i hi
  have hr : (stAt S o0.hashFunction o0.params K.skSeed K.ps o0.state i).retain.length ≤ 1 := by
    have e : (stAt S o0.hashFunction o0.params K.skSeed K.ps o0.state i).retain = _ := hinv.auth.retain
    rw [e]; simp
  by_cases hc : i < 2 ^ o0.height.toNat - 1
  swap
  · rw [if_neg hc, if_neg hc]
    exact Sim.rfl' _
  rw [if_pos hc, if_pos hc]
  simp only [Res.bind_assoc]
  have r1 := bdsRound_sim S o0.hashFunction (stAt S o0.hashFunction o0.params K.skSeed K.ps o0.state i) i K.skSeed o0.params
    K.ps x.2 (by rw [K.l1]) (by rw [K.l3]) (by rw [rs_h H]; exact h30) (by rw [rs_h H]; exact H.hh.1)
    (by rw [rs_h H]; exact hi) hr
  rw [take32_of K.l1, take32_of K.l3] at r1
  refine Sim.bind r1 (fun st => ?_)
  have r2 := bdsTreehashUpdate_sim S o0.hashFunction K.skSeed o0.params K.ps x.2 (by rw [K.l1]) (by rw [K.l3])
    ((o0.params.h - 2) >>> 1) st
  rw [take32_of K.l1, take32_of K.l3, rs_h H] at r2
  exact Sim.bind r2 (fun _ => Sim.rfl' _)

theorem rs_sign_ok (b : Build) (i : Nat) (hi : i < 2 ^ o0.height.toNat) (m m' : Bytes)
    (hm : Spec.rustSigned o0.hashFunction (Spec.PRF (o0.hashFunction.prim S) K.skPrf (Spec.be 32 i) ++ K.root ++ Spec.be 32 i) m = some m') :
    (fastAt S K o0 i).sign b S m =
      .ret (Spec.signature (o0.hashFunction.prim S) w o0.height.toNat K.skSeed K.skPrf K.ps i m') (fastAt S K o0 (i + 1)) := by
  have e : min i (2 ^ o0.height.toNat - 1) = i := by omega
  rw [XMSSFast.sign, rs_getIndex H i (by omega)]
  simp only
  rw [rs_setIndex_ok H b i i (Nat.le_refl _) hi]
  simp only
  have hs := rs_signmsg H b i hi m m' hm
  have hop := H.hop
  simp only [XMSSFast.cpp] at hop
  have hpw : o0.params.wots.w = w := by rw [hop]; exact H.hp.pw
  have hst : (fastAt S K o0 i).state = stAt S o0.hashFunction o0.params K.skSeed K.ps o0.state i := by
    simp only [fastAt, e]
  rw [← hst] at hs
  rw [show xmssFastSignMsg b S (fastAt S K o0 i).hashFunction (fastAt S K o0 i).params (fastAt S K o0 i).sk
    (fastAt S K o0 i).state m = _ from hs]
  simp only [ok_bind]
  rw [fillBuffer_exact]
  · rfl
  · show _ = 4 + 32 + (wotsParams o0.params.wots.w).keysize + o0.height.toNat * 32
    rw [hpw, keysize_eq H.hw, length_signature S _ H.hp H.hlen, H.hp.len]
    omega

theorem rs_sign_panic (b : Build) (i : Nat) (hi : i < 2 ^ o0.height.toNat) (m : Bytes)
    (hm : Spec.rustSigned o0.hashFunction (Spec.PRF (o0.hashFunction.prim S) K.skPrf (Spec.be 32 i) ++ K.root ++ Spec.be 32 i) m = none) :
    (fastAt S K o0 i).sign b S m = .panic := by
  rw [XMSSFast.sign, rs_getIndex H i (by omega)]
  simp only
  rw [rs_setIndex_ok H b i i (Nat.le_refl _) hi]
  simp only
  have hs := rs_signmsg_panic H b i hi (fastAt S K o0 i).state m hm
  rw [show xmssFastSignMsg b S (fastAt S K o0 i).hashFunction (fastAt S K o0 i).params (fastAt S K o0 i).sk
    (fastAt S K o0 i).state m = panic from hs]
  rfl

theorem rs_sign_fail (b : Build) (m : Bytes) :
    (fastAt S K o0 (2 ^ o0.height.toNat)).sign b S m = .fail .invalidArgument (fastAt S K o0 (2 ^ o0.height.toNat)) := by
  rw [XMSSFast.sign, rs_getIndex H _ (Nat.le_refl _)]
  simp only
  rw [rs_setIndex_fail H b _ _ (Nat.le_refl _) (Or.inl (Nat.le_refl _))]
end

theorem fastGenKeypair_sim (b : Build) (hf : HashFn) (p : XmssParams) (sk0 skRoot : Bytes) (st : BdsState) (seed : Bytes)
    (h : seed.length = 48) (hev : p.h % 2 = 0) (hh : p.h ≤ 30) (hh2 : 2 ≤ p.h) (hr : st.retain.length ≤ 1) :
    Sim (Qrl.xmssfastGenkeypair S hf p sk0 st seed) (xmssFastGenKeypair b S hf p skRoot st seed) := by
  unfold Qrl.xmssfastGenkeypair xmssFastGenKeypair
  rw [if_neg (by rw [Nat.and_one_is_mod]; omega), if_neg (by rw [Nat.and_one_is_mod]; omega)]
  have hsh := fipsShake256_short 96 seed (by omega)
  rw [h] at hsh
  have hl : (Qrl.shake256 96 seed).length = 96 := length_shake256 96 seed
  rw [seed48 h, hsh]
  simp only [ok_bind, Outcome.ok_bind]
  have e1 : (Qrl.shake256 96 seed).take 32 = (Qrl.shake256 96 seed ++ skRoot).take 32 := by
    rw [List.take_append_of_le_length (by omega)]
  have e2 : (Qrl.shake256 96 seed).drop 64 = ((Qrl.shake256 96 seed ++ skRoot).drop 64).take 32 := by
    rw [List.drop_append_of_le_length (by omega), List.take_append_of_le_length (by rw [List.length_drop]; omega),
      List.take_of_length_le (by rw [List.length_drop]; omega)]
  rw [e1, e2]
  exact Sim.bind (treehashSetup_sim S hf b _ _ _ p _ (by rw [List.length_append]; omega)
    (by rw [List.length_drop, List.length_append]; omega) hh hh2 hh hr) (fun _ => Sim.rfl' _)

/-- `initialize_tree` on any object with a good height and a seed of 48 bytes. -/
theorem initializeTree_rs (b : Build) (o : XMSSFast) {w : Nat} (hw : w = 2 ∨ w = 4 ∨ w = 16 ∨ w = 256)
    (hs : o.seed.length = 48) (hh : GoodHeight o.height) :
    ∃ (p : WotsParams) (k q : Nat) (o0 : XMSSFast), o.initializeTree b S w = .ret () o0 ∧
      o0.hashFunction = o.hashFunction ∧ o0.height = o.height ∧ o0.seed = o.seed ∧ o0.params = ⟨p, o.height.toNat⟩ ∧
      FastOk S o0.hashFunction w (keyOf S o.hashFunction w o.height.toNat (lenW_pos hw) o.seed) p k q o0.cpp := by
  obtain ⟨p, k, q, st, hp, hi, hok⟩ := initTree_eq S o.seed o.height o.hashFunction hw hs hh
  obtain ⟨h4, h30, he⟩ := hh
  have hc : ¬ (2 ≥ o.height.toNat ∨ (o.height.toNat - 2) % 2 ≠ 0) := by omega
  have hpe : p = wotsParams w := by
    have := wotsParams_eq hw
    rw [hp] at this
    exact Outcome.ok.inj this
  have hgen : Qrl.xmssfastGenkeypair S o.hashFunction ⟨p, o.height.toNat⟩ (List.replicate 132 0)
      (Qrl.bdsInit o.height.toNat) o.seed =
      .ok ((keyOf S o.hashFunction w o.height.toNat (lenW_pos hw) o.seed).sk 0, st) := by
    rw [initTree, xmssSetParams, if_neg hc, hp] at hi
    simp only [Outcome.ok_bind, withHash_toNat] at hi
    cases hg : Qrl.xmssfastGenkeypair S o.hashFunction ⟨p, o.height.toNat⟩ (List.replicate 132 0)
      (Qrl.bdsInit o.height.toNat) o.seed with
    | throw e => rw [hg] at hi; cases hi
    | ub => rw [hg] at hi; cases hi
    | ok x =>
      rw [hg] at hi
      simp only [Outcome.ok_bind, Outcome.ok.injEq, Prod.mk.injEq] at hi
      rw [← hi.2.1, ← hi.2.2]
  have hrs := fastGenKeypair_sim (S := S) b o.hashFunction ⟨p, o.height.toNat⟩ (List.replicate 132 0) (o.sk.drop 100)
    (Qrl.bdsInit o.height.toNat) o.seed hs he h30 (by show 2 ≤ o.height.toNat; omega) (by simp [Qrl.bdsInit]) _ hgen
  refine ⟨p, k, q, { o with params := ⟨p, o.height.toNat⟩, state := st
                            sk := (keyOf S o.hashFunction w o.height.toNat (lenW_pos hw) o.seed).sk 0 }, ?_, rfl, rfl, rfl, rfl, ?_⟩
  · rw [XMSSFast.initializeTree, if_neg hc, xmssParams, if_neg hc, ← hpe]
    simp only
    rw [show bdsInit o.height.toNat = Qrl.bdsInit o.height.toNat from rfl, hrs]
    rfl
  · exact hok _ rfl rfl rfl rfl rfl

theorem fast_new_rs (b : Build) (seed : Bytes) (height : UInt8) (hf : HashFn) {w : Nat}
    (hw : w = 2 ∨ w = 4 ∨ w = 16 ∨ w = 256) (hs : seed.length = 48) (hh : GoodHeight height) :
    ∃ (p : WotsParams) (k q : Nat) (o0 : XMSSFast), XMSSFast.new b S seed height hf w = ok o0 ∧
      o0.hashFunction = hf ∧ o0.height = height ∧ o0.seed = seed ∧ o0.params = ⟨p, height.toNat⟩ ∧
      FastOk S o0.hashFunction w (keyOf S hf w height.toNat (lenW_pos hw) seed) p k q o0.cpp := by
  obtain ⟨p, k, q, o0, e1, e2, e3, e4, e5, H⟩ := initializeTree_rs (S := S) b (XMSSFast.blank { hashFunction := hf, height := height, sk := List.replicate 132 0, seed := seed }) hw hs hh
  refine ⟨p, k, q, o0, ?_, e2, e3, e4, e5, H⟩
  have := hh.2.1
  rw [XMSSFast.new, if_neg (by omega), XMSSBase.new, if_neg (by omega), if_neg (by omega), ok_bind, XMSSFast.build, e1]

section
variable {w : Nat} {K : KeyParts} {p : WotsParams} {k q : Nat} {o0 : XMSSFast}
variable (H : FastOk S o0.hashFunction w K p k q o0.cpp)
include H

theorem rs_fastAt_zero : fastAt S K o0 0 = o0 := by
  have e : stAt S o0.hashFunction o0.params K.skSeed K.ps o0.state 0 = o0.state := rfl
  have := H.hsk
  simp only [XMSSFast.cpp] at this
  rw [fastAt, Nat.zero_min, e, ← this]

/-- What the signer does to a message at index `i`. -/
def rustSig (S : Sha256) (hf : HashFn) (w h : Nat) (K : KeyParts) (i : Nat) (m : Bytes) : Option Bytes :=
  (Spec.rustSigned hf (Spec.PRF (hf.prim S) K.skPrf (Spec.be 32 i) ++ K.root ++ Spec.be 32 i) m).map
    (Spec.signature (hf.prim S) w h K.skSeed K.skPrf K.ps i)

theorem rs_run (b : Build) (cs : List Call) : ∀ i, i ≤ 2 ^ o0.height.toNat →
    runCalls (XMSSFast.call b S) (fastAt S K o0 i) cs =
      (Spec.partialRun (2 ^ o0.height.toNat) (rustSig S o0.hashFunction w o0.height.toNat K) i cs).map
        fun x => (x.1, fastAt S K o0 x.2) := by
  induction cs with
  | nil => intro i _; rfl
  | cons c cs ih =>
    intro i hi
    cases c with
    | setIndex n =>
      rw [runCalls, Spec.partialRun]
      by_cases hc : i ≤ n.toNat ∧ n.toNat < 2 ^ o0.height.toNat
      · rw [if_pos hc, XMSSFast.call, rs_setIndex_ok H b i n.toNat hc.1 hc.2]
        simp only
        rw [ih n.toNat (by omega)]
        cases Spec.partialRun (2 ^ o0.height.toNat) (rustSig S o0.hashFunction w o0.height.toNat K) n.toNat cs <;> rfl
      · rw [if_neg hc, XMSSFast.call, rs_setIndex_fail H b i n.toNat hi (by omega)]
        simp only
        rw [ih i hi]
        cases Spec.partialRun (2 ^ o0.height.toNat) (rustSig S o0.hashFunction w o0.height.toNat K) i cs <;> rfl
    | sign m =>
      rw [runCalls, Spec.partialRun]
      by_cases hc : i < 2 ^ o0.height.toNat
      · rw [if_pos hc, XMSSFast.call]
        cases hm : Spec.rustSigned o0.hashFunction
            (Spec.PRF (o0.hashFunction.prim S) K.skPrf (Spec.be 32 i) ++ K.root ++ Spec.be 32 i) m with
        | none =>
          have hσ : rustSig S o0.hashFunction w o0.height.toNat K i m = none := by rw [rustSig, hm]; rfl
          rw [rs_sign_panic H b i hc m hm, hσ]
          rfl
        | some m' =>
          have hσ : rustSig S o0.hashFunction w o0.height.toNat K i m =
              some (Spec.signature (o0.hashFunction.prim S) w o0.height.toNat K.skSeed K.skPrf K.ps i m') := by
            rw [rustSig, hm]; rfl
          rw [rs_sign_ok H b i hc m m' hm, hσ]
          simp only
          rw [ih (i + 1) (by omega)]
          cases Spec.partialRun (2 ^ o0.height.toNat) (rustSig S o0.hashFunction w o0.height.toNat K) (i + 1) cs <;> rfl
      · rw [if_neg hc, XMSSFast.call]
        have hie : i = 2 ^ o0.height.toNat := by omega
        have := rs_sign_fail H b m
        rw [← hie] at this
        rw [this]
        simp only
        rw [ih i hi]
        cases Spec.partialRun (2 ^ o0.height.toNat) (rustSig S o0.hashFunction w o0.height.toNat K) i cs <;> rfl
end

end Qrl.Rs
