import Verif.Proof.AnyW
import Verif.Props.BadW

/-!
`XmssFast` after `initialize_tree(w)` with any `w` for which `wots_set_params` is defined. The proofs are those of
`Verif.Proof.FastApi`, without the properties of the four supported values.
-/

namespace Qrl

open Outcome

/-- The fixed part of the key derived from a 48-byte seed, with chain length `w` and `len` chains. -/
def keyP (S : Sha256) (hf : HashFn) (w len h : Nat) (hl : 1 ≤ len) (seed : Bytes) : KeyParts where
  skSeed := (shake256 96 seed).take 32
  skPrf := ((shake256 96 seed).drop 32).take 32
  ps := (shake256 96 seed).drop 64
  root := Spec.node (hf.prim S) w len ((shake256 96 seed).take 32) ((shake256 96 seed).drop 64) h 0
  l1 := by simp
  l2 := by simp
  l3 := by simp
  l4 := length_node S hf _ _ _ _ hl _ _

theorem keyP_sk0 (S : Sha256) (hf : HashFn) (w len h : Nat) (hl : 1 ≤ len) (seed : Bytes) (i : Nat) :
    idxBytes i ++ shake256 96 seed ++
      Spec.node (hf.prim S) w len ((shake256 96 seed).take 32) ((shake256 96 seed).drop 64) h 0 =
      (keyP S hf w len h hl seed).sk i := by
  rw [KeyParts.sk, skOf, keyP, idxBytes_eq]
  have : shake256 96 seed = (shake256 96 seed).take 32 ++ (((shake256 96 seed).drop 32).take 32 ++
      (shake256 96 seed).drop 64) := by
    have h2 : (shake256 96 seed).drop 64 = ((shake256 96 seed).drop 32).drop 32 := by simp
    rw [h2, List.take_append_drop, List.take_append_drop]
  simp only
  generalize Spec.node (hf.prim S) w len _ _ h 0 = r
  conv => lhs; rw [this]
  simp

/-- What is known of an `XmssFast` whose tree was just built with `w`. -/
structure FastAny (S : Sha256) (hf : HashFn) (w : Nat) (K : KeyParts) (p : WotsParams) (o0 : XmssFast) : Prop where
  set : wotsSetParams w = ok p
  hlen : 1 ≤ p.len
  hop : o0.params = ⟨p, o0.height.toNat⟩
  hof : o0.hashFunction = hf.toNat
  hh : GoodHeight o0.height
  hroot : K.root = Spec.node (hf.prim S) p.w p.len K.skSeed K.ps o0.height.toNat 0
  hsk : o0.sk = K.sk 0
  init : BdsInv (Spec.node (hf.prim S) p.w p.len K.skSeed K.ps) o0.height.toNat 0 (fun _ => none) o0.state

theorem fastAny_zero {S : Sha256} {hf : HashFn} {w : Nat} {K : KeyParts} {p : WotsParams} {o0 : XmssFast}
    (H : FastAny S hf w K p o0) : fastAt S hf K o0 0 = o0 := by
  have e : stAt S hf o0.params K.skSeed K.ps o0.state 0 = o0.state := rfl
  rw [fastAt, Nat.zero_min, e, ← H.hsk]

section
variable {S : Sha256} {hf : HashFn} {w : Nat} {K : KeyParts} {p : WotsParams} {o0 : XmssFast}
variable (H : FastAny S hf w K p o0)
include H

theorem FastAny.pow_lt : 2 ^ o0.height.toNat < 2 ^ 32 :=
  Nat.lt_of_le_of_lt (Nat.pow_le_pow_right (by omega) H.hh.2.1) (by omega)

theorem FastAny.adv (t : Nat) (ht : t < 2 ^ o0.height.toNat) :
    ∃ T, BdsInv (Spec.node (hf.prim S) p.w p.len K.skSeed K.ps) o0.height.toNat t T
      (stAt S hf o0.params K.skSeed K.ps o0.state t) := by
  rw [H.hop]
  exact (adv_inv S hf ⟨p, o0.height.toNat⟩ K.skSeed K.ps H.hlen H.hh.1 H.hh.2.1 H.hh.2.2 H.init t ht).2

theorem FastAny.getIndex (i : Nat) (hi : i ≤ 2 ^ o0.height.toNat) :
    (fastAt S hf K o0 i).getIndex = ok i :=
  K.getIndex _ i rfl (Nat.lt_of_le_of_lt hi H.pow_lt)

theorem FastAny.setIndex_throw (i n : Nat) (hi : i ≤ 2 ^ o0.height.toNat)
    (hn : 2 ^ o0.height.toNat ≤ n ∨ n < i) :
    (fastAt S hf K o0 i).setIndex S n = .raise .invalidArgument (fastAt S hf K o0 i) := by
  have hlt := H.pow_lt
  have e1 : HashFn.ofNat? (fastAt S hf K o0 i).hashFunction = some hf := by
    rw [show (fastAt S hf K o0 i).hashFunction = hf.toNat from H.hof, ofNat?_toNat]
  have e3 : (fastAt S hf K o0 i).sk = K.sk i := rfl
  have h30 := H.hh.2.1
  have e5 : (fastAt S hf K o0 i).params = o0.params := rfl
  have e6 : o0.params.h = o0.height.toNat := by rw [H.hop]
  rw [XmssFast.setIndex, e1, e3]
  simp only [xmssfastUpdate]
  rw [e5, e6, if_neg (by omega), K.idx i (by omega)]
  simp only
  by_cases hc : n ≥ 2 ^ o0.height.toNat
  · rw [if_pos hc]; rfl
  · rw [if_neg hc, if_pos (by omega)]; rfl

theorem FastAny.setIndex_ok (i n : Nat) (hi : i ≤ n) (hn : n < 2 ^ o0.height.toNat) :
    (fastAt S hf K o0 i).setIndex S n = .ret n (fastAt S hf K o0 n) := by
  have hlt := H.pow_lt
  have e1 : HashFn.ofNat? (fastAt S hf K o0 i).hashFunction = some hf := by
    rw [show (fastAt S hf K o0 i).hashFunction = hf.toNat from H.hof, ofNat?_toNat]
  have e3 : (fastAt S hf K o0 i).sk = K.sk i := rfl
  have e4 : (fastAt S hf K o0 i).state = stAt S hf o0.params K.skSeed K.ps o0.state i := by
    rw [fastAt]; simp only; rw [Nat.min_eq_left (by omega)]
  have h30 := H.hh.2.1
  have hskip := adv_skip S hf ⟨p, o0.height.toNat⟩ K.skSeed K.ps H.hlen H.hh.1 h30 H.hh.2.2 H.init i n hi hn
  rw [← H.hop] at hskip
  rw [XmssFast.setIndex, e1, e3, e4]
  simp only [xmssfastUpdate]
  have e5 : (fastAt S hf K o0 i).params = o0.params := rfl
  have e6 : o0.params.h = o0.height.toNat := by rw [H.hop]
  rw [e5, e6, if_neg (by omega), K.idx i (by omega)]
  simp only
  rw [if_neg (by omega), if_neg (by omega)]
  simp only [K.seed_slice, K.ps_slice, ok_bind, hskip, Step.ofOutcome, K.reindex]
  rw [fastAt, fastAt]
  simp only
  rw [Nat.min_eq_left (show n ≤ 2 ^ o0.height.toNat - 1 by omega)]

theorem FastAny.pw : p.w = w := (Props.wotsSetParams_ok H.set).1

theorem FastAny.size (o : XmssFast) (i : Nat) (ho : o = fastAt S hf K o0 i) :
    ∃ n, o.getSignatureSize o.params.wots.w = ok n := by
  have e2 : o.params.wots.w = w := by
    subst ho
    show o0.params.wots.w = w
    rw [H.hop]; exact H.pw
  rw [e2, XmssBase.getSignatureSize, calculateSignatureBaseSize, H.set]
  exact ⟨_, rfl⟩

theorem FastAny.sign_throw (msg : Bytes) :
    (fastAt S hf K o0 (2 ^ o0.height.toNat)).sign S msg =
      .raise .invalidArgument (fastAt S hf K o0 (2 ^ o0.height.toNat)) := by
  obtain ⟨n, hn⟩ := H.size _ (2 ^ o0.height.toNat) rfl
  rw [XmssFast.sign, hn, H.getIndex _ (Nat.le_refl _)]
  simp only
  rw [H.setIndex_throw _ _ (Nat.le_refl _) (Or.inl (Nat.le_refl _))]

theorem FastAny.sign_ub (hb : Props.BadW w) (i : Nat) (hi : i < 2 ^ o0.height.toNat) (msg : Bytes) :
    (fastAt S hf K o0 i).sign S msg = .ub := by
  have hlt := H.pow_lt
  obtain ⟨n, hn⟩ := H.size _ i rfl
  have e3 : (fastAt S hf K o0 i).hashFunction = hf.toNat := H.hof
  have e7 : (fastAt S hf K o0 i).params.wots = p := by
    show o0.params.wots = p
    rw [H.hop]
  rw [XmssFast.sign, hn, H.getIndex _ (by omega)]
  simp only
  rw [H.setIndex_ok i i (Nat.le_refl _) hi]
  simp only
  rw [withHash_of e3]
  have e4 : (fastAt S hf K o0 i).sk = K.sk i := rfl
  simp only [xmssfastSignmsg, e4, K.idx i (by omega), K.seed_slice, K.prf_slice, K.ps_slice, ok_bind, K.reindex,
    K.root_slice, prf_eq, toByte_eq_be, hMsg_eq]
  rw [e7, wotsSign, (Props.digits_bad H.set hb _ _).1]
  · rfl
  · intro h0
    have := congrArg List.length h0
    rw [length_Hmsg] at this
    cases this

theorem FastAny.signmsg {k q : Nat} (hp : AnyParams w p k q) (i : Nat) (hi : i < 2 ^ o0.height.toNat) (msg : Bytes) :
    xmssfastSignmsg S hf o0.params (K.sk i) (stAt S hf o0.params K.skSeed K.ps o0.state i) msg =
      ok (Spec.signatureAny (hf.prim S) w o0.height.toNat K.skSeed K.skPrf K.ps i msg,
        (K.sk (i + 1), stAt S hf o0.params K.skSeed K.ps o0.state (min (i + 1) (2 ^ o0.height.toNat - 1)))) := by
  have hlt := H.pow_lt
  obtain ⟨T, hinv⟩ := H.adv i hi
  have hpath := authOut_eq _ o0.height.toNat i _ hinv.auth.auth o0.height.toNat 0 (by omega)
  simp only [xmssfastSignmsg, K.idx i (by omega), K.seed_slice, K.prf_slice, K.ps_slice, ok_bind, K.reindex,
    K.root_slice, prf_eq, toByte_eq_be, hMsg_eq, Adrs.setType, Adrs.setOTS, getSeed_eq]
  obtain ⟨b', c', d', e⟩ := wotsSign_any S hf hp (Spec.Hmsg (hf.prim S)
          (Spec.PRF (hf.prim S) K.skPrf (Spec.be 32 i) ++ K.root ++ Spec.be 32 i) msg) K.skSeed K.ps i 0 0 0
    (length_Hmsg ..)
  have e6 : o0.params.h = o0.height.toNat := by rw [H.hop]
  have e7 : o0.params.wots = p := by rw [H.hop]
  rw [e7, e, e6]
  simp only [ok_bind]
  rw [hpath]
  simp only [ok_bind]
  have hsig : idxBytes i ++ Spec.PRF (hf.prim S) K.skPrf (Spec.be 32 i) ++
        (Spec.wotsSig (hf.prim S) K.skSeed K.ps i (Spec.positions w (Spec.Hmsg (hf.prim S)
          (Spec.PRF (hf.prim S) K.skPrf (Spec.be 32 i) ++ K.root ++ Spec.be 32 i) msg))).flatten ++
        ((List.range' 0 o0.height.toNat).map fun l =>
          Spec.node (hf.prim S) p.w p.len K.skSeed K.ps l (Spec.sibling (i / 2 ^ l))).flatten =
      Spec.signatureAny (hf.prim S) w o0.height.toNat K.skSeed K.skPrf K.ps i msg := by
    rw [signatureAny_parts S hf w o0.height.toNat K i msg (by rw [H.hroot, hp.pw, hp.len]), hp.len, hp.pw, Spec.authPath, List.range_eq_range']
  by_cases hc : i < 2 ^ o0.height.toNat - 1
  · rw [if_pos hc]
    have hstep := adv_step S hf ⟨p, o0.height.toNat⟩ K.skSeed K.ps H.hlen H.hh.1 H.hh.2.1 H.hh.2.2 H.init i
      (by simp only; omega) 0 i b' c' d'
    rw [← H.hop] at hstep
    simp only [e6] at hstep
    rw [Nat.min_eq_left (by omega), ← hsig]
    cases hr : bdsRound S hf (stAt S hf o0.params K.skSeed K.ps o0.state i) i K.skSeed o0.params K.ps
        ⟨0, 0, 0, 0, i, b', c', d'⟩ with
    | throw e => rw [hr] at hstep; cases hstep
    | ub => rw [hr] at hstep; cases hstep
    | ok st1 =>
      rw [hr] at hstep
      simp only [ok_bind] at hstep ⊢
      rw [hstep]
      rfl
  · rw [if_neg hc, ← hsig, show min (i + 1) (2 ^ o0.height.toNat - 1) = i by omega]

theorem FastAny.sign_ok {k q : Nat} (hp : AnyParams w p k q) (i : Nat) (hi : i < 2 ^ o0.height.toNat) (msg : Bytes) :
    (fastAt S hf K o0 i).sign S msg =
      .ret (Spec.signatureAny (hf.prim S) w o0.height.toNat K.skSeed K.skPrf K.ps i msg) (fastAt S hf K o0 (i + 1)) := by
  have e2 : (fastAt S hf K o0 i).toXmssBase.params.wots.w = w := by
    show o0.params.wots.w = w
    rw [H.hop]; exact H.pw
  have hsz : (fastAt S hf K o0 i).getSignatureSize w = ok (36 + 32 * p.len + 32 * o0.height.toNat) := by
    have hsm := hp.small
    have h30 := H.hh.2.1
    have eh : (fastAt S hf K o0 i).height = o0.height := rfl
    rw [XmssBase.getSignatureSize, base_any hp, ok_bind, eh, Nat.mod_eq_of_lt (by omega)]
    congr 1; omega
  have hst : stAt S hf o0.params K.skSeed K.ps o0.state (min i (2 ^ o0.height.toNat - 1)) =
      stAt S hf o0.params K.skSeed K.ps o0.state i := by rw [Nat.min_eq_left (by omega)]
  have hsm := H.signmsg hp i hi msg
  rw [← hst] at hsm
  rw [XmssFast.sign, e2, hsz, H.getIndex _ (by omega)]
  simp only
  rw [H.setIndex_ok i i (Nat.le_refl _) hi]
  simp only
  have e3 : (fastAt S hf K o0 i).hashFunction = hf.toNat := H.hof
  rw [withHash_of e3]
  have hsm' : xmssfastSignmsg S hf (fastAt S hf K o0 i).params (fastAt S hf K o0 i).sk (fastAt S hf K o0 i).state msg
    = _ := hsm
  rw [hsm']
  simp only [ok_bind]
  rw [fillBuffer_exact]
  · rfl
  · rw [length_signatureAny S hf hp]

end

theorem initTree_any (S : Sha256) (seed : Bytes) (height : UInt8) (hf : HashFn) {w : Nat} {p : WotsParams}
    (hp : wotsSetParams w = ok p) (hl : 1 ≤ p.len) (hs : seed.length = 48) (hh : GoodHeight height) :
    ∃ st, initTree S height hf.toNat seed w =
        ok (⟨p, height.toNat⟩, (keyP S hf p.w p.len height.toNat hl seed).sk 0, st) ∧
      ∀ o0 : XmssFast, o0.params = ⟨p, height.toNat⟩ → o0.hashFunction = hf.toNat → o0.height = height →
        o0.sk = (keyP S hf p.w p.len height.toNat hl seed).sk 0 → o0.state = st →
        FastAny S hf w (keyP S hf p.w p.len height.toNat hl seed) p o0 := by
  obtain ⟨h4, h30, he⟩ := hh
  have hc : ¬ (2 ≥ height.toNat ∨ (height.toNat - 2) % 2 ≠ 0) := by omega
  have h48 : (seed.drop 0).take 48 = seed := by simp [← hs]
  obtain ⟨st, e1, e2⟩ := treehashSetup_eq S hf ⟨p, height.toNat⟩ ((shake256 96 seed).take 32)
    ((shake256 96 seed).drop 64) hl h4 h30
  refine ⟨st, ?_, ?_⟩
  · rw [initTree, xmssSetParams, if_neg hc, hp]
    simp only [ok_bind, withHash_toNat]
    rw [xmssfastGenkeypair, if_neg (by simp only [and_one_eq]; omega), slice_eq_ok (by omega), ok_bind, h48]
    simp only at e1 ⊢
    rw [e1]
    simp only [ok_bind]
    rw [keyP_sk0 S hf p.w p.len height.toNat hl seed 0]
  · intro o0 a1 a2 a3 a4 a5
    subst a3
    exact ⟨hp, hl, a1, a2, ⟨h4, h30, he⟩, rfl, a4, by rw [a5]; exact e2⟩

end Qrl
