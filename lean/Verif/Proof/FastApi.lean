import Verif.Proof.BdsSetup
import Verif.Proof.Honest

/-!
`XmssFast`: every reachable object is determined by its index.
-/

namespace Qrl

open Outcome

theorem advanceLoop_add (S : Sha256) (hf : HashFn) (sk : Bytes) (p : XmssParams) (ps : Bytes) (m n : Nat) :
    ∀ (j : Nat) (st : BdsState), advanceLoop S hf sk p ps (m + n) j st =
      (advanceLoop S hf sk p ps m j st >>= fun st => advanceLoop S hf sk p ps n (j + m) st) := by
  induction m with
  | zero => intro j st; rw [Nat.zero_add]; rfl
  | succ m ih =>
    intro j st
    rw [show m + 1 + n = (m + n) + 1 by omega, advanceLoop, advanceLoop]
    cases bdsRound S hf st j sk p ps {} with
    | throw e => rfl
    | ub => rfl
    | ok st1 =>
      simp only [ok_bind]
      cases bdsTreehashUpdate S hf sk p ps {} ((p.h - 2) >>> 1) st1 with
      | throw e => rfl
      | ub => rfl
      | ok st2 =>
        simp only [ok_bind]
        rw [ih (j + 1) st2, show j + 1 + m = j + (m + 1) by omega]

theorem bdsRound_addr (S : Sha256) (hf : HashFn) (st : BdsState) (t : Nat) (sk : Bytes) (p : XmssParams) (ps : Bytes)
    (a b c d e : Nat) : bdsRound S hf st t sk p ps ⟨0, 0, 0, a, b, c, d, e⟩ = bdsRound S hf st t sk p ps {} := rfl

theorem treehashUpdate_addr (S : Sha256) (hf : HashFn) (k : Nat) (st : BdsState) (sk : Bytes) (p : XmssParams)
    (ps : Bytes) (a b c d e : Nat) :
    treehashUpdate S hf k st sk p ps ⟨0, 0, 0, a, b, c, d, e⟩ = treehashUpdate S hf k st sk p ps {} := rfl

theorem bdsTreehashUpdate_addr (S : Sha256) (hf : HashFn) (sk : Bytes) (p : XmssParams) (ps : Bytes)
    (a b c d e : Nat) (n : Nat) : ∀ st, bdsTreehashUpdate S hf sk p ps ⟨0, 0, 0, a, b, c, d, e⟩ n st =
      bdsTreehashUpdate S hf sk p ps {} n st := by
  induction n with
  | zero => intro st; rfl
  | succ n ih =>
    intro st
    rw [bdsTreehashUpdate, bdsTreehashUpdate]
    simp only [treehashUpdate_addr, ih]

/-- The traversal state at index `t`, starting from the state made by key generation. -/
def stAt (S : Sha256) (hf : HashFn) (p : XmssParams) (sk ps : Bytes) (st0 : BdsState) (t : Nat) : BdsState :=
  match advanceLoop S hf sk p ps t 0 st0 with
  | .ok st => st
  | _ => st0

theorem adv_inv (S : Sha256) (hf : HashFn) (p : XmssParams) (sk ps : Bytes) (h1 : 1 ≤ p.wots.len)
    (hh4 : 4 ≤ p.h) (hh30 : p.h ≤ 30) (hev : p.h % 2 = 0) {st0 : BdsState}
    (H : BdsInv (Spec.node (hf.prim S) p.wots.w p.wots.len sk ps) p.h 0 (fun _ => none) st0) (t : Nat)
    (ht : t < 2 ^ p.h) :
    advanceLoop S hf sk p ps t 0 st0 = ok (stAt S hf p sk ps st0 t) ∧
      ∃ T, BdsInv (Spec.node (hf.prim S) p.wots.w p.wots.len sk ps) p.h t T (stAt S hf p sk ps st0 t) := by
  induction t with
  | zero => exact ⟨rfl, _, H⟩
  | succ t ih =>
    obtain ⟨e1, T, i1⟩ := ih (by omega)
    obtain ⟨st1, st2, T2, r1, r2, r3⟩ := bdsAdvance_eq S hf sk ps p h1 hh4 hh30 hev (by omega) i1 0 0 0 0 0 0 0 0 0 0
    have e2 : advanceLoop S hf sk p ps (t + 1) 0 st0 = ok st2 := by
      rw [advanceLoop_add S hf sk p ps t 1, e1, ok_bind, Nat.zero_add, advanceLoop]
      rw [show bdsRound S hf (stAt S hf p sk ps st0 t) t sk p ps {} = ok st1 from r1, ok_bind,
        show bdsTreehashUpdate S hf sk p ps {} ((p.h - 2) >>> 1) st1 = ok st2 from r2, ok_bind]
      rfl
    have e3 : stAt S hf p sk ps st0 (t + 1) = st2 := by rw [stAt, e2]
    rw [e3]
    exact ⟨e2, T2, r3⟩

/-- The round made by `sign` is the same step. -/
theorem adv_step (S : Sha256) (hf : HashFn) (p : XmssParams) (sk ps : Bytes) (h1 : 1 ≤ p.wots.len)
    (hh4 : 4 ≤ p.h) (hh30 : p.h ≤ 30) (hev : p.h % 2 = 0) {st0 : BdsState}
    (H : BdsInv (Spec.node (hf.prim S) p.wots.w p.wots.len sk ps) p.h 0 (fun _ => none) st0) (t : Nat)
    (ht : t + 1 < 2 ^ p.h) (a b c d e : Nat) :
    (bdsRound S hf (stAt S hf p sk ps st0 t) t sk p ps ⟨0, 0, 0, a, b, c, d, e⟩ >>= fun st =>
      bdsTreehashUpdate S hf sk p ps ⟨0, 0, 0, a, b, c, d, e⟩ ((p.h - 2) >>> 1) st) =
      ok (stAt S hf p sk ps st0 (t + 1)) := by
  have e1 := (adv_inv S hf p sk ps h1 hh4 hh30 hev H t (by omega)).1
  have e2 := (adv_inv S hf p sk ps h1 hh4 hh30 hev H (t + 1) ht).1
  rw [advanceLoop_add S hf sk p ps t 1, e1, ok_bind, Nat.zero_add, advanceLoop] at e2
  rw [bdsRound_addr]
  simp only [bdsTreehashUpdate_addr]
  rw [← e2]
  cases bdsRound S hf (stAt S hf p sk ps st0 t) t sk p ps {} with
  | throw e => rfl
  | ub => rfl
  | ok st1 =>
    simp only [ok_bind]
    cases bdsTreehashUpdate S hf sk p ps {} ((p.h - 2) >>> 1) st1 with
    | throw e => rfl
    | ub => rfl
    | ok st2 => rfl

/-- Skipping from `i` to `n`. -/
theorem adv_skip (S : Sha256) (hf : HashFn) (p : XmssParams) (sk ps : Bytes) (h1 : 1 ≤ p.wots.len)
    (hh4 : 4 ≤ p.h) (hh30 : p.h ≤ 30) (hev : p.h % 2 = 0) {st0 : BdsState}
    (H : BdsInv (Spec.node (hf.prim S) p.wots.w p.wots.len sk ps) p.h 0 (fun _ => none) st0) (i n : Nat)
    (hin : i ≤ n) (hn : n < 2 ^ p.h) :
    advanceLoop S hf sk p ps (n - i) i (stAt S hf p sk ps st0 i) = ok (stAt S hf p sk ps st0 n) := by
  have e1 := (adv_inv S hf p sk ps h1 hh4 hh30 hev H i (by omega)).1
  have e2 := (adv_inv S hf p sk ps h1 hh4 hh30 hev H n hn).1
  rw [show n = i + (n - i) by omega, advanceLoop_add, e1, ok_bind, Nat.zero_add] at e2
  rw [e2]
  congr 2
  omega

theorem authOut_eq (N : Nat → Nat → Bytes) (h t : Nat) (auth : List Cell)
    (ha : ∀ i, i < h → auth[i]? = some (some (N i (Spec.sibling (t / 2 ^ i))))) (m : Nat) : ∀ i, i + m = h →
    authOut auth m i = ok ((List.range' i m).map fun l => N l (Spec.sibling (t / 2 ^ l))) := by
  induction m with
  | zero => intro i _; rfl
  | succ m ih =>
    intro i hi
    rw [authOut, rdUse_eq_ok (ha i (by omega)), ok_bind, ih (i + 1) (by omega), ok_bind, List.range'_succ]
    rfl

/-- What is known of a freshly built `XmssFast`. -/
structure FastOk (S : Sha256) (hf : HashFn) (w : Nat) (K : KeyParts) (p : WotsParams) (k q : Nat) (o0 : XmssFast) : Prop where
  hw : w = 2 ∨ w = 4 ∨ w = 16 ∨ w = 256
  hp : SpecParams w p k q
  hlen : 1 ≤ p.len
  hop : o0.params = ⟨p, o0.height.toNat⟩
  hof : o0.hashFunction = hf.toNat
  hh : GoodHeight o0.height
  hroot : K.root = Spec.node (hf.prim S) w (Spec.lenW w) K.skSeed K.ps o0.height.toNat 0
  hsk : o0.sk = K.sk 0
  init : BdsInv (Spec.node (hf.prim S) p.w p.len K.skSeed K.ps) o0.height.toNat 0 (fun _ => none) o0.state

/-- The object at index `i`. -/
def fastAt (S : Sha256) (hf : HashFn) (K : KeyParts) (o0 : XmssFast) (i : Nat) : XmssFast :=
  { o0 with
    sk := K.sk i
    state := stAt S hf o0.params K.skSeed K.ps o0.state (min i (2 ^ o0.height.toNat - 1)) }

theorem fastAt_zero {S : Sha256} {hf : HashFn} {w : Nat} {K : KeyParts} {p : WotsParams} {k q : Nat} {o0 : XmssFast}
    (H : FastOk S hf w K p k q o0) : fastAt S hf K o0 0 = o0 := by
  have e : stAt S hf o0.params K.skSeed K.ps o0.state 0 = o0.state := rfl
  rw [fastAt, Nat.zero_min, e, ← H.hsk]

theorem withHash_of {α : Type} {x : Nat} {hf : HashFn} (h : x = hf.toNat) (f : HashFn → Outcome α) :
    withHash x f = f hf := by
  subst h; rw [withHash, ofNat?_toNat]

theorem withHash_toNat {α : Type} (hf : HashFn) (f : HashFn → Outcome α) : withHash hf.toNat f = f hf := by
  rw [withHash, ofNat?_toNat]

section
variable {S : Sha256} {hf : HashFn} {w : Nat} {K : KeyParts} {p : WotsParams} {k q : Nat} {o0 : XmssFast}
variable (H : FastOk S hf w K p k q o0)
include H

theorem FastOk.pow_lt : 2 ^ o0.height.toNat < 2 ^ 32 :=
  Nat.lt_of_le_of_lt (Nat.pow_le_pow_right (by omega) H.hh.2.1) (by omega)

theorem FastOk.adv (t : Nat) (ht : t < 2 ^ o0.height.toNat) :
    ∃ T, BdsInv (Spec.node (hf.prim S) p.w p.len K.skSeed K.ps) o0.height.toNat t T
      (stAt S hf o0.params K.skSeed K.ps o0.state t) := by
  rw [H.hop]
  exact (adv_inv S hf ⟨p, o0.height.toNat⟩ K.skSeed K.ps H.hlen H.hh.1 H.hh.2.1 H.hh.2.2 H.init t ht).2

theorem FastOk.getIndex (i : Nat) (hi : i ≤ 2 ^ o0.height.toNat) :
    (fastAt S hf K o0 i).getIndex = ok i :=
  K.getIndex _ i rfl (Nat.lt_of_le_of_lt hi H.pow_lt)

theorem FastOk.setIndex_throw (i n : Nat) (hi : i ≤ 2 ^ o0.height.toNat)
    (hn : 2 ^ o0.height.toNat ≤ n ∨ n < i) :
    (fastAt S hf K o0 i).setIndex S n = .raise .invalidArgument (fastAt S hf K o0 i) := by
  have hlt := H.pow_lt
  have e1 : HashFn.ofNat? (fastAt S hf K o0 i).hashFunction = some hf := by
    rw [show (fastAt S hf K o0 i).hashFunction = hf.toNat from H.hof, ofNat?_toNat]
  have e3 : (fastAt S hf K o0 i).sk = K.sk i := rfl
  have h30 := H.hh.2.1
  have e5 : (fastAt S hf K o0 i).params = o0.params := rfl
  have e6 : o0.params.h = o0.height.toNat := by rw [H.hop]
  rw [XmssFast.setIndex, e1, e3]
  simp only [xmssfastUpdate]
  rw [e5, e6, if_neg (by omega), K.idx i (by omega)]
  simp only
  by_cases hc : n ≥ 2 ^ o0.height.toNat
  · rw [if_pos hc]; rfl
  · rw [if_neg hc, if_pos (by omega)]; rfl

theorem FastOk.setIndex_ok (i n : Nat) (hi : i ≤ n) (hn : n < 2 ^ o0.height.toNat) :
    (fastAt S hf K o0 i).setIndex S n = .ret n (fastAt S hf K o0 n) := by
  have hlt := H.pow_lt
  have e1 : HashFn.ofNat? (fastAt S hf K o0 i).hashFunction = some hf := by
    rw [show (fastAt S hf K o0 i).hashFunction = hf.toNat from H.hof, ofNat?_toNat]
  have e3 : (fastAt S hf K o0 i).sk = K.sk i := rfl
  have e4 : (fastAt S hf K o0 i).state = stAt S hf o0.params K.skSeed K.ps o0.state i := by
    rw [fastAt]; simp only; rw [Nat.min_eq_left (by omega)]
  have h30 := H.hh.2.1
  have hskip := adv_skip S hf ⟨p, o0.height.toNat⟩ K.skSeed K.ps H.hlen H.hh.1 h30 H.hh.2.2 H.init i n hi hn
  rw [← H.hop] at hskip
  rw [XmssFast.setIndex, e1, e3, e4]
  simp only [xmssfastUpdate]
  have e5 : (fastAt S hf K o0 i).params = o0.params := rfl
  have e6 : o0.params.h = o0.height.toNat := by rw [H.hop]
  rw [e5, e6, if_neg (by omega), K.idx i (by omega)]
  simp only
  rw [if_neg (by omega), if_neg (by omega)]
  simp only [K.seed_slice, K.ps_slice, ok_bind, hskip, Step.ofOutcome, K.reindex]
  rw [fastAt, fastAt]
  simp only
  rw [Nat.min_eq_left (show n ≤ 2 ^ o0.height.toNat - 1 by omega)]

theorem FastOk.sign_throw (msg : Bytes) :
    (fastAt S hf K o0 (2 ^ o0.height.toNat)).sign S msg =
      .raise .invalidArgument (fastAt S hf K o0 (2 ^ o0.height.toNat)) := by
  have e2 : (fastAt S hf K o0 (2 ^ o0.height.toNat)).toXmssBase.params.wots.w = w := by
    show o0.params.wots.w = w
    rw [H.hop]; exact H.hp.pw
  rw [XmssFast.sign, e2, Props.C22_signature_size _ w H.hw, H.getIndex _ (Nat.le_refl _)]
  simp only
  rw [H.setIndex_throw _ _ (Nat.le_refl _) (Or.inl (Nat.le_refl _))]

theorem FastOk.signmsg (i : Nat) (hi : i < 2 ^ o0.height.toNat) (msg : Bytes) :
    xmssfastSignmsg S hf o0.params (K.sk i) (stAt S hf o0.params K.skSeed K.ps o0.state i) msg =
      ok (Spec.signature (hf.prim S) w o0.height.toNat K.skSeed K.skPrf K.ps i msg,
        (K.sk (i + 1), stAt S hf o0.params K.skSeed K.ps o0.state (min (i + 1) (2 ^ o0.height.toNat - 1)))) := by
  have hlt := H.pow_lt
  obtain ⟨T, hinv⟩ := H.adv i hi
  have hpath := authOut_eq _ o0.height.toNat i _ hinv.auth.auth o0.height.toNat 0 (by omega)
  simp only [xmssfastSignmsg, K.idx i (by omega), K.seed_slice, K.prf_slice, K.ps_slice, ok_bind, K.reindex,
    K.root_slice, prf_eq, toByte_eq_be, hMsg_eq, Adrs.setType, Adrs.setOTS, getSeed_eq]
  obtain ⟨b', c', d', e⟩ := wotsSign_spec S hf H.hp (Spec.Hmsg (hf.prim S)
          (Spec.PRF (hf.prim S) K.skPrf (Spec.be 32 i) ++ K.root ++ Spec.be 32 i) msg) K.skSeed K.ps i 0 0 0
    (length_Hmsg ..)
  have e6 : o0.params.h = o0.height.toNat := by rw [H.hop]
  have e7 : o0.params.wots = p := by rw [H.hop]
  rw [e7, e, e6]
  simp only [ok_bind]
  rw [hpath]
  simp only [ok_bind]
  have hsig : idxBytes i ++ Spec.PRF (hf.prim S) K.skPrf (Spec.be 32 i) ++
        (Spec.wotsSig (hf.prim S) K.skSeed K.ps i (Spec.wotsDigits w (Spec.Hmsg (hf.prim S)
          (Spec.PRF (hf.prim S) K.skPrf (Spec.be 32 i) ++ K.root ++ Spec.be 32 i) msg))).flatten ++
        ((List.range' 0 o0.height.toNat).map fun l =>
          Spec.node (hf.prim S) p.w p.len K.skSeed K.ps l (Spec.sibling (i / 2 ^ l))).flatten =
      Spec.signature (hf.prim S) w o0.height.toNat K.skSeed K.skPrf K.ps i msg := by
    rw [signature_parts S hf w o0.height.toNat K i msg H.hroot, H.hp.len, H.hp.pw, Spec.authPath, List.range_eq_range']
  by_cases hc : i < 2 ^ o0.height.toNat - 1
  · rw [if_pos hc]
    have hstep := adv_step S hf ⟨p, o0.height.toNat⟩ K.skSeed K.ps H.hlen H.hh.1 H.hh.2.1 H.hh.2.2 H.init i
      (by simp only; omega) 0 i b' c' d'
    rw [← H.hop] at hstep
    simp only [e6] at hstep
    rw [Nat.min_eq_left (by omega), ← hsig]
    cases hr : bdsRound S hf (stAt S hf o0.params K.skSeed K.ps o0.state i) i K.skSeed o0.params K.ps
        ⟨0, 0, 0, 0, i, b', c', d'⟩ with
    | throw e => rw [hr] at hstep; cases hstep
    | ub => rw [hr] at hstep; cases hstep
    | ok st1 =>
      rw [hr] at hstep
      simp only [ok_bind] at hstep ⊢
      rw [hstep]
      rfl
  · rw [if_neg hc, ← hsig, show min (i + 1) (2 ^ o0.height.toNat - 1) = i by omega]

theorem FastOk.sign_ok (i : Nat) (hi : i < 2 ^ o0.height.toNat) (msg : Bytes) :
    (fastAt S hf K o0 i).sign S msg =
      .ret (Spec.signature (hf.prim S) w o0.height.toNat K.skSeed K.skPrf K.ps i msg) (fastAt S hf K o0 (i + 1)) := by
  have e2 : (fastAt S hf K o0 i).toXmssBase.params.wots.w = w := by
    show o0.params.wots.w = w
    rw [H.hop]; exact H.hp.pw
  have hst : stAt S hf o0.params K.skSeed K.ps o0.state (min i (2 ^ o0.height.toNat - 1)) =
      stAt S hf o0.params K.skSeed K.ps o0.state i := by rw [Nat.min_eq_left (by omega)]
  have hsm := H.signmsg i hi msg
  rw [← hst] at hsm
  rw [XmssFast.sign, e2, Props.C22_signature_size _ w H.hw, H.getIndex _ (by omega)]
  simp only
  rw [H.setIndex_ok i i (Nat.le_refl _) hi]
  simp only
  have e3 : (fastAt S hf K o0 i).hashFunction = hf.toNat := H.hof
  rw [withHash_of e3]
  have hsm' : xmssfastSignmsg S hf (fastAt S hf K o0 i).params (fastAt S hf K o0 i).sk (fastAt S hf K o0 i).state msg
    = _ := hsm
  rw [hsm']
  simp only [ok_bind]
  rw [fillBuffer_exact]
  · rfl
  · rw [length_signature S hf H.hp H.hlen, H.hp.len]; rfl

end

theorem initTree_eq (S : Sha256) (seed : Bytes) (height : UInt8) (hf : HashFn) {w : Nat}
    (hw : w = 2 ∨ w = 4 ∨ w = 16 ∨ w = 256) (hs : seed.length = 48) (hh : GoodHeight height) :
    ∃ p k q st, wotsSetParams w = ok p ∧
      initTree S height hf.toNat seed w =
        ok (⟨p, height.toNat⟩, (keyOf S hf w height.toNat (lenW_pos hw) seed).sk 0, st) ∧
      ∀ o0 : XmssFast, o0.params = ⟨p, height.toNat⟩ → o0.hashFunction = hf.toNat → o0.height = height →
        o0.sk = (keyOf S hf w height.toNat (lenW_pos hw) seed).sk 0 → o0.state = st →
        FastOk S hf w (keyOf S hf w height.toNat (lenW_pos hw) seed) p k q o0 := by
  obtain ⟨p, k, q, hp, hsp, h1, h2, hk, hb⟩ := Props.base_ok hw
  obtain ⟨h4, h30, he⟩ := hh
  have hc : ¬ (2 ≥ height.toNat ∨ (height.toNat - 2) % 2 ≠ 0) := by omega
  have h48 : (seed.drop 0).take 48 = seed := by simp [← hs]
  obtain ⟨st, e1, e2⟩ := treehashSetup_eq S hf ⟨p, height.toNat⟩ ((shake256 96 seed).take 32)
    ((shake256 96 seed).drop 64) h1 h4 h30
  refine ⟨p, k, q, st, hp, ?_, ?_⟩
  · rw [initTree, xmssSetParams, if_neg hc, hp]
    simp only [ok_bind, withHash_toNat]
    rw [xmssfastGenkeypair, if_neg (by simp only [and_one_eq]; omega), slice_eq_ok (by omega), ok_bind, h48]
    simp only at e1 ⊢
    rw [e1]
    simp only [ok_bind]
    rw [hsp.pw, ← hsp.len, keyOf_sk0 S hf w height.toNat (lenW_pos hw) seed 0]
  · intro o0 a1 a2 a3 a4 a5
    subst a3
    exact ⟨hw, hsp, h1, a1, a2, ⟨h4, h30, he⟩, rfl, a4, by rw [a5]; exact e2⟩

theorem fastBuild_eq (S : Sha256) (seed : Bytes) (height : UInt8) (hf : HashFn) (af : Nat)
    (hs : seed.length = 48) (hh : GoodHeight height) :
    ∃ p k q st, wotsSetParams 16 = ok p ∧
      XmssFast.build S seed height hf.toNat af = ok
        { params := ⟨p, height.toNat⟩, hashFunction := hf.toNat, addrFormat := af, height := height,
          sk := (keyOf S hf 16 height.toNat (lenW_pos (by omega)) seed).sk 0, seed := seed, state := st } ∧
      FastOk S hf 16 (keyOf S hf 16 height.toNat (lenW_pos (by omega)) seed) p k q
        { params := ⟨p, height.toNat⟩, hashFunction := hf.toNat, addrFormat := af, height := height,
          sk := (keyOf S hf 16 height.toNat (lenW_pos (by omega)) seed).sk 0, seed := seed, state := st } := by
  obtain ⟨p, k, q, st, hp, hi, hok⟩ := initTree_eq S seed height hf (w := 16) (by omega) hs hh
  have hc : ¬ (2 ≥ height.toNat ∨ (height.toNat - 2) % 2 ≠ 0) := by have := hh.1; have := hh.2.2; omega
  refine ⟨p, k, q, st, hp, ?_, hok _ rfl rfl rfl rfl rfl⟩
  rw [XmssFast.build, if_neg hc, hi]
  rfl

end Qrl
