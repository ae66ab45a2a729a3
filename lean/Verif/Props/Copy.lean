import Verif.Model.Copy
import Verif.Props.Leaves
/-!
# C49: a copy of an `XmssFast` is not an independent signer
-/

namespace Qrl.Props

open Outcome Qrl.Spec

/-- `bds_round` at leaf 0, on any state of the right size. -/
theorem bdsRound_zero (S : Sha256) (hf : HashFn) (sk ps : Bytes) (p : XmssParams) (h1 : 1 ≤ p.wots.len) (hh : 4 ≤ p.h)
    (st : BdsState) (c : Cell) (ha : st.auth[0]? = some c) (hk : 0 < st.keep.length) (a b d e f : Nat) :
    bdsRound S hf st 0 sk p ps ⟨0, 0, 0, a, b, d, e, f⟩ = ok { st with
      keep := st.keep.set 0 c
      auth := st.auth.set 0 (some (Spec.leaf (hf.prim S) p.wots.w p.wots.len sk ps 0)) } := by
  have hla : 0 < st.auth.length := by
    rw [List.getElem?_eq_some_iff] at ha; exact ha.1
  have htau : findTau 0 p.h p.h 0 = 0 := by
    obtain ⟨m, hm⟩ : ∃ m, p.h = m + 1 := ⟨p.h - 1, by omega⟩
    rw [hm, findTau]; rfl
  obtain ⟨x1, x2, x3, x4, x5, x6, hx⟩ := genLeafWots_eq S hf sk p ps h1 0 0 0 0 0 0 0
  rw [bdsRound]
  simp only [htau, Adrs.derive, Adrs.setType, Adrs.setLtree, Adrs.setOTS, Nat.lt_irrefl, if_false, ok_bind,
    gt_iff_lt]
  rw [if_pos ⟨rfl, by omega⟩]
  simp only [rd, ha, ofOption_some, ok_bind, Nat.zero_shiftRight, wr, if_pos hk, if_true]
  rw [hx]
  simp only [ok_bind, if_pos hla]

/-- Nothing to do when every tree-hash instance is finished. -/
theorem pickLevel_done (st : BdsState) (p : XmssParams) (n : Nat) (m : Nat) : ∀ i level, i + m = n →
    (∀ j, j < n → ∃ tr, st.treehash[j]? = some tr ∧ tr.completed = true) →
    pickLevel st p m i level p.h = ok level := by
  induction m with
  | zero => intro i level _ _; rfl
  | succ m ih =>
    intro i level hi H
    obtain ⟨tr, e1, e2⟩ := H i (by omega)
    rw [pickLevel]
    simp only [rd, e1, ofOption_some, ok_bind, e2, if_true, Nat.lt_irrefl, if_false]
    exact ih (i + 1) level (by omega) H

theorem treehashUpdate_done (S : Sha256) (hf : HashFn) (sk ps : Bytes) (p : XmssParams) (adr : Adrs) (st : BdsState)
    (H : ∀ j, j < p.h - 2 → ∃ tr, st.treehash[j]? = some tr ∧ tr.completed = true) (n : Nat) :
    bdsTreehashUpdate S hf sk p ps adr n st = ok st := by
  cases n with
  | zero => rfl
  | succ n => rw [bdsTreehashUpdate, pickLevel_done st p (p.h - 2) _ 0 _ (by omega) H, ok_bind, if_pos rfl]

/-- A signature is cut into its one-time part and its path. -/
theorem sig_cut {S : Sha256} {hf : HashFn} {w : Nat} {K : KeyParts} {p : WotsParams} {k q : Nat} {o0 : XmssFast}
    (H : FastOk S hf w K p k q o0) (i : Nat) (m : Bytes) :
    (Spec.signature (hf.prim S) w o0.height.toNat K.skSeed K.skPrf K.ps i m).take (36 + 32 * Spec.lenW w) =
      idxBytes i ++ Spec.PRF (hf.prim S) K.skPrf (Spec.be 32 i) ++
        (Spec.wotsSig (hf.prim S) K.skSeed K.ps i (Spec.wotsDigits w (Spec.Hmsg (hf.prim S)
          (Spec.PRF (hf.prim S) K.skPrf (Spec.be 32 i) ++ K.root ++ Spec.be 32 i) m))).flatten ∧
    (Spec.signature (hf.prim S) w o0.height.toNat K.skSeed K.skPrf K.ps i m).drop (36 + 32 * Spec.lenW w) =
      (Spec.authPath (hf.prim S) w (Spec.lenW w) K.skSeed K.ps o0.height.toNat i).flatten := by
  rw [Qrl.signature_parts S hf w o0.height.toNat K i m H.hroot]
  have hl : (idxBytes i ++ Spec.PRF (hf.prim S) K.skPrf (Spec.be 32 i) ++
      (Spec.wotsSig (hf.prim S) K.skSeed K.ps i (Spec.wotsDigits w (Spec.Hmsg (hf.prim S)
        (Spec.PRF (hf.prim S) K.skPrf (Spec.be 32 i) ++ K.root ++ Spec.be 32 i) m))).flatten).length = 36 + 32 * Spec.lenW w := by
    rw [idxBytes_eq]
    simp only [List.length_append, length_be, length_PRF, length_flatten32 _ (mem_wotsSig S hf K.skSeed K.ps i _)]
    simp only [Spec.wotsSig, List.length_map, List.length_zipIdx]
    rw [length_wotsDigits H.hp _ (length_Hmsg ..), ← H.hp.len]
  exact ⟨by rw [← hl, List.take_left], by rw [← hl, List.drop_left]⟩

/-- Signing at an index before the last with an object whose buffers may hold anything: the path in the signature is what
the buffers hold. -/
theorem sign_buffers {S : Sha256} {hf : HashFn} {w : Nat} {K : KeyParts} {p : WotsParams} {k q : Nat} {o0 : XmssFast}
    (H : FastOk S hf w K p k q o0) (i : Nat) (hi : i < 2 ^ o0.height.toNat - 1) (st st' : BdsState) (path : List Bytes)
    (hpath : authOut st.auth o0.height.toNat 0 = ok path) (hlen : ∀ x ∈ path, x.length = 32)
    (hround : (bdsRound S hf st i K.skSeed o0.params K.ps {} >>= fun s =>
      bdsTreehashUpdate S hf K.skSeed o0.params K.ps {} ((o0.height.toNat - 2) >>> 1) s) = ok st') (m : Bytes) :
    ({ o0 with sk := K.sk i, state := st } : XmssFast).sign S m = .ret
      ((Spec.signature (hf.prim S) w o0.height.toNat K.skSeed K.skPrf K.ps i m).take (36 + 32 * Spec.lenW w) ++ path.flatten)
      { o0 with sk := K.sk (i + 1), state := st' } := by
  have hlt := H.pow_lt
  have hh := H.hh
  have e6 : o0.params.h = o0.height.toNat := by rw [H.hop]
  have e7 : o0.params.wots = p := by rw [H.hop]
  have hpl : path.length = o0.height.toNat := by
    have : ∀ n j ps, authOut st.auth n j = ok ps → ps.length = n := by
      intro n
      induction n with
      | zero => intro j ps h; cases h; rfl
      | succ n ih =>
        intro j ps h
        rw [authOut] at h
        obtain ⟨x, _, h⟩ := bind_eq_ok.mp h
        obtain ⟨xs, h1, h⟩ := bind_eq_ok.mp h
        cases h
        rw [List.length_cons, ih _ _ h1]
    exact this _ _ _ hpath
  have hcut := (sig_cut H i m).1
  have hcl : ((Spec.signature (hf.prim S) w o0.height.toNat K.skSeed K.skPrf K.ps i m).take (36 + 32 * Spec.lenW w)).length =
      36 + 32 * Spec.lenW w := by
    rw [List.length_take, length_signature S hf H.hp H.hlen, ← H.hp.len]; omega
  generalize hoc : ({ o0 with sk := K.sk i, state := st } : XmssFast) = oc
  have hsk : oc.sk = K.sk i := by rw [← hoc]
  have hpar : oc.params = o0.params := by rw [← hoc]
  have hst : oc.state = st := by rw [← hoc]
  have hhf : oc.hashFunction = hf.toNat := by rw [← hoc]; exact H.hof
  have hset : oc.setIndex S i = .ret i oc := by
    rw [XmssFast.setIndex, hhf, ofNat?_toNat]
    simp only [xmssfastUpdate]
    rw [hpar, e6, if_neg (by have := hh.2.1; omega), hsk, K.idx i (by omega)]
    simp only
    rw [if_neg (by omega), if_neg (by omega)]
    simp only [K.seed_slice, K.ps_slice, ok_bind, Nat.sub_self, advanceLoop, Step.ofOutcome, K.reindex]
    rw [← hsk, ← hhf, ← hpar]
  have hsm : xmssfastSignmsg S hf oc.params oc.sk oc.state m = ok
      ((Spec.signature (hf.prim S) w o0.height.toNat K.skSeed K.skPrf K.ps i m).take (36 + 32 * Spec.lenW w) ++ path.flatten,
        (K.sk (i + 1), st')) := by
    simp only [xmssfastSignmsg, hsk, K.idx i (by omega), K.seed_slice, K.prf_slice, K.ps_slice, ok_bind, K.reindex,
      K.root_slice, prf_eq, toByte_eq_be, hMsg_eq, Adrs.setType, Adrs.setOTS, getSeed_eq]
    obtain ⟨b', c', d', e⟩ := wotsSign_spec S hf H.hp (Spec.Hmsg (hf.prim S)
          (Spec.PRF (hf.prim S) K.skPrf (Spec.be 32 i) ++ K.root ++ Spec.be 32 i) m) K.skSeed K.ps i 0 0 0
      (length_Hmsg ..)
    rw [hpar, hst, e6, e7, e]
    simp only [ok_bind]
    rw [hpath]
    simp only [ok_bind]
    rw [if_pos (by omega), bdsRound_addr]
    simp only [bdsTreehashUpdate_addr]
    obtain ⟨s1, u1, u2⟩ := bind_eq_ok.mp hround
    rw [u1, ok_bind, u2, ok_bind, hcut]
  have hlen2 : ((Spec.signature (hf.prim S) w o0.height.toNat K.skSeed K.skPrf K.ps i m).take (36 + 32 * Spec.lenW w) ++
      path.flatten).length = 4 + 32 + 32 * Spec.lenW w + 32 * o0.height.toNat := by
    rw [List.length_append, hcl, length_flatten32 _ hlen, hpl]
  rw [XmssFast.sign, show oc.toXmssBase.params.wots.w = w from by rw [hpar, H.hop]; exact H.hp.pw,
    C22_signature_size _ w H.hw, K.getIndex oc.toXmssBase i hsk (by omega)]
  simp only
  rw [hset]
  simp only
  rw [withHash_of hhf, hsm]
  simp only [ok_bind]
  have hoh : oc.height = o0.height := by rw [← hoc]
  rw [hoh]
  rw [fillBuffer_exact _ _ hlen2]
  rw [← hoc]
  rfl

/-- `bds_treehash_update` neither reads nor writes the authentication path. -/
theorem treehashUpdate_auth (S : Sha256) (hf : HashFn) (l : Nat) (sk ps : Bytes) (p : XmssParams) (adr : Adrs)
    (st st' : BdsState) (a : List Cell) (h : treehashUpdate S hf l st sk p ps adr = ok st') :
    treehashUpdate S hf l { st with auth := a } sk p ps adr = ok { st' with auth := a } := by
  rw [treehashUpdate] at h ⊢
  simp only at h ⊢
  obtain ⟨t, h1, h⟩ := bind_eq_ok.mp h
  rw [h1, ok_bind]
  obtain ⟨x, h2, h⟩ := bind_eq_ok.mp h
  rw [h2, ok_bind]
  obtain ⟨y, h3, h⟩ := bind_eq_ok.mp h
  rw [h3, ok_bind]
  by_cases hc : y.nodeheight = t.h
  · rw [if_pos hc] at h ⊢
    obtain ⟨z, h4, h⟩ := bind_eq_ok.mp h
    rw [h4, ok_bind]
    cases h; rfl
  · rw [if_neg hc] at h ⊢
    obtain ⟨z, h4, h⟩ := bind_eq_ok.mp h
    rw [h4, ok_bind]
    obtain ⟨z, h4, h⟩ := bind_eq_ok.mp h
    rw [h4, ok_bind]
    obtain ⟨z, h4, h⟩ := bind_eq_ok.mp h
    rw [h4, ok_bind]
    cases h; rfl

theorem minHeight_auth (st : BdsState) (a : List Cell) (m : Nat) : ∀ i r,
    minHeightLoop { st with auth := a } m i r = minHeightLoop st m i r := by
  induction m with
  | zero => intro i r; rfl
  | succ m ih => intro i r; rw [minHeightLoop, minHeightLoop]; simp only [ih]

theorem pickLevel_auth (st : BdsState) (p : XmssParams) (a : List Cell) (m : Nat) : ∀ i level low,
    pickLevel { st with auth := a } p m i level low = pickLevel st p m i level low := by
  induction m with
  | zero => intro i level low; rfl
  | succ m ih =>
    intro i level low
    rw [pickLevel, pickLevel]
    simp only [ih, treehashMinheightOnStack, minHeight_auth]

theorem bdsTreehashUpdate_auth (S : Sha256) (hf : HashFn) (sk ps : Bytes) (p : XmssParams) (adr : Adrs) (a : List Cell)
    (n : Nat) : ∀ (st st' : BdsState), bdsTreehashUpdate S hf sk p ps adr n st = ok st' →
    bdsTreehashUpdate S hf sk p ps adr n { st with auth := a } = ok { st' with auth := a } := by
  induction n with
  | zero => intro st st' h; cases h; rfl
  | succ n ih =>
    intro st st' h
    rw [bdsTreehashUpdate] at h ⊢
    rw [pickLevel_auth]
    obtain ⟨l, h1, h⟩ := bind_eq_ok.mp h
    rw [h1, ok_bind]
    by_cases hc : l = p.h - 2
    · rw [if_pos hc] at h ⊢
      cases h; rfl
    · rw [if_neg hc] at h ⊢
      obtain ⟨x, h2, h⟩ := bind_eq_ok.mp h
      rw [treehashUpdate_auth S hf l sk ps p adr st x a h2, ok_bind]
      exact ih x st' h

/-- `bds_round` at leaf 1. -/
theorem bdsRound_one (S : Sha256) (hf : HashFn) (sk ps : Bytes) (p : XmssParams) (hh : 4 ≤ p.h) (hh30 : p.h ≤ 30)
    (st : BdsState) (l r : Bytes) (c : Cell) (t : TreeInst) (h0 : st.auth[0]? = some (some l)) (h1 : st.auth[1]? = some c)
    (hk : st.keep[0]? = some (some r)) (ht : st.treehash[0]? = some t) :
    bdsRound S hf st 1 sk p ps {} = ok { st with
      keep := st.keep.set 0 c
      auth := (st.auth.set 1 (some (Spec.H (hf.prim S) ps 2 0 0 0 l r))).set 0 t.node
      treehash := st.treehash.set 0 { t with h := 0, nextIdx := 5, completed := false, stackusage := 0 } } := by
  have htau : findTau 1 p.h p.h 0 = 1 := by
    obtain ⟨m, hm⟩ : ∃ m, p.h = m + 2 := ⟨p.h - 2, by omega⟩
    rw [hm, findTau, findTau]; rfl
  have l0 : 0 < st.auth.length := (List.getElem?_eq_some_iff.mp h0).1
  have l1 : 1 < st.auth.length := (List.getElem?_eq_some_iff.mp h1).1
  have l2 : 0 < st.keep.length := (List.getElem?_eq_some_iff.mp hk).1
  have l3 : 0 < st.treehash.length := (List.getElem?_eq_some_iff.mp ht).1
  have h16 : 2 ^ 4 ≤ 2 ^ p.h := Nat.pow_le_pow_right (by omega) hh
  rw [bdsRound]
  simp only [htau, Adrs.derive, Adrs.setType, Adrs.setLtree, Adrs.setOTS, Adrs.setTreeHeight, Adrs.setTreeIndex]
  rw [if_pos (show 1 > 0 by omega)]
  rw [show (1 - 1) = 0 from rfl, Nat.zero_shiftRight]
  simp only [rd, h0, hk, ofOption_some, ok_bind]
  rw [if_pos ⟨by decide, by omega⟩, h1]
  simp only [ofOption_some, ok_bind, show 1 >>> 1 = 0 from rfl, wr, if_pos l2, if_pos l1]
  rw [if_neg (show ¬ (1 = 0) by omega), hashH_eq]
  simp only
  rw [if_pos (show 1 < p.h - 2 by omega), roundAuth]
  simp only
  rw [if_pos (show 0 < p.h - 2 by omega)]
  simp only [rd, ht, ofOption_some, ok_bind, wr, List.length_set, if_pos l0, roundAuth, roundRestart]
  rw [if_pos (show (1 + 1 + 3 * 1 <<< 0) % 2 ^ 32 < 2 ^ p.h from by
    rw [show (1 + 1 + 3 * 1 <<< 0) % 2 ^ 32 = 5 from rfl]; omega)]
  simp only [ok_bind, if_pos l3]
  rfl

/-- `bds_round` at leaf 2. -/
theorem bdsRound_two (S : Sha256) (hf : HashFn) (sk ps : Bytes) (p : XmssParams) (h1 : 1 ≤ p.wots.len) (hh : 4 ≤ p.h)
    (st : BdsState) (hl : 0 < st.auth.length) :
    bdsRound S hf st 2 sk p ps {} = ok { st with
      auth := st.auth.set 0 (some (Spec.leaf (hf.prim S) p.wots.w p.wots.len sk ps 2)) } := by
  have htau : findTau 2 p.h p.h 0 = 0 := by
    obtain ⟨m, hm⟩ : ∃ m, p.h = m + 1 := ⟨p.h - 1, by omega⟩
    rw [hm, findTau]; rfl
  obtain ⟨x1, x2, x3, x4, x5, x6, hx⟩ := genLeafWots_eq S hf sk p ps h1 2 0 0 0 0 0 0
  rw [bdsRound]
  simp only [htau, Adrs.derive, Adrs.setType, Adrs.setLtree, Adrs.setOTS, Nat.lt_irrefl, if_false, ok_bind,
    gt_iff_lt]
  rw [if_neg (fun hx => absurd hx.1 (by decide))]
  simp only [if_true]
  rw [hx]
  simp only [ok_bind, wr, if_pos hl]

/-- A fresh object and its copy: the original signs, then the copy, then the original twice. -/
theorem twins_core {S : Sha256} {hf : HashFn} {w : Nat} {K : KeyParts} {p : WotsParams} {k q : Nat} {o0 : XmssFast}
    (H : FastOk S hf w K p k q o0) (m1 m2 m3 m4 : Bytes) :
    ∃ t1 t2 t3 t4,
      o0.copyOf.signOriginal S m1 = .ret (Spec.signature (hf.prim S) w o0.height.toNat K.skSeed K.skPrf K.ps 0 m1) t1 ∧
      t1.signCopy S m2 = .ret
        ((Spec.signature (hf.prim S) w o0.height.toNat K.skSeed K.skPrf K.ps 0 m2).take (36 + 32 * Spec.lenW w) ++
          (Spec.authPath (hf.prim S) w (Spec.lenW w) K.skSeed K.ps o0.height.toNat 1).flatten) t2 ∧
      t2.signOriginal S m3 = .ret (Spec.signature (hf.prim S) w o0.height.toNat K.skSeed K.skPrf K.ps 1 m3) t3 ∧
      t3.signOriginal S m4 = .ret
        ((Spec.signature (hf.prim S) w o0.height.toNat K.skSeed K.skPrf K.ps 2 m4).take (36 + 32 * Spec.lenW w) ++
          ((Spec.authPath (hf.prim S) w (Spec.lenW w) K.skSeed K.ps o0.height.toNat 2).set 1
            (Spec.H (hf.prim S) K.ps 2 0 0 0 (Spec.leaf (hf.prim S) w (Spec.lenW w) K.skSeed K.ps 0)
              (Spec.leaf (hf.prim S) w (Spec.lenW w) K.skSeed K.ps 0))).flatten) t4 := by
  obtain ⟨h4, h30, he⟩ := H.hh
  have hlt := H.pow_lt
  have h16 : 2 ^ 4 ≤ 2 ^ o0.height.toNat := Nat.pow_le_pow_right (by omega) h4
  have e6 : o0.params.h = o0.height.toNat := by rw [H.hop]
  have e7 : o0.params.wots = p := by rw [H.hop]
  have hl1 : 1 ≤ o0.params.wots.len := by rw [e7]; exact H.hlen
  have hpw := H.hp.pw
  have hpl := H.hp.len
  have step : ∀ t, t + 1 < 2 ^ o0.height.toNat →
      (bdsRound S hf (stAt S hf o0.params K.skSeed K.ps o0.state t) t K.skSeed o0.params K.ps {} >>= fun st =>
        bdsTreehashUpdate S hf K.skSeed o0.params K.ps {} ((o0.height.toNat - 2) >>> 1) st) =
      ok (stAt S hf o0.params K.skSeed K.ps o0.state (t + 1)) := by
    intro t ht
    have := adv_step S hf ⟨p, o0.height.toNat⟩ K.skSeed K.ps H.hlen h4 h30 he H.init t (by simpa using ht) 0 0 0 0 0
    rw [← H.hop] at this
    rw [e6] at this
    exact this
  obtain ⟨T1, I1⟩ := H.adv 1 (by omega)
  obtain ⟨T2, I2⟩ := H.adv 2 (by omega)
  rw [hpw, ← hpl] at I1 I2
  generalize hN : Spec.node (hf.prim S) w (Spec.lenW w) K.skSeed K.ps = N at I1 I2
  have hN32 : ∀ l i, (N l i).length = 32 := by
    intro l i; rw [← hN]; exact node_len (fun _ => length_prim ..) _ _ _ _ (by rw [hpl]; exact H.hlen) l i
  have hleaf : ∀ i, Spec.leaf (hf.prim S) w (Spec.lenW w) K.skSeed K.ps i = N 0 i := by intro i; rw [← hN]; rfl
  have hst0 : stAt S hf o0.params K.skSeed K.ps o0.state 0 = o0.state := rfl
  have hdone : ∀ j, j < o0.params.h - 2 → ∃ tr, o0.state.treehash[j]? = some tr ∧ tr.completed = true := by
    intro j hj
    obtain ⟨tr, g1, g2⟩ := H.init.th.inst j (by omega)
    exact ⟨tr, g1, g2.1⟩
  generalize hs1 : stAt S hf o0.params K.skSeed K.ps o0.state 1 = st1 at *
  generalize hs2 : stAt S hf o0.params K.skSeed K.ps o0.state 2 = st2 at *
  -- the first step
  have r0 : ∀ (st : BdsState) (c : Cell), st.auth[0]? = some c → 0 < st.keep.length → st.treehash = o0.state.treehash →
      (bdsRound S hf st 0 K.skSeed o0.params K.ps {} >>= fun s =>
        bdsTreehashUpdate S hf K.skSeed o0.params K.ps {} ((o0.height.toNat - 2) >>> 1) s) =
      ok { st with keep := st.keep.set 0 c, auth := st.auth.set 0 (some (N 0 0)) } := by
    intro st c g1 g2 g3
    have hb := bdsRound_zero S hf K.skSeed K.ps o0.params hl1 (by omega) st c g1 g2 0 0 0 0 0
    have hb' : bdsRound S hf st 0 K.skSeed o0.params K.ps {} = _ := hb
    rw [hb', ok_bind, e7, hpw, ← hpl, hleaf]
    refine treehashUpdate_done S hf K.skSeed K.ps o0.params _ _ ?_ _
    simp only [g3]
    exact hdone
  have a0 := H.init.auth.auth 0 (by omega)
  have f0 := step 0 (by omega)
  rw [hst0, r0 o0.state _ a0 (by rw [H.init.auth.lkeep]; omega) rfl] at f0
  have f0' := Outcome.ok.inj f0
  rw [Nat.zero_add, hs1] at f0'
  have hth1 : st1.treehash = o0.state.treehash := by rw [← f0']
  have hso1 : st1.stackoffset = o0.state.stackoffset := by rw [← f0']
  have hnl1 : st1.nextLeaf = o0.state.nextLeaf := by rw [← f0']
  have hfast1 : fastAt S hf K o0 1 = { o0 with sk := K.sk 1, state := st1 } := by
    rw [fastAt, Nat.min_eq_left (by omega), hs1]
  have hsign1 := H.sign_ok 0 (by omega) m1
  rw [fastAt_zero H, hfast1] at hsign1
  have hA : o0.copyOf.signOriginal S m1 = .ret (Spec.signature (hf.prim S) w o0.height.toNat K.skSeed K.skPrf K.ps 0 m1)
      { original := { o0 with sk := K.sk 1, state := st1 }, copy := { o0 with state := st1 } } := by
    rw [Twins.signOriginal, show o0.copyOf.original = o0 from rfl, hsign1]
    simp only
    rw [show o0.copyOf.copy = o0 from rfl]
    have : st1.shareTo o0.state = st1 := by rw [BdsState.shareTo, ← hso1, ← hnl1]
    rw [this]
  -- the copy
  have ha1 : st1.auth[0]? = some (some (N 0 0)) := I1.auth.auth 0 (by omega)
  have hk1 : 0 < st1.keep.length := by rw [I1.auth.lkeep]; omega
  have hset1 : st1.auth.set 0 (some (N 0 0)) = st1.auth := by
    obtain ⟨hl, hx⟩ := List.getElem?_eq_some_iff.mp ha1
    rw [← hx, List.set_getElem_self]
  have f1 := r0 st1 _ ha1 hk1 hth1
  rw [hset1] at f1
  have path1 := authOut_eq N o0.height.toNat 1 _ I1.auth.auth o0.height.toNat 0 (by omega)
  rw [← List.range_eq_range'] at path1
  have hp1 : (List.range o0.height.toNat).map (fun l => N l (Spec.sibling (1 / 2 ^ l))) =
      Spec.authPath (hf.prim S) w (Spec.lenW w) K.skSeed K.ps o0.height.toNat 1 := by rw [Spec.authPath, hN]
  rw [hp1] at path1
  have hpath32 : ∀ i, ∀ x ∈ Spec.authPath (hf.prim S) w (Spec.lenW w) K.skSeed K.ps o0.height.toNat i, x.length = 32 := by
    intro i x hx
    rw [Spec.authPath, hN] at hx
    obtain ⟨l, _, rfl⟩ := List.mem_map.mp hx
    exact hN32 _ _
  have hc := sign_buffers H 0 (by omega) st1 _ _ path1 (hpath32 1) f1 m2
  rw [← H.hsk] at hc
  generalize hst1' : ({ st1 with keep := st1.keep.set 0 (some (N 0 0)) } : BdsState) = st1' at hc f1
  have hB : ({ original := { o0 with sk := K.sk 1, state := st1 }, copy := { o0 with state := st1 } } : Twins).signCopy S m2 =
      .ret ((Spec.signature (hf.prim S) w o0.height.toNat K.skSeed K.skPrf K.ps 0 m2).take (36 + 32 * Spec.lenW w) ++
          (Spec.authPath (hf.prim S) w (Spec.lenW w) K.skSeed K.ps o0.height.toNat 1).flatten)
        { original := { o0 with sk := K.sk 1, state := st1' }, copy := { o0 with sk := K.sk 1, state := st1' } } := by
    rw [Twins.signCopy]
    simp only
    rw [hc]
    simp only
    have : st1'.shareTo st1 = st1' := by rw [← hst1']; rfl
    rw [this]
  -- the original at 1
  obtain ⟨tr, g1, g2⟩ := I1.th.inst 0 (by omega)
  have hk11 : st1.keep[0]? = some (some (N 0 1)) := I1.auth.keep 0 (by omega) (by decide) (by decide)
  have ha11 := I1.auth.auth 1 (by omega)
  have f2 := step 1 (by omega)
  rw [hs1, hs2, bdsRound_one S hf K.skSeed K.ps o0.params (by omega) (by omega) st1 _ _ _ tr ha1 ha11 hk11 g1, ok_bind] at f2
  generalize hX : Spec.H (hf.prim S) K.ps 2 0 0 0 (N 0 0) (N 0 0) = X
  have f2' : (bdsRound S hf st1' 1 K.skSeed o0.params K.ps {} >>= fun s =>
        bdsTreehashUpdate S hf K.skSeed o0.params K.ps {} ((o0.height.toNat - 2) >>> 1) s) =
      ok { st2 with auth := (st1.auth.set 1 (some X)).set 0 tr.node } := by
    rw [bdsRound_one S hf K.skSeed K.ps o0.params (by omega) (by omega) st1' (N 0 0) (N 0 0) _ tr
      (by rw [← hst1']; exact ha1) (by rw [← hst1']; exact ha11)
      (by rw [← hst1']; exact List.getElem?_set_self hk1) (by rw [← hst1']; exact g1), ok_bind, hX]
    have := bdsTreehashUpdate_auth S hf K.skSeed K.ps o0.params {} ((st1.auth.set 1 (some X)).set 0 tr.node) _ _ _ f2
    rw [← this, ← hst1']
    simp only [List.set_set]
  have hcc := sign_buffers H 1 (by omega) st1' _ _ (by rw [← hst1']; exact path1) (hpath32 1) f2' m3
  have hsig1 : (Spec.signature (hf.prim S) w o0.height.toNat K.skSeed K.skPrf K.ps 1 m3).take (36 + 32 * Spec.lenW w) ++
      (Spec.authPath (hf.prim S) w (Spec.lenW w) K.skSeed K.ps o0.height.toNat 1).flatten =
      Spec.signature (hf.prim S) w o0.height.toNat K.skSeed K.skPrf K.ps 1 m3 := by
    have h1 := H.sign_ok 1 (by omega) m3
    rw [hfast1] at h1
    have h2 := sign_buffers H 1 (by omega) st1 st2 _ path1 (hpath32 1)
      (by have := step 1 (by omega); rw [hs1, hs2] at this; exact this) m3
    rw [h1] at h2
    injection h2 with h2 _
    exact h2.symm
  rw [hsig1] at hcc
  -- the original at 2
  generalize hauth3 : (st1.auth.set 1 (some X)).set 0 tr.node = auth3 at *
  have hauth2 : st2.auth = (st1.auth.set 1 (some (Spec.H (hf.prim S) K.ps 2 0 0 0 (N 0 0) (N 0 1)))).set 0 tr.node := by
    have := bdsTreehashUpdate_auth S hf K.skSeed K.ps o0.params {}
      ((st1.auth.set 1 (some (Spec.H (hf.prim S) K.ps 2 0 0 0 (N 0 0) (N 0 1)))).set 0 tr.node) _ _ _ f2
    simp only at this
    rw [f2] at this
    exact congrArg BdsState.auth (Outcome.ok.inj this)
  have hauth3' : auth3 = st2.auth.set 1 (some X) := by
    rw [hauth2, ← hauth3]
    conv_rhs => rw [List.set_comm _ _ (show (0 : Nat) ≠ 1 by decide), List.set_set]
  have hl2 : st2.auth.length = o0.height.toNat := I2.auth.lauth
  have path3 := authOut_eq (fun l j => if l = 1 then X else N l j) o0.height.toNat 2 auth3 (by
    intro i hi
    rw [hauth3']
    by_cases h : i = 1
    · subst h
      rw [List.getElem?_set_self (by omega), if_pos rfl]
    · rw [List.getElem?_set_ne (by omega), if_neg h]
      exact I2.auth.auth i hi) o0.height.toNat 0 (by omega)
  rw [← List.range_eq_range'] at path3
  have hp3 : (List.range o0.height.toNat).map (fun l => if l = 1 then X else N l (Spec.sibling (2 / 2 ^ l))) =
      (Spec.authPath (hf.prim S) w (Spec.lenW w) K.skSeed K.ps o0.height.toNat 2).set 1 X := by
    rw [Spec.authPath, hN]
    apply List.ext_getElem (by simp)
    intro i h1 h2
    rw [List.getElem_set]
    simp only [List.getElem_map, List.getElem_range]
    by_cases h : i = 1
    · subst h; simp
    · rw [if_neg h, if_neg (by omega)]
  rw [hp3] at path3
  have hX32 : X.length = 32 := by rw [← hX]; exact H_len (fun _ => length_prim ..) ..
  have f3 := step 2 (by omega)
  rw [hs2, bdsRound_two S hf K.skSeed K.ps o0.params hl1 (by omega) st2 (by omega), ok_bind] at f3
  obtain ⟨st4, f4⟩ : ∃ st4, (bdsRound S hf { st2 with auth := auth3 } 2 K.skSeed o0.params K.ps {} >>= fun s =>
        bdsTreehashUpdate S hf K.skSeed o0.params K.ps {} ((o0.height.toNat - 2) >>> 1) s) = ok st4 := by
    rw [bdsRound_two S hf K.skSeed K.ps o0.params hl1 (by omega) _ (by simp only; rw [hauth3', List.length_set]; omega), ok_bind]
    have := bdsTreehashUpdate_auth S hf K.skSeed K.ps o0.params {}
      (auth3.set 0 (some (Spec.leaf (hf.prim S) o0.params.wots.w o0.params.wots.len K.skSeed K.ps 2))) _ _ _ f3
    exact ⟨_, this⟩
  have hd := sign_buffers H 2 (by omega) { st2 with auth := auth3 } st4 _ path3 (by
    intro x hx
    rcases List.mem_or_eq_of_mem_set hx with h | rfl
    · exact hpath32 2 x h
    · exact hX32) f4 m4
  rw [hleaf, hX]
  have hC : ∀ c, ∃ c', ({ original := { o0 with sk := K.sk 1, state := st1' }, copy := c } : Twins).signOriginal S m3 =
      .ret (Spec.signature (hf.prim S) w o0.height.toNat K.skSeed K.skPrf K.ps 1 m3)
        { original := { o0 with sk := K.sk 2, state := { st2 with auth := auth3 } }, copy := c' } := by
    intro c
    rw [Twins.signOriginal]
    simp only
    rw [hcc]
    exact ⟨_, rfl⟩
  obtain ⟨c', hC⟩ := hC _
  obtain ⟨t4, hD⟩ : ∃ t4, ({ original := { o0 with sk := K.sk 2, state := { st2 with auth := auth3 } }, copy := c' } : Twins).signOriginal S m4 =
      .ret _ t4 := by
    rw [Twins.signOriginal]
    simp only
    rw [hd]
    exact ⟨_, rfl⟩
  exact ⟨_, _, _, t4, hA, hB, hC, hD⟩

/-- C49 fails: copy a fresh `XmssFast` (any seed, height, hash function), sign `m1` with the original, then `m2` with the
copy. Both calls return. The copy uses one-time key 0 although the original has used it, and its signature carries the
authentication path of leaf 1 instead of leaf 0: it is the proper signature (`seedSignature … 0 m2`) with its last
`32·height` bytes replaced by the path for index 1. -/
theorem C49_copy_refuted (S : Sha256) (seed : Bytes) (height : UInt8) (hf : HashFn) (af : Nat) (o0 : XmssFast)
    (hnew : XmssFast.new S seed height hf.toNat af = ok o0) (m1 m2 : Bytes) :
    ∃ s1 s2 t1 t2, o0.copyOf.signOriginal S m1 = .ret s1 t1 ∧ t1.signCopy S m2 = .ret s2 t2 ∧
      s1 = seedSignature S hf 16 height.toNat seed 0 m1 ∧ sigIndex s1 = 0 ∧ sigIndex s2 = 0 ∧
      s2 = (seedSignature S hf 16 height.toNat seed 0 m2).take (36 + 32 * 67) ++
        (seedSignature S hf 16 height.toNat seed 1 m2).drop (36 + 32 * 67) := by
  obtain ⟨hs, hg, f, hf1, hf2, rfl, e2, e3, e4, p, k, q, hp, e5, H⟩ := fast_fresh hnew
  rw [ofNat?_toNat] at hf2
  cases hf2
  obtain ⟨t1, t2, _, _, h1, h2, _⟩ := twins_core H m1 m2 [] []
  have h67 : Spec.lenW 16 = 67 := by decide
  rw [h67] at h2
  have hl : (seedSignature S hf 16 o0.height.toNat seed 0 m2).length = 36 + 32 * 67 + 32 * o0.height.toNat := by
    rw [seedSignature, length_signature S hf H.hp H.hlen, ← H.hp.len, h67]
  have hi : ∀ m, sigIndex (seedSignature S hf 16 o0.height.toNat seed 0 m) = 0 := by
    intro m; exact sigIndex_signature S hf 16 _ _ _ _ 0 m (by omega)
  refine ⟨_, _, t1, t2, h1, h2, rfl, hi m1, ?_, ?_⟩
  · have := hi m2
    rw [sigIndex] at this ⊢
    rw [List.take_append_of_le_length (by
      show 4 ≤ ((seedSignature S hf 16 o0.height.toNat seed 0 m2).take (36 + 32 * 67)).length
      rw [List.length_take]; omega), List.take_take]
    exact this
  · have hd := (sig_cut H 1 m2).2
    rw [h67] at hd
    exact congrArg _ hd.symm

/-- C49. Signing with the copy also spoils the original: after the two signatures of `C49_copy_refuted` the original signs
properly once more (index 1), but its signature at index 2 is wrong: the second node of the authentication path, which
should be the parent of leaves 0 and 1, is the hash of leaf 0 with leaf 0. -/
theorem C49_original_spoiled (S : Sha256) (seed : Bytes) (height : UInt8) (hf : HashFn) (af : Nat) (o0 : XmssFast)
    (hnew : XmssFast.new S seed height hf.toNat af = ok o0) (m1 m2 m3 m4 : Bytes) :
    ∃ s1 s2 s3 s4 t1 t2 t3 t4, o0.copyOf.signOriginal S m1 = .ret s1 t1 ∧ t1.signCopy S m2 = .ret s2 t2 ∧
      t2.signOriginal S m3 = .ret s3 t3 ∧ t3.signOriginal S m4 = .ret s4 t4 ∧
      s3 = seedSignature S hf 16 height.toNat seed 1 m3 ∧
      s4 = (seedSignature S hf 16 height.toNat seed 2 m4).take (36 + 32 * 67) ++
        ((Spec.authPath (hf.prim S) 16 67 ((shake256 96 seed).take 32) ((shake256 96 seed).drop 64) height.toNat 2).set 1
          (Spec.H (hf.prim S) ((shake256 96 seed).drop 64) 2 0 0 0
            (Spec.leaf (hf.prim S) 16 67 ((shake256 96 seed).take 32) ((shake256 96 seed).drop 64) 0)
            (Spec.leaf (hf.prim S) 16 67 ((shake256 96 seed).take 32) ((shake256 96 seed).drop 64) 0))).flatten := by
  obtain ⟨hs, hg, f, hf1, hf2, rfl, e2, e3, e4, p, k, q, hp, e5, H⟩ := fast_fresh hnew
  rw [ofNat?_toNat] at hf2
  cases hf2
  obtain ⟨t1, t2, t3, t4, h1, h2, h3, h4⟩ := twins_core H m1 m2 m3 m4
  have h67 : Spec.lenW 16 = 67 := by decide
  rw [h67] at h2 h4
  exact ⟨_, _, _, _, t1, t2, t3, t4, h1, h2, h3, h4, rfl, rfl⟩

/-- C49. `verify` rejects that signature of the original, unless two of the listed hash calls collide. -/
theorem C49_spoiled_rejected (S : Sha256) (seed : Bytes) (height : UInt8) (hf : HashFn) (af : Nat) (o0 : XmssFast)
    (hnew : XmssFast.new S seed height hf.toNat af = ok o0) (m1 m2 m3 m4 s1 s2 s3 s4 : Bytes) (t1 t2 t3 t4 : Twins)
    (h1 : o0.copyOf.signOriginal S m1 = .ret s1 t1) (h2 : t1.signCopy S m2 = .ret s2 t2)
    (h3 : t2.signOriginal S m3 = .ret s3 t3) (h4 : t3.signOriginal S m4 = .ret s4 t4) (pk : Bytes)
    (hpk : o0.getPK = ok pk) (hv : verify S m4 s4 pk 16 = ok true) :
    Collides (hf.prim S) (verifyCalls (hf.prim S) 16 m4 s4 pk ++
      Spec.HCalls (hf.prim S) ((shake256 96 seed).drop 64) 2 0 0 0
        (Spec.leaf (hf.prim S) 16 67 ((shake256 96 seed).take 32) ((shake256 96 seed).drop 64) 0)
        (Spec.leaf (hf.prim S) 16 67 ((shake256 96 seed).take 32) ((shake256 96 seed).drop 64) 0) ++
      nodeCalls (hf.prim S) 16 67 ((shake256 96 seed).take 32) ((shake256 96 seed).drop 64) height.toNat 0) := by
  obtain ⟨s1', s2', s3', s4', t1', t2', t3', t4', g1, g2, g3, g4, -, hs4⟩ := C49_original_spoiled S seed height hf af o0 hnew m1 m2 m3 m4
  rw [h1] at g1; injection g1 with _ g1; subst g1
  rw [h2] at g2; injection g2 with _ g2; subst g2
  rw [h3] at g3; injection g3 with _ g3; subst g3
  rw [h4] at g4; injection g4 with g4 _; subst g4
  have hG := out32 S hf
  obtain ⟨hs, hg, f, hf1, hf2, rfl, e2, e3, e4, p, k, q, hp, e5, H⟩ := fast_fresh hnew
  rw [ofNat?_toNat] at hf2
  cases hf2
  have h67 : Spec.lenW 16 = 67 := by decide
  have hlt := H.pow_lt
  have hh4 := H.hh.1
  have hi2 : sigIndex s4 = 2 := by
    have hl : (seedSignature S hf 16 o0.height.toNat seed 2 m4).length = 36 + 32 * 67 + 32 * o0.height.toNat := by
      rw [seedSignature, length_signature S hf H.hp H.hlen, ← H.hp.len, h67]
    have : sigIndex (seedSignature S hf 16 o0.height.toNat seed 2 m4) = 2 :=
      sigIndex_signature S hf 16 _ _ _ _ 2 m4 (by omega)
    rw [sigIndex] at this ⊢
    rw [hs4, List.take_append_of_le_length (by rw [List.length_take]; omega), List.take_take]
    exact this
  have hcl : ((seedSignature S hf 16 o0.height.toNat seed 2 m4).take (36 + 32 * 67)).length = 36 + 32 * 67 := by
    rw [List.length_take, seedSignature, length_signature S hf H.hp H.hlen, ← H.hp.len, h67]; omega
  have hnl : ∀ l i, (node (hf.prim S) 16 67 ((shake256 96 seed).take 32) ((shake256 96 seed).drop 64) l i).length = 32 :=
    fun l i => node_len hG _ _ _ _ (by omega) l i
  have hsub : nodeCalls (hf.prim S) 16 67 ((shake256 96 seed).take 32) ((shake256 96 seed).drop 64) 1 0 ⊆
      nodeCalls (hf.prim S) 16 67 ((shake256 96 seed).take 32) ((shake256 96 seed).drop 64) o0.height.toNat 0 := by
    have := nodeCalls_sub (hf.prim S) 16 67 ((shake256 96 seed).take 32) ((shake256 96 seed).drop 64) (o0.height.toNat - 1) 1 0
    rwa [Nat.zero_div, show 1 + (o0.height.toNat - 1) = o0.height.toNat by omega] at this
  rcases C25_honest_key S seed o0.height hf af o0 hnew pk hpk m4 s4 hv with ⟨_, hpath, _⟩ | hc
  · rw [hi2] at hpath
    generalize (shake256 96 seed).take 32 = sk at *
    generalize (shake256 96 seed).drop 64 = ps at *
    have hX : ∀ l r, (Spec.H (hf.prim S) ps 2 0 0 0 l r).length = 32 := fun l r => H_len hG ..
    have hlen : (authPath (hf.prim S) 16 67 sk ps o0.height.toNat 2).length = o0.height.toNat := by simp [authPath]
    have hset : sigPath 16 o0.height.toNat s4 = (authPath (hf.prim S) 16 67 sk ps o0.height.toNat 2).set 1
        (Spec.H (hf.prim S) ps 2 0 0 0 (leaf (hf.prim S) 16 67 sk ps 0) (leaf (hf.prim S) 16 67 sk ps 0)) := by
      have := Qrl.chunks_flatten ((seedSignature S hf 16 o0.height.toNat seed 2 m4).take (36 + 32 * 67))
        ((authPath (hf.prim S) 16 67 sk ps o0.height.toNat 2).set 1
          (Spec.H (hf.prim S) ps 2 0 0 0 (leaf (hf.prim S) 16 67 sk ps 0) (leaf (hf.prim S) 16 67 sk ps 0))) (by
          intro x hx
          rcases List.mem_or_eq_of_mem_set hx with h | rfl
          · rw [authPath] at h
            obtain ⟨l, _, rfl⟩ := List.mem_map.mp h
            exact hnl _ _
          · exact hX _ _) [] (36 + 32 * 67) hcl
      rw [List.append_nil, ← hs4, List.length_set, hlen] at this
      rw [sigPath, h67]
      exact this
    rw [hpath] at hset
    have hel := congrArg (fun l => l[1]?) hset
    rw [List.getElem?_set_self (by omega), authPath, List.getElem?_map, List.getElem?_range (by omega)] at hel
    simp only [Option.map_some, Option.some.injEq] at hel
    rw [show sibling (2 / 2 ^ 1) = 0 from rfl] at hel
    have hel : Spec.H (hf.prim S) ps 2 0 0 0 (node (hf.prim S) 16 67 sk ps 0 0) (node (hf.prim S) 16 67 sk ps 0 1) =
      Spec.H (hf.prim S) ps 2 0 0 0 (node (hf.prim S) 16 67 sk ps 0 0) (node (hf.prim S) 16 67 sk ps 0 0) := hel
    rcases H_inj hG (by omega) (by omega) (by omega) (by omega) (by omega) (hnl 0 0) (hnl 0 1) (hnl 0 0) (hnl 0 0) hel with h | hc
    · rcases leaf_ne hG (by omega) (by omega) (by omega) (by omega) h.2.2 with e | hc
      · cases e
      · refine hc.mono ?_
        intro z hz
        apply List.mem_append_right
        apply hsub
        rw [nodeCalls]
        rcases List.mem_append.mp hz with hz | hz
        · exact List.mem_append_left _ (List.mem_append_right _ hz)
        · exact List.mem_append_left _ (List.mem_append_left _ hz)
    · refine hc.mono ?_
      intro z hz
      rcases List.mem_append.mp hz with hz | hz
      · apply List.mem_append_right
        apply hsub
        rw [nodeCalls]
        exact List.mem_append_right _ hz
      · exact List.mem_append_left _ (List.mem_append_right _ hz)
  · refine hc.mono ?_
    intro z hz
    rcases List.mem_append.mp hz with hz | hz
    · exact List.mem_append_left _ (List.mem_append_left _ hz)
    · exact List.mem_append_right _ hz

/-- A fresh object of height 4 exists; its copy misbehaves as described. -/
example : ∃ o0 s1 s2 t1 t2, XmssFast.new toySha zeroSeed 4 1 0 = ok o0 ∧ o0.copyOf.signOriginal toySha [1] = .ret s1 t1 ∧
    t1.signCopy toySha [2] = .ret s2 t2 ∧ sigIndex s1 = sigIndex s2 := by
  obtain ⟨o0, h⟩ := (C39_fast_succeeds toySha zeroSeed 4 1 0).mpr ⟨rfl, goodHeight4, by omega⟩
  obtain ⟨s1, s2, t1, t2, h1, h2, -, h3, h4, -⟩ := C49_copy_refuted toySha zeroSeed 4 .shake_128 0 o0 h [1] [2]
  exact ⟨o0, s1, s2, t1, t2, h, h1, h2, h3.trans h4.symm⟩

/-- The four signatures exist for a fresh object of height 4. -/
example : ∃ o0 pk s1 s2 s3 s4 t1 t2 t3 t4, XmssFast.new toySha zeroSeed 4 1 0 = ok o0 ∧ o0.getPK = ok pk ∧
    o0.copyOf.signOriginal toySha [1] = .ret s1 t1 ∧ t1.signCopy toySha [2] = .ret s2 t2 ∧
    t2.signOriginal toySha [3] = .ret s3 t3 ∧ t3.signOriginal toySha [4] = .ret s4 t4 := by
  obtain ⟨o0, h⟩ := (C39_fast_succeeds toySha zeroSeed 4 1 0).mpr ⟨rfl, goodHeight4, by omega⟩
  obtain ⟨_, _, f, _, _, _, _, _, _, p, k, q, _, _, H⟩ := fast_fresh h
  have hpk := getPK_eq _ o0.toXmssBase 0 H.hsk
  obtain ⟨s1, s2, s3, s4, t1, t2, t3, t4, h1, h2, h3, h4, -⟩ := C49_original_spoiled toySha zeroSeed 4 .shake_128 0 o0 h [1] [2] [3] [4]
  exact ⟨o0, _, s1, s2, s3, s4, t1, t2, t3, t4, h, hpk, h1, h2, h3, h4⟩

end Qrl.Props
