import Verif.Proof.Honest
import Verif.Props.Fast
import Verif.Proof.Locked
/-!
# Steps of calls on a shared `XmssFast`
-/

namespace Qrl

open Outcome Spec

/-- An object with the fixed part `K` of its key, index `j` and traversal state `st`. -/
def fastObj (K : KeyParts) (o0 : XmssFast) (j : Nat) (st : BdsState) : XmssFast :=
  { o0 with sk := K.sk j, state := st }

theorem fastAt_obj (S : Sha256) (hf : HashFn) (K : KeyParts) (o0 : XmssFast) (i : Nat) :
    fastAt S hf K o0 i =
      fastObj K o0 i (stAt S hf o0.params K.skSeed K.ps o0.state (min i (2 ^ o0.height.toNat - 1))) := rfl

/-- The bytes of a signature made with key `i` and some authentication path. -/
def sigParts (S : Sha256) (hf : HashFn) (w : Nat) (K : KeyParts) (i : Nat) (msg : Bytes) : Bytes :=
  idxBytes i ++ Spec.PRF (hf.prim S) K.skPrf (Spec.be 32 i) ++
    (Spec.wotsSig (hf.prim S) K.skSeed K.ps i (Spec.wotsDigits w (Spec.Hmsg (hf.prim S)
      (Spec.PRF (hf.prim S) K.skPrf (Spec.be 32 i) ++ K.root ++ Spec.be 32 i) msg))).flatten

theorem runSchedule_append {σ π : Type} (step : σ → π → σ × π) (l1 l2 : List Nat) : ∀ x : σ × List π,
    runSchedule step (l1 ++ l2) x = runSchedule step l2 (runSchedule step l1 x) := by
  induction l1 with
  | nil => intro x; rfl
  | cons t l1 ih =>
    intro x
    obtain ⟨o, pcs⟩ := x
    rw [List.cons_append, runSchedule, runSchedule]
    cases pcs[t]? with
    | none => exact ih _
    | some pc => exact ih _

section
variable {S : Sha256} {hf : HashFn} {w : Nat} {K : KeyParts} {p : WotsParams} {k q : Nat} {o0 : XmssFast}
variable (H : FastOk S hf w K p k q o0)
include H

theorem FastOk.objHash (j : Nat) (st : BdsState) : HashFn.ofNat? (fastObj K o0 j st).hashFunction = some hf := by
  rw [show (fastObj K o0 j st).hashFunction = hf.toNat from H.hof, ofNat?_toNat]

theorem FastOk.objSize (j : Nat) (st : BdsState) :
    (fastObj K o0 j st).getSignatureSize (fastObj K o0 j st).params.wots.w =
      ok (36 + 32 * Spec.lenW w + 32 * o0.height.toNat) := by
  have e2 : (fastObj K o0 j st).toXmssBase.params.wots.w = w := by
    show o0.params.wots.w = w
    rw [H.hop]; exact H.hp.pw
  rw [e2, Props.C22_signature_size _ w H.hw]
  rfl

theorem FastOk.parH : o0.params.h = o0.height.toNat := by rw [H.hop]

theorem FastOk.step_start_sign (j : Nat) (hj : j < 2 ^ 32) (st : BdsState) (m : Bytes) :
    fastStep S (fastObj K o0 j st) (.start (.sign m)) = (fastObj K o0 j st, .update (.sign m) j) := by
  rw [fastStep, H.objSize, K.getIndex _ j rfl hj]

theorem FastOk.step_update (j : Nat) (hj : j < 2 ^ 32) (st : BdsState) (kk : After) (n : Nat) :
    fastStep S (fastObj K o0 j st) (.update kk n) =
      (fastObj K o0 j st,
        if 2 ^ o0.height.toNat ≤ n ∨ n < j then .done (.threw .invalidArgument) else .advance kk n j) := by
  have e6 : (fastObj K o0 j st).params.h = o0.height.toNat := H.parH
  have h30 := H.hh.2.1
  rw [fastStep, e6, if_neg (by omega), show be32At (fastObj K o0 j st).sk = ok j from K.idx j hj]
  simp only
  by_cases h1 : 2 ^ o0.height.toNat ≤ n
  · rw [if_pos h1, if_pos (Or.inl h1)]
  · rw [if_neg (by omega)]
    by_cases h2 : n < j
    · rw [if_pos h2, if_pos (Or.inr h2)]
    · rw [if_neg h2, if_neg (by omega)]

theorem FastOk.step_advance (j : Nat) (st st' : BdsState) (kk : After) (n cur : Nat)
    (h : advanceLoop S hf K.skSeed o0.params K.ps (n - cur) cur st = ok st') :
    fastStep S (fastObj K o0 j st) (.advance kk n cur) = (fastObj K o0 j st', .store kk n) := by
  rw [fastStep, H.objHash, show slice (fastObj K o0 j st).sk 4 32 = _ from K.seed_slice j,
    show slice (fastObj K o0 j st).sk 68 32 = _ from K.ps_slice j]
  simp only
  rw [show advanceLoop S hf K.skSeed (fastObj K o0 j st).params K.ps (n - cur) cur (fastObj K o0 j st).state = ok st' from h]
  rfl

theorem FastOk.step_signBody (j : Nat) (st : BdsState) (m : Bytes) (idx : Nat) (path : List Bytes)
    (h : authOut st.auth o0.height.toNat 0 = ok path) :
    ∃ b c d, fastStep S (fastObj K o0 j st) (.signBody m idx) =
      (fastObj K o0 j st, .round idx ⟨0, 0, 0, 0, idx, b, c, d⟩ (sigParts S hf w K idx m ++ path.flatten)) := by
  obtain ⟨b', c', d', e⟩ := wotsSign_spec S hf H.hp (Spec.Hmsg (hf.prim S)
          (Spec.PRF (hf.prim S) K.skPrf (Spec.be 32 idx) ++ K.root ++ Spec.be 32 idx) m) K.skSeed K.ps idx 0 0 0
    (length_Hmsg ..)
  refine ⟨b', c', d', ?_⟩
  have e6 := H.parH
  have e7 : o0.params.wots = p := by rw [H.hop]
  have hb : fastSignBody S hf (fastObj K o0 j st).params (fastObj K o0 j st).sk (fastObj K o0 j st).state idx m =
      ok (sigParts S hf w K idx m ++ path.flatten, ⟨0, 0, 0, 0, idx, b', c', d'⟩) := by
    show fastSignBody S hf o0.params (K.sk j) st idx m = _
    simp only [fastSignBody, K.seed_slice, K.prf_slice, K.ps_slice, ok_bind, K.root_slice, prf_eq, toByte_eq_be, hMsg_eq,
      Adrs.setType, Adrs.setOTS, getSeed_eq]
    rw [e7, e, e6]
    simp only [ok_bind]
    rw [h]
    rfl
  rw [fastStep, H.objHash]
  simp only
  rw [hb]

theorem FastOk.step_round (j : Nat) (st st' : BdsState) (idx : Nat) (b c d : Nat) (data : Bytes)
    (hl : data.length = 36 + 32 * Spec.lenW w + 32 * o0.height.toNat)
    (h : (if idx < 2 ^ o0.height.toNat - 1 then
        (bdsRound S hf st idx K.skSeed o0.params K.ps {} >>= fun st =>
          bdsTreehashUpdate S hf K.skSeed o0.params K.ps {} ((o0.height.toNat - 2) >>> 1) st) else ok st) = ok st') :
    fastStep S (fastObj K o0 j st) (.round idx ⟨0, 0, 0, 0, idx, b, c, d⟩ data) = (fastObj K o0 j st', .done (.sig data)) := by
  have hr : fastSignRound S hf (fastObj K o0 j st).params (fastObj K o0 j st).sk (fastObj K o0 j st).state idx
      ⟨0, 0, 0, 0, idx, b, c, d⟩ = ok st' := by
    show fastSignRound S hf o0.params (K.sk j) st idx ⟨0, 0, 0, 0, idx, b, c, d⟩ = ok st'
    simp only [fastSignRound, K.seed_slice, K.ps_slice, ok_bind, H.parH, bdsRound_addr, bdsTreehashUpdate_addr]
    rw [← h]
  rw [fastStep, H.objHash, H.objSize]
  simp only
  rw [hr, ← hl, fillBuffer_exact _ _ rfl]
  rfl

omit H in
theorem step_store (S : Sha256) (K : KeyParts) (o0 : XmssFast) (j : Nat) (st : BdsState) (kk : After) (n : Nat) :
    fastStep S (fastObj K o0 j st) (.store kk n) =
      (fastObj K o0 n st, match kk with | .setIndex => .done (.index n) | .sign m => .signRead m) := by
  cases kk <;>
  · rw [fastStep]
    show (({ fastObj K o0 j st with sk := idxBytes n ++ (K.sk j).drop 4 } : XmssFast), _) = _
    rw [K.reindex]
    rfl

omit H in
theorem step_signRead (S : Sha256) (K : KeyParts) (o0 : XmssFast) (j : Nat) (hj : j < 2 ^ 32) (st : BdsState) (m : Bytes) :
    fastStep S (fastObj K o0 j st) (.signRead m) = (fastObj K o0 j st, .signWrite m j) := by
  rw [fastStep, show be32At (fastObj K o0 j st).sk = ok j from K.idx j hj]

omit H in
theorem step_signWrite (S : Sha256) (K : KeyParts) (o0 : XmssFast) (j : Nat) (st : BdsState) (m : Bytes) (idx : Nat) :
    fastStep S (fastObj K o0 j st) (.signWrite m idx) = (fastObj K o0 (idx + 1) st, .signBody m idx) := by
  rw [fastStep]
  show (({ fastObj K o0 j st with sk := idxBytes (idx + 1) ++ (K.sk j).drop 4 } : XmssFast), _) = _
  rw [K.reindex]
  rfl

/-- The whole signature at the canonical state. -/
theorem FastOk.path_at (i : Nat) (hi : i < 2 ^ o0.height.toNat) :
    ∃ path, authOut (stAt S hf o0.params K.skSeed K.ps o0.state i).auth o0.height.toNat 0 = ok path ∧
      ∀ m, sigParts S hf w K i m ++ path.flatten = Spec.signature (hf.prim S) w o0.height.toNat K.skSeed K.skPrf K.ps i m := by
  obtain ⟨T, hinv⟩ := H.adv i hi
  refine ⟨_, authOut_eq _ o0.height.toNat i _ hinv.auth.auth o0.height.toNat 0 (by omega), ?_⟩
  intro m
  rw [signature_parts S hf w o0.height.toNat K i m H.hroot, sigParts, H.hp.len, H.hp.pw, Spec.authPath, List.range_eq_range']

theorem FastOk.length_sig (i : Nat) (m : Bytes) :
    (Spec.signature (hf.prim S) w o0.height.toNat K.skSeed K.skPrf K.ps i m).length =
      36 + 32 * Spec.lenW w + 32 * o0.height.toNat := by
  rw [length_signature S hf H.hp H.hlen, H.hp.len]

theorem FastOk.round_at (i : Nat) (hi : i < 2 ^ o0.height.toNat) :
    (if i < 2 ^ o0.height.toNat - 1 then
        (bdsRound S hf (stAt S hf o0.params K.skSeed K.ps o0.state i) i K.skSeed o0.params K.ps {} >>= fun st =>
          bdsTreehashUpdate S hf K.skSeed o0.params K.ps {} ((o0.height.toNat - 2) >>> 1) st)
      else ok (stAt S hf o0.params K.skSeed K.ps o0.state i)) =
      ok (stAt S hf o0.params K.skSeed K.ps o0.state (min (i + 1) (2 ^ o0.height.toNat - 1))) := by
  by_cases hc : i < 2 ^ o0.height.toNat - 1
  · rw [if_pos hc, Nat.min_eq_left (by omega)]
    have hstep := adv_step S hf ⟨p, o0.height.toNat⟩ K.skSeed K.ps H.hlen H.hh.1 H.hh.2.1 H.hh.2.2 H.init i
      (by simp only; omega) 0 0 0 0 0
    rw [← H.hop] at hstep
    simp only [H.parH] at hstep
    exact hstep
  · rw [if_neg hc, Nat.min_eq_right (by omega), show 2 ^ o0.height.toNat - 1 = i by omega]

end

theorem iterStep_one {σ π : Type} {step : σ → π → σ × π} (n : Nat) {x y : σ × π} (h : step x.1 x.2 = y) :
    iterStep step (n + 1) x = iterStep step n y := by rw [iterStep, h]

theorem fastIter_done (S : Sha256) (n : Nat) (o : XmssFast) (r : Reply) :
    iterStep (fastStep S) n (o, .done r) = (o, .done r) := iterStep_fix (fastStep S) (o, .done r) rfl n

section
variable {S : Sha256} {hf : HashFn} {w : Nat} {K : KeyParts} {p : WotsParams} {k q : Nat} {o0 : XmssFast}
variable (H : FastOk S hf w K p k q o0)
include H

/-- The part of a call in `xmssfast_update`, when it goes through. -/
theorem FastOk.iter_update (i n : Nat) (hi : i ≤ n) (hn : n < 2 ^ o0.height.toNat) (kk : After) (m : Nat) :
    iterStep (fastStep S) (m + 3) (fastAt S hf K o0 i, .update kk n) =
      iterStep (fastStep S) m (fastAt S hf K o0 n, match kk with | .setIndex => .done (.index n) | .sign m => .signRead m) := by
  have hlt := H.pow_lt
  have hskip := adv_skip S hf ⟨p, o0.height.toNat⟩ K.skSeed K.ps H.hlen H.hh.1 H.hh.2.1 H.hh.2.2 H.init i n hi hn
  rw [← H.hop] at hskip
  rw [fastAt_obj, fastAt_obj, Nat.min_eq_left (show i ≤ 2 ^ o0.height.toNat - 1 by omega),
    Nat.min_eq_left (show n ≤ 2 ^ o0.height.toNat - 1 by omega)]
  rw [iterStep_one (m + 2) (H.step_update i (by omega) _ kk n), if_neg (by omega),
    iterStep_one (m + 1) (H.step_advance i _ _ kk n i hskip), iterStep]
  rw [step_store]

/-- A call alone, by its steps: it gives what the call as a whole gives. -/
theorem fastCall_alone (i : Nat) (hi : i ≤ 2 ^ o0.height.toNat) (c : Call) :
    ∃ r o', (fastAt S hf K o0 i).call S c = some (r, o') ∧ iterStep (fastStep S) 8 (fastAt S hf K o0 i, .start c) = (o', .done r) := by
  have hlt := H.pow_lt
  cases c with
  | setIndex n =>
    by_cases hc : 2 ^ o0.height.toNat ≤ n.toNat ∨ n.toNat < i
    · refine ⟨.threw .invalidArgument, fastAt S hf K o0 i, ?_, ?_⟩
      · rw [XmssFast.call, H.setIndex_throw i _ hi hc]
      · rw [iterStep, fastStep, fastAt_obj, iterStep_one 6 (H.step_update i (by omega) _ _ _), if_pos hc]
        exact fastIter_done S 6 _ _
    · refine ⟨.index n.toNat, fastAt S hf K o0 n.toNat, ?_, ?_⟩
      · rw [XmssFast.call, H.setIndex_ok i _ (by omega) (by omega)]
      · rw [iterStep, fastStep, H.iter_update i n.toNat (by omega) (by omega) .setIndex 4]
        exact fastIter_done S 4 _ _
  | sign m =>
    by_cases hc : 2 ^ o0.height.toNat ≤ i
    · have e : i = 2 ^ o0.height.toNat := by omega
      subst e
      refine ⟨.threw .invalidArgument, fastAt S hf K o0 (2 ^ o0.height.toNat), ?_, ?_⟩
      · rw [XmssFast.call, H.sign_throw]
      · rw [fastAt_obj, iterStep_one 7 (H.step_start_sign _ hlt _ m), iterStep_one 6 (H.step_update _ hlt _ _ _),
          if_pos (Or.inl (Nat.le_refl _))]
        exact fastIter_done S 6 _ _
    · refine ⟨.sig (Spec.signature (hf.prim S) w o0.height.toNat K.skSeed K.skPrf K.ps i m), fastAt S hf K o0 (i + 1), ?_, ?_⟩
      · rw [XmssFast.call, H.sign_ok i (by omega) m]
      · obtain ⟨path, e1, e2⟩ := H.path_at i (by omega)
        have hs := H.step_start_sign i (by omega)
          (stAt S hf o0.params K.skSeed K.ps o0.state (min i (2 ^ o0.height.toNat - 1))) m
        rw [← fastAt_obj] at hs
        rw [iterStep_one 7 hs, H.iter_update i i (Nat.le_refl _) (by omega) (.sign m) 4]
        simp only
        rw [fastAt_obj, fastAt_obj, Nat.min_eq_left (show i ≤ 2 ^ o0.height.toNat - 1 by omega)]
        have h1 := step_signRead S K o0 i (by omega) (stAt S hf o0.params K.skSeed K.ps o0.state i) m
        have h2 := step_signWrite S K o0 i (stAt S hf o0.params K.skSeed K.ps o0.state i) m i
        obtain ⟨b, c, d, h3⟩ := H.step_signBody (i + 1) _ m i path e1
        rw [e2 m] at h3
        have h4 := H.step_round (i + 1) _ _ i b c d _ (H.length_sig i m) (H.round_at i (by omega))
        rw [iterStep_one 3 h1, iterStep_one 2 h2, iterStep_one 1 h3, iterStep_one 0 h4]
        rfl

end

/-- A round at an even index goes through whatever the authentication path holds, and does not touch the instances. -/
theorem bdsRound_even (S : Sha256) (hf : HashFn) (sk ps : Bytes) (p : XmssParams) (h1 : 1 ≤ p.wots.len) (hh : 4 ≤ p.h) {i : Nat}
    (hi : i % 2 = 0) {st : BdsState} (la : st.auth.length = p.h) (lk : st.keep.length = p.h / 2) :
    ∃ st', bdsRound S hf st i sk p ps {} = ok st' ∧ st'.treehash = st.treehash ∧ st'.stack = st.stack ∧
      st'.stacklevels = st.stacklevels ∧ st'.stackoffset = st.stackoffset := by
  have htau : findTau i p.h p.h 0 = 0 := by
    obtain ⟨m, hm⟩ : ∃ m, p.h = m + 1 := ⟨p.h - 1, by omega⟩
    rw [hm, findTau, if_pos]
    rw [Nat.shiftRight_zero, and_one_eq, hi]
  obtain ⟨b', c', d', b2', c2', d2', e⟩ := genLeafWots_eq S hf sk p ps h1 i 0 0 0 0 0 0
  have hr : rd st.auth 0 = ok (st.auth.getD 0 none) := rd_getD none (by omega)
  rw [bdsRound]
  simp only [Adrs.derive, Adrs.setType, Adrs.setLtree, Adrs.setOTS, htau, if_neg (show ¬ 0 > 0 by omega), ok_bind, if_pos trivial]
  by_cases hc : i >>> (0 + 1) &&& 1 = 0 ∧ 0 < p.h - 1
  · rw [if_pos hc, hr, ok_bind, wr_eq_ok _ (by rw [lk, Nat.zero_shiftRight]; omega), ok_bind]
    rw [e]
    simp only [ok_bind]
    rw [wr_eq_ok _ (by rw [la]; omega)]
    exact ⟨_, rfl, rfl, rfl, rfl, rfl⟩
  · rw [if_neg hc]
    rw [e]
    simp only [ok_bind]
    rw [wr_eq_ok _ (by rw [la]; omega)]
    exact ⟨_, rfl, rfl, rfl, rfl, rfl⟩

theorem authOut_nothrow (auth : List Cell) (e : Exc) (m : Nat) : ∀ i, authOut auth m i ≠ .throw e := by
  induction m with
  | zero => intro i h; cases h
  | succ m ih =>
    intro i h
    rw [authOut] at h
    cases hr : rdUse auth i with
    | throw e' =>
      rw [rdUse, rd] at hr
      cases hx : auth[i]? with
      | none => rw [hx] at hr; cases hr
      | some x =>
        rw [hx] at hr
        cases x <;> cases hr
    | ub => rw [hr] at h; cases h
    | ok x =>
      rw [hr, ok_bind] at h
      cases ho : authOut auth m (i + 1) with
      | throw e' => rw [ho] at h; injection h with h; exact ih (i + 1) (h ▸ ho)
      | ub => rw [ho] at h; cases h
      | ok xs => rw [ho] at h; cases h

section
variable {S : Sha256} {hf : HashFn} {w : Nat} {K : KeyParts} {p : WotsParams} {k q : Nat} {o0 : XmssFast}
variable (H : FastOk S hf w K p k q o0)
include H

/-- The round of index `i` made a second time. -/
theorem FastOk.round_again (i : Nat) (hi : i < 2 ^ o0.height.toNat) (hev : i % 2 = 0 ∨ i = 2 ^ o0.height.toNat - 1) :
    ∃ st', (if i < 2 ^ o0.height.toNat - 1 then
        (bdsRound S hf (stAt S hf o0.params K.skSeed K.ps o0.state (min (i + 1) (2 ^ o0.height.toNat - 1))) i K.skSeed
            o0.params K.ps {} >>= fun st =>
          bdsTreehashUpdate S hf K.skSeed o0.params K.ps {} ((o0.height.toNat - 2) >>> 1) st)
      else ok (stAt S hf o0.params K.skSeed K.ps o0.state (min (i + 1) (2 ^ o0.height.toNat - 1)))) = ok st' := by
  by_cases hc : i < 2 ^ o0.height.toNat - 1
  · rw [if_pos hc, Nat.min_eq_left (by omega)]
    obtain ⟨T, hinv⟩ := H.adv (i + 1) (by omega)
    obtain ⟨st1, e1, g1, g2, g3, g4⟩ := bdsRound_even S hf K.skSeed K.ps o0.params (by rw [H.hop]; exact H.hlen)
      (by rw [H.parH]; exact H.hh.1) (i := i) (by omega) (by rw [H.parH]; exact hinv.auth.lauth)
      (by rw [H.parH]; exact hinv.auth.lkeep)
    have hth := hinv.th
    have hth' : ThInv (Spec.node (hf.prim S) p.w p.len K.skSeed K.ps) o0.height.toNat (i + 1) T st1 :=
      ⟨by rw [g2]; exact hth.lstack, by rw [g3]; exact hth.llevels, by rw [g1]; exact hth.lth, hth.sep,
        by rw [g2, g3]; exact hth.holds, by rw [g4]; exact hth.offset, by rw [g1]; exact hth.inst⟩
    obtain ⟨st2, T2, e2, _⟩ := bdsTreehashUpdate_eq S hf K.skSeed K.ps ⟨p, o0.height.toNat⟩ H.hlen 0 0 0 0 0
      ((o0.height.toNat - 2) >>> 1) T st1 hth'
    refine ⟨st2, ?_⟩
    rw [e1, ok_bind, H.hop]
    exact e2
  · exact ⟨_, if_neg hc⟩

omit H in
theorem run_first {σ π : Type} {step : σ → π → σ × π} (ts : List Nat) {o o' : σ} {a a' b : π} (h : step o a = (o', a')) :
    runSchedule step (0 :: ts) (o, [a, b]) = runSchedule step ts (o', [a', b]) := by
  rw [runSchedule]
  simp only [List.getElem?_cons_zero, h, List.set_cons_zero]

omit H in
theorem run_second {σ π : Type} {step : σ → π → σ × π} (ts : List Nat) {o o' : σ} {a b b' : π} (h : step o b = (o', b')) :
    runSchedule step (1 :: ts) (o, [a, b]) = runSchedule step ts (o', [a, b']) := by
  rw [runSchedule]
  simp only [List.getElem?_cons_succ, List.getElem?_cons_zero, h, List.set_cons_succ, List.set_cons_zero]

theorem FastOk.race_both (i : Nat) (hi : i < 2 ^ o0.height.toNat) (hev : i % 2 = 0 ∨ i = 2 ^ o0.height.toNat - 1)
    (m1 m2 : Bytes) : ∃ st, runSchedule (fastStep S) bothRead (fastThreads (fastAt S hf K o0 i) [.sign m1, .sign m2]) =
      (fastObj K o0 (i + 1) st,
        [.done (.sig (Spec.signature (hf.prim S) w o0.height.toNat K.skSeed K.skPrf K.ps i m1)),
          .done (.sig (Spec.signature (hf.prim S) w o0.height.toNat K.skSeed K.skPrf K.ps i m2))]) := by
  have hlt := H.pow_lt
  obtain ⟨path, e1, e2⟩ := H.path_at i hi
  obtain ⟨st', e3⟩ := H.round_again i hi hev
  rw [fastAt_obj, Nat.min_eq_left (show i ≤ 2 ^ o0.height.toNat - 1 by omega)]
  generalize hst : stAt S hf o0.params K.skSeed K.ps o0.state i = st at *
  have u : ∀ m, fastStep S (fastObj K o0 i st) (.update (.sign m) i) = (fastObj K o0 i st, .advance (.sign m) i i) := by
    intro m
    rw [H.step_update i (by omega), if_neg (by omega)]
  have a : ∀ m, fastStep S (fastObj K o0 i st) (.advance (.sign m) i i) = (fastObj K o0 i st, .store (.sign m) i) := by
    intro m
    exact H.step_advance i st st _ i i (by rw [Nat.sub_self]; rfl)
  obtain ⟨b, c, d, s1⟩ := H.step_signBody (i + 1) st m1 i path e1
  obtain ⟨b', c', d', s2⟩ := H.step_signBody (i + 1) st m2 i path e1
  rw [e2] at s1 s2
  have r0 := H.round_at i hi
  rw [hst] at r0
  have r1 := H.step_round (i + 1) _ _ i b c d _ (H.length_sig i m1) r0
  have r2 := H.step_round (i + 1) _ _ i b' c' d' _ (H.length_sig i m2) e3
  refine ⟨st', ?_⟩
  simp only [bothRead, fastThreads, List.map_cons, List.map_nil]
  rw [run_first _ (H.step_start_sign i (by omega) st m1), run_first _ (u m1), run_first _ (a m1),
    run_first _ (step_store S K o0 i st (.sign m1) i)]
  simp only
  rw [run_first _ (step_signRead S K o0 i (by omega) st m1),
    run_second _ (H.step_start_sign i (by omega) st m2), run_second _ (u m2), run_second _ (a m2),
    run_second _ (step_store S K o0 i st (.sign m2) i)]
  simp only
  rw [run_second _ (step_signRead S K o0 i (by omega) st m2), run_first _ (step_signWrite S K o0 i st m1 i),
    run_second _ (step_signWrite S K o0 (i + 1) st m2 i), run_first _ s1, run_second _ s2, run_first _ r1, run_second _ r2]
  rfl

omit H in
theorem run_second_iter {σ π : Type} {step : σ → π → σ × π} (n : Nat) (ts : List Nat) : ∀ (o : σ) (a b : π),
    runSchedule step (List.replicate n 1 ++ ts) (o, [a, b]) =
      runSchedule step ts ((iterStep step n (o, b)).1, [a, (iterStep step n (o, b)).2]) := by
  induction n with
  | zero => intro o a b; rfl
  | succ n ih =>
    intro o a b
    rw [List.replicate_succ, List.cons_append, run_second _ (show step o b = ((step o b).1, (step o b).2) from rfl), ih]
    rfl

omit H in
theorem run_first_iter {σ π : Type} {step : σ → π → σ × π} (n : Nat) (ts : List Nat) : ∀ (o : σ) (a b : π),
    runSchedule step (List.replicate n 0 ++ ts) (o, [a, b]) =
      runSchedule step ts ((iterStep step n (o, a)).1, [(iterStep step n (o, a)).2, b]) := by
  induction n with
  | zero => intro o a b; rfl
  | succ n ih =>
    intro o a b
    rw [List.replicate_succ, List.cons_append, run_first _ (show step o a = ((step o a).1, (step o a).2) from rfl), ih]
    rfl

/-- `sign` alone, by its steps. -/
theorem FastOk.sign_iter (i : Nat) (hi : i < 2 ^ o0.height.toNat) (m : Bytes) :
    iterStep (fastStep S) 8 (fastAt S hf K o0 i, .start (.sign m)) =
      (fastAt S hf K o0 (i + 1),
        .done (.sig (Spec.signature (hf.prim S) w o0.height.toNat K.skSeed K.skPrf K.ps i m))) := by
  obtain ⟨r, o', e1, e2⟩ := fastCall_alone H i (by omega) (.sign m)
  rw [XmssFast.call, H.sign_ok i hi m] at e1
  simp only [Option.some.injEq, Prod.mk.injEq] at e1
  obtain ⟨rfl, rfl⟩ := e1
  exact e2

theorem FastOk.length_parts (i : Nat) (m : Bytes) : (sigParts S hf w K i m).length = 36 + 32 * Spec.lenW w := by
  have h := H.length_sig i m
  have h2 := signature_parts S hf w o0.height.toNat K i m H.hroot
  rw [h2] at h
  have h3 : (Spec.authPath (hf.prim S) w (Spec.lenW w) K.skSeed K.ps o0.height.toNat i).flatten.length =
      32 * o0.height.toNat := by
    rw [Spec.authPath, length_flatten32]
    · simp
    · intro x hx
      obtain ⟨l, _, rfl⟩ := List.mem_map.mp hx
      exact length_node _ _ _ _ _ _ (by rw [H.hp.len]; exact H.hlen) _ _
  rw [List.length_append, h3] at h
  rw [sigParts]
  omega

/-- The part of a signature before the authentication path, and its index. -/
theorem FastOk.parts_take (i : Nat) (hi : i < 2 ^ 32) (m rest : Bytes) :
    (sigParts S hf w K i m ++ rest).take (36 + 32 * Spec.lenW w) =
      (Spec.signature (hf.prim S) w o0.height.toNat K.skSeed K.skPrf K.ps i m).take (36 + 32 * Spec.lenW w) ∧
    sigIndex (sigParts S hf w K i m ++ rest) = i := by
  have h1 : (sigParts S hf w K i m ++ rest).take (36 + 32 * Spec.lenW w) =
      (Spec.signature (hf.prim S) w o0.height.toNat K.skSeed K.skPrf K.ps i m).take (36 + 32 * Spec.lenW w) := by
    have h2 := signature_parts S hf w o0.height.toNat K i m H.hroot
    rw [← sigParts] at h2
    rw [h2, ← H.length_parts i m, List.take_left, List.take_left]
  refine ⟨h1, ?_⟩
  have h3 := sigIndex_signature S hf w o0.height.toNat K.skSeed K.skPrf K.ps i m hi
  rw [sigIndex] at h3 ⊢
  have h4 : ∀ l : Bytes, (l.take (36 + 32 * Spec.lenW w)).take 4 = l.take 4 := by
    intro l; rw [List.take_take, Nat.min_eq_left (by omega)]
  rw [← h4, h1, h4, h3]

theorem FastOk.length_path (i : Nat) (hi : i < 2 ^ o0.height.toNat) (path : List Bytes)
    (h : authOut (stAt S hf o0.params K.skSeed K.ps o0.state i).auth o0.height.toNat 0 = ok path) :
    path.flatten.length = 32 * o0.height.toNat := by
  obtain ⟨path', e1, e2⟩ := H.path_at i hi
  rw [e1] at h
  cases h
  have := congrArg List.length (e2 [])
  rw [List.length_append, H.length_parts, H.length_sig] at this
  omega

theorem FastOk.race_one (i : Nat) (hi : i < 2 ^ o0.height.toNat) (hev : i % 2 = 0 ∨ i = 2 ^ o0.height.toNat - 1)
    (m1 m2 : Bytes) : ∃ st rest, rest.length = 32 * o0.height.toNat ∧
      runSchedule (fastStep S) oneWaits (fastThreads (fastAt S hf K o0 i) [.sign m1, .sign m2]) =
      (fastObj K o0 (i + 1) st,
        [.done (.sig (sigParts S hf w K i m1 ++ rest)),
          .done (.sig (Spec.signature (hf.prim S) w o0.height.toNat K.skSeed K.skPrf K.ps i m2))]) := by
  have hlt := H.pow_lt
  obtain ⟨path, e1, _⟩ := H.path_at (min (i + 1) (2 ^ o0.height.toNat - 1)) (by omega)
  have hl := H.length_path _ (by omega) path e1
  obtain ⟨st', e3⟩ := H.round_again i hi hev
  have h8 := H.sign_iter i hi m2
  rw [fastAt_obj, fastAt_obj, Nat.min_eq_left (show i ≤ 2 ^ o0.height.toNat - 1 by omega)] at h8
  rw [fastAt_obj, Nat.min_eq_left (show i ≤ 2 ^ o0.height.toNat - 1 by omega)]
  generalize hst : stAt S hf o0.params K.skSeed K.ps o0.state i = st at *
  generalize hst2 : stAt S hf o0.params K.skSeed K.ps o0.state (min (i + 1) (2 ^ o0.height.toNat - 1)) = st2 at *
  have u : fastStep S (fastObj K o0 i st) (.update (.sign m1) i) = (fastObj K o0 i st, .advance (.sign m1) i i) := by
    rw [H.step_update i (by omega), if_neg (by omega)]
  have a : fastStep S (fastObj K o0 i st) (.advance (.sign m1) i i) = (fastObj K o0 i st, .store (.sign m1) i) :=
    H.step_advance i st st _ i i (by rw [Nat.sub_self]; rfl)
  obtain ⟨b, c, d, s1⟩ := H.step_signBody (i + 1) st2 m1 i path e1
  have r1 := H.step_round (i + 1) st2 st' i b c d (sigParts S hf w K i m1 ++ path.flatten)
    (by rw [List.length_append, H.length_parts, hl]) e3
  refine ⟨st', path.flatten, hl, ?_⟩
  simp only [oneWaits, fastThreads, List.map_cons, List.map_nil, List.cons_append, List.nil_append]
  rw [run_first _ (H.step_start_sign i (by omega) st m1), run_first _ u, run_first _ a, run_second_iter, h8]
  simp only
  rw [run_first _ (step_store S K o0 (i + 1) st2 (.sign m1) i)]
  simp only
  rw [run_first _ (step_signRead S K o0 i (by omega) st2 m1), run_first _ (step_signWrite S K o0 i st2 m1 i), run_first _ s1,
    run_first _ r1]
  rfl

/-- The last step of `sign` at any state of the traversal: the signature is already made, and the call returns it unless the
round itself has undefined behaviour. -/
theorem FastOk.step_round_any (j : Nat) (st : BdsState) (idx : Nat) (a : Adrs) (data : Bytes)
    (hl : data.length = 36 + 32 * Spec.lenW w + 32 * o0.height.toNat) :
    ∃ st', fastStep S (fastObj K o0 j st) (.round idx a data) = (fastObj K o0 j st', .done (.sig data)) ∨
      fastStep S (fastObj K o0 j st) (.round idx a data) = (fastObj K o0 j st', .ub) := by
  rw [fastStep, H.objHash, H.objSize]
  simp only
  rw [← hl, fillBuffer_exact _ _ rfl]
  cases fastSignRound S hf (fastObj K o0 j st).params (fastObj K o0 j st).sk (fastObj K o0 j st).state idx a with
  | ok st' => exact ⟨st', Or.inl rfl⟩
  | throw e => exact ⟨st, Or.inr rfl⟩
  | ub => exact ⟨st, Or.inr rfl⟩

theorem FastOk.race_both_any (i : Nat) (hi : i < 2 ^ o0.height.toNat) (m1 m2 : Bytes) : ∃ st b c d,
      runSchedule (fastStep S) (bothRead.take 15) (fastThreads (fastAt S hf K o0 i) [.sign m1, .sign m2]) =
        (fastObj K o0 (i + 1) st,
          [.done (.sig (Spec.signature (hf.prim S) w o0.height.toNat K.skSeed K.skPrf K.ps i m1)),
            .round i ⟨0, 0, 0, 0, i, b, c, d⟩ (Spec.signature (hf.prim S) w o0.height.toNat K.skSeed K.skPrf K.ps i m2)]) := by
  have hlt := H.pow_lt
  obtain ⟨path, e1, e2⟩ := H.path_at i hi
  rw [fastAt_obj, Nat.min_eq_left (show i ≤ 2 ^ o0.height.toNat - 1 by omega)]
  generalize hst : stAt S hf o0.params K.skSeed K.ps o0.state i = st at *
  have u : ∀ m, fastStep S (fastObj K o0 i st) (.update (.sign m) i) = (fastObj K o0 i st, .advance (.sign m) i i) := by
    intro m
    rw [H.step_update i (by omega), if_neg (by omega)]
  have a : ∀ m, fastStep S (fastObj K o0 i st) (.advance (.sign m) i i) = (fastObj K o0 i st, .store (.sign m) i) := by
    intro m
    exact H.step_advance i st st _ i i (by rw [Nat.sub_self]; rfl)
  obtain ⟨b, c, d, s1⟩ := H.step_signBody (i + 1) st m1 i path e1
  obtain ⟨b', c', d', s2⟩ := H.step_signBody (i + 1) st m2 i path e1
  rw [e2] at s1 s2
  have r0 := H.round_at i hi
  rw [hst] at r0
  have r1 := H.step_round (i + 1) _ _ i b c d _ (H.length_sig i m1) r0
  refine ⟨stAt S hf o0.params K.skSeed K.ps o0.state (min (i + 1) (2 ^ o0.height.toNat - 1)), b', c', d', ?_⟩
  simp only [bothRead, fastThreads, List.map_cons, List.map_nil, List.take_succ_cons, List.take_zero]
  rw [run_first _ (H.step_start_sign i (by omega) st m1), run_first _ (u m1), run_first _ (a m1),
    run_first _ (step_store S K o0 i st (.sign m1) i)]
  simp only
  rw [run_first _ (step_signRead S K o0 i (by omega) st m1),
    run_second _ (H.step_start_sign i (by omega) st m2), run_second _ (u m2), run_second _ (a m2),
    run_second _ (step_store S K o0 i st (.sign m2) i)]
  simp only
  rw [run_second _ (step_signRead S K o0 i (by omega) st m2), run_first _ (step_signWrite S K o0 i st m1 i),
    run_second _ (step_signWrite S K o0 (i + 1) st m2 i), run_first _ s1, run_second _ s2, run_first _ r1]
  rfl

theorem FastOk.race_one_any (i : Nat) (hi : i < 2 ^ o0.height.toNat) (m1 m2 : Bytes) : ∃ st rest b c d,
      rest.length = 32 * o0.height.toNat ∧
      runSchedule (fastStep S) (oneWaits.take 15) (fastThreads (fastAt S hf K o0 i) [.sign m1, .sign m2]) =
      (fastObj K o0 (i + 1) st,
        [.round i ⟨0, 0, 0, 0, i, b, c, d⟩ (sigParts S hf w K i m1 ++ rest),
          .done (.sig (Spec.signature (hf.prim S) w o0.height.toNat K.skSeed K.skPrf K.ps i m2))]) := by
  have hlt := H.pow_lt
  obtain ⟨path, e1, _⟩ := H.path_at (min (i + 1) (2 ^ o0.height.toNat - 1)) (by omega)
  have hl := H.length_path _ (by omega) path e1
  have h8 := H.sign_iter i hi m2
  rw [fastAt_obj, fastAt_obj, Nat.min_eq_left (show i ≤ 2 ^ o0.height.toNat - 1 by omega)] at h8
  rw [fastAt_obj, Nat.min_eq_left (show i ≤ 2 ^ o0.height.toNat - 1 by omega)]
  generalize hst : stAt S hf o0.params K.skSeed K.ps o0.state i = st at *
  generalize hst2 : stAt S hf o0.params K.skSeed K.ps o0.state (min (i + 1) (2 ^ o0.height.toNat - 1)) = st2 at *
  have u : fastStep S (fastObj K o0 i st) (.update (.sign m1) i) = (fastObj K o0 i st, .advance (.sign m1) i i) := by
    rw [H.step_update i (by omega), if_neg (by omega)]
  have a : fastStep S (fastObj K o0 i st) (.advance (.sign m1) i i) = (fastObj K o0 i st, .store (.sign m1) i) :=
    H.step_advance i st st _ i i (by rw [Nat.sub_self]; rfl)
  obtain ⟨b, c, d, s1⟩ := H.step_signBody (i + 1) st2 m1 i path e1
  refine ⟨st2, path.flatten, b, c, d, hl, ?_⟩
  rw [show oneWaits.take 15 = [0, 0, 0] ++ List.replicate 8 1 ++ [0, 0, 0, 0] from rfl]
  simp only [fastThreads, List.map_cons, List.map_nil, List.cons_append, List.nil_append]
  rw [run_first _ (H.step_start_sign i (by omega) st m1), run_first _ u, run_first _ a, run_second_iter, h8]
  simp only
  rw [run_first _ (step_store S K o0 (i + 1) st2 (.sign m1) i)]
  simp only
  rw [run_first _ (step_signRead S K o0 i (by omega) st2 m1), run_first _ (step_signWrite S K o0 i st2 m1 i), run_first _ s1]
  rfl

omit H in
theorem run_append {σ π : Type} {step : σ → π → σ × π} : ∀ (a b : List Nat) (x : σ × List π),
    runSchedule step (a ++ b) x = runSchedule step b (runSchedule step a x) := by
  intro a
  induction a with
  | nil => intro b x; rfl
  | cons t a ih =>
    intro b x
    obtain ⟨o, pcs⟩ := x
    rw [List.cons_append, runSchedule.eq_def, runSchedule.eq_def step (t :: a)]
    simp only
    cases pcs[t]? with
    | none => exact ih _ _
    | some pc => exact ih _ _

theorem FastOk.race_last (m1 m2 : Bytes) : ∃ st rest, rest.length = 32 * o0.height.toNat ∧
      runSchedule (fastStep S) lastTwice (fastThreads (fastAt S hf K o0 (2 ^ o0.height.toNat - 1)) [.sign m1, .sign m2]) =
      (fastObj K o0 (2 ^ o0.height.toNat + 1) st,
        [.done (.sig (sigParts S hf w K (2 ^ o0.height.toNat) m1 ++ rest)),
          .done (.sig (Spec.signature (hf.prim S) w o0.height.toNat K.skSeed K.skPrf K.ps (2 ^ o0.height.toNat - 1) m2))]) := by
  have hlt := H.pow_lt
  have hpos := Nat.two_pow_pos o0.height.toNat
  obtain ⟨path, e1, _⟩ := H.path_at (2 ^ o0.height.toNat - 1) (by omega)
  have hl := H.length_path _ (by omega) path e1
  have h8 := H.sign_iter (2 ^ o0.height.toNat - 1) (by omega) m2
  rw [fastAt_obj, fastAt_obj, Nat.min_self, show 2 ^ o0.height.toNat - 1 + 1 = 2 ^ o0.height.toNat by omega,
    Nat.min_eq_right (show 2 ^ o0.height.toNat - 1 ≤ 2 ^ o0.height.toNat by omega)] at h8
  rw [fastAt_obj, Nat.min_self]
  generalize hst : stAt S hf o0.params K.skSeed K.ps o0.state (2 ^ o0.height.toNat - 1) = st at *
  generalize hN : 2 ^ o0.height.toNat = N at *
  have u : fastStep S (fastObj K o0 (N - 1) st) (.update (.sign m1) (N - 1)) =
      (fastObj K o0 (N - 1) st, .advance (.sign m1) (N - 1) (N - 1)) := by
    rw [H.step_update (N - 1) (by omega), if_neg (by omega)]
  have a : fastStep S (fastObj K o0 (N - 1) st) (.advance (.sign m1) (N - 1) (N - 1)) =
      (fastObj K o0 (N - 1) st, .store (.sign m1) (N - 1)) :=
    H.step_advance (N - 1) st st _ (N - 1) (N - 1) (by rw [Nat.sub_self]; rfl)
  obtain ⟨b, c, d, s1⟩ := H.step_signBody (N + 1) st m1 N path e1
  have r1 := H.step_round (N + 1) st st N b c d (sigParts S hf w K N m1 ++ path.flatten)
    (by rw [List.length_append, H.length_parts, hl]) (if_neg (by omega))
  refine ⟨st, path.flatten, hl, ?_⟩
  simp only [lastTwice, fastThreads, List.map_cons, List.map_nil, List.cons_append, List.nil_append]
  rw [run_first _ (H.step_start_sign (N - 1) (by omega) st m1), run_first _ u, run_first _ a,
    run_first _ (step_store S K o0 (N - 1) st (.sign m1) (N - 1))]
  simp only
  rw [run_second_iter, h8]
  simp only
  rw [run_first _ (step_signRead S K o0 N (by omega) st m1), run_first _ (step_signWrite S K o0 N st m1 N), run_first _ s1,
    run_first _ r1]
  rfl

omit H in
theorem sk_mod (K : KeyParts) (j : Nat) : K.sk (j % 2 ^ 32) = K.sk j := by
  have hl : (Spec.be 4 (j % 2 ^ 32)) = Spec.be 4 j := by
    rw [← idxBytes_eq, ← idxBytes_eq]
    simp only [idxBytes, Nat.shiftRight_eq_div_pow]
    have h (a b : Nat) (h : a % 256 = b % 256) : UInt8.ofNat a = UInt8.ofNat b := by
      rw [← u8_ofNat_mod a, ← u8_ofNat_mod b, h]
    rw [h (j % 2 ^ 32 / 2 ^ 24) (j / 2 ^ 24) (by omega), h (j % 2 ^ 32 / 2 ^ 16) (j / 2 ^ 16) (by omega),
      h (j % 2 ^ 32 / 2 ^ 8) (j / 2 ^ 8) (by omega), h (j % 2 ^ 32) j (by omega)]
  rw [KeyParts.sk, KeyParts.sk, skOf, skOf, hl]

/-- What holds of one call at any point of any schedule. -/
def PcOk (S : Sha256) (hf : HashFn) (w : Nat) (K : KeyParts) (size : Nat) (c : Call) : FastPc → Prop
  | .start c' => c' = c
  | .update (.sign m) _ => c = .sign m
  | .advance (.sign m) _ _ => c = .sign m
  | .store (.sign m) _ => c = .sign m
  | .signRead m => c = .sign m
  | .signWrite m idx => c = .sign m ∧ idx < 2 ^ 32
  | .signBody m idx => c = .sign m ∧ idx < 2 ^ 32
  | .round idx _ data => ∃ m rest, c = .sign m ∧ idx < 2 ^ 32 ∧ data = sigParts S hf w K idx m ++ rest
  | .done (.sig s) => ∃ m idx rest, c = .sign m ∧ idx < 2 ^ 32 ∧ s = sigParts S hf w K idx m ++ rest ∧ s.length = size
  | _ => True

theorem FastOk.any_step (j : Nat) (hj : j < 2 ^ 32) (st : BdsState) (c : Call) (pc : FastPc)
    (h : PcOk S hf w K (36 + 32 * Spec.lenW w + 32 * o0.height.toNat) c pc) :
    ∃ j' st' pc', fastStep S (fastObj K o0 j st) pc = (fastObj K o0 j' st', pc') ∧ j' < 2 ^ 32 ∧
      PcOk S hf w K (36 + 32 * Spec.lenW w + 32 * o0.height.toNat) c pc' := by
  have hmk : ∀ n, fastObj K o0 n st = fastObj K o0 (n % 2 ^ 32) st := by
    intro n; rw [fastObj, fastObj, sk_mod]
  have hm : ∀ n, n % 2 ^ 32 < 2 ^ 32 := fun n => Nat.mod_lt _ (by omega)
  cases pc with
  | start c' =>
    cases c' with
    | setIndex n => exact ⟨j, st, _, rfl, hj, trivial⟩
    | sign m => exact ⟨j, st, _, H.step_start_sign j hj st m, hj, h.symm⟩
  | update kk n =>
    refine ⟨j, st, _, H.step_update j hj st kk n, hj, ?_⟩
    split
    · exact trivial
    · cases kk with
      | setIndex => exact trivial
      | sign m => exact h
  | advance kk n cur =>
    cases ha : advanceLoop S hf K.skSeed o0.params K.ps (n - cur) cur st with
    | ok st' =>
      refine ⟨j, st', _, H.step_advance j st st' kk n cur ha, hj, ?_⟩
      cases kk with
      | setIndex => exact trivial
      | sign m => exact h
    | throw e =>
      refine ⟨j, st, .ub, ?_, hj, trivial⟩
      rw [fastStep, H.objHash, show slice (fastObj K o0 j st).sk 4 32 = _ from K.seed_slice j,
        show slice (fastObj K o0 j st).sk 68 32 = _ from K.ps_slice j]
      simp only
      rw [show advanceLoop S hf K.skSeed (fastObj K o0 j st).params K.ps (n - cur) cur (fastObj K o0 j st).state = _ from ha]
    | ub =>
      refine ⟨j, st, .ub, ?_, hj, trivial⟩
      rw [fastStep, H.objHash, show slice (fastObj K o0 j st).sk 4 32 = _ from K.seed_slice j,
        show slice (fastObj K o0 j st).sk 68 32 = _ from K.ps_slice j]
      simp only
      rw [show advanceLoop S hf K.skSeed (fastObj K o0 j st).params K.ps (n - cur) cur (fastObj K o0 j st).state = _ from ha]
  | store kk n =>
    refine ⟨n % 2 ^ 32, st, _, (step_store S K o0 j st kk n).trans (by rw [hmk n]), hm n, ?_⟩
    cases kk with
    | setIndex => exact trivial
    | sign m => exact h
  | signRead m => exact ⟨j, st, _, step_signRead S K o0 j hj st m, hj, h, hj⟩
  | signWrite m idx =>
    exact ⟨(idx + 1) % 2 ^ 32, st, .signBody m idx, (step_signWrite S K o0 j st m idx).trans (by rw [hmk (idx + 1)]), hm _, h⟩
  | signBody m idx =>
    cases ha : authOut st.auth o0.height.toNat 0 with
    | ok path =>
      obtain ⟨b, c', d, e⟩ := H.step_signBody j st m idx path ha
      exact ⟨j, st, _, e, hj, m, _, h.1, h.2, rfl⟩
    | throw e =>
      exact absurd ha (by
        intro ha'
        exact authOut_nothrow st.auth e o0.height.toNat 0 ha')
    | ub =>
      refine ⟨j, st, .ub, ?_, hj, trivial⟩
      obtain ⟨b', c', d', e⟩ := wotsSign_spec S hf H.hp (Spec.Hmsg (hf.prim S)
          (Spec.PRF (hf.prim S) K.skPrf (Spec.be 32 idx) ++ K.root ++ Spec.be 32 idx) m) K.skSeed K.ps idx 0 0 0
        (length_Hmsg ..)
      have e6 := H.parH
      have e7 : o0.params.wots = p := by rw [H.hop]
      have hb : fastSignBody S hf (fastObj K o0 j st).params (fastObj K o0 j st).sk (fastObj K o0 j st).state idx m = .ub := by
        show fastSignBody S hf o0.params (K.sk j) st idx m = _
        simp only [fastSignBody, K.seed_slice, K.prf_slice, K.ps_slice, ok_bind, K.root_slice, prf_eq, toByte_eq_be, hMsg_eq,
          Adrs.setType, Adrs.setOTS, getSeed_eq]
        rw [e7, e, e6]
        simp only [ok_bind]
        rw [ha]
        rfl
      rw [fastStep, H.objHash]
      simp only
      rw [hb]
  | round idx a data =>
    obtain ⟨m, rest, h1, h2, h3⟩ := h
    cases hr : fastSignRound S hf (fastObj K o0 j st).params (fastObj K o0 j st).sk (fastObj K o0 j st).state idx a with
    | ok st' =>
      cases hb : fillBuffer (36 + 32 * Spec.lenW w + 32 * o0.height.toNat) data with
      | ok sig =>
        refine ⟨j, st', .done (.sig sig), ?_, hj, ?_⟩
        · rw [fastStep, H.objHash, H.objSize]
          simp only
          rw [hr, hb]
          rfl
        · rw [fillBuffer] at hb
          split at hb
          · cases hb
            refine ⟨m, idx, rest ++ List.replicate (36 + 32 * Spec.lenW w + 32 * o0.height.toNat - data.length) 0, h1, h2, ?_, ?_⟩
            · rw [h3, List.append_assoc]
            · rw [List.length_append, List.length_replicate]; omega
          · cases hb
      | throw e =>
        rw [fillBuffer] at hb; split at hb <;> cases hb
      | ub =>
        refine ⟨j, st, .ub, ?_, hj, trivial⟩
        rw [fastStep, H.objHash, H.objSize]
        simp only
        rw [hr, hb]
    | throw e =>
      refine ⟨j, st, .ub, ?_, hj, trivial⟩
      rw [fastStep, H.objHash, H.objSize]
      simp only
      rw [hr]
    | ub =>
      refine ⟨j, st, .ub, ?_, hj, trivial⟩
      rw [fastStep, H.objHash, H.objSize]
      simp only
      rw [hr]
  | done r => exact ⟨j, st, _, rfl, hj, h⟩
  | ub => exact ⟨j, st, _, rfl, hj, h⟩

/-- Every schedule keeps the fixed part of the key and makes signatures with the one-time keys of that key. -/
theorem FastOk.any_run (calls : List Call) (ts : List Nat) : ∀ (j : Nat) (st : BdsState) (pcs : List FastPc), j < 2 ^ 32 →
    (∀ (t : Nat) pc, pcs[t]? = some pc → ∃ c, calls[t]? = some c ∧
      PcOk S hf w K (36 + 32 * Spec.lenW w + 32 * o0.height.toNat) c pc) →
    ∃ j' st' pcs', runSchedule (fastStep S) ts (fastObj K o0 j st, pcs) = (fastObj K o0 j' st', pcs') ∧ j' < 2 ^ 32 ∧
      ∀ (t : Nat) pc, pcs'[t]? = some pc → ∃ c, calls[t]? = some c ∧
        PcOk S hf w K (36 + 32 * Spec.lenW w + 32 * o0.height.toNat) c pc := by
  induction ts with
  | nil => intro j st pcs hj h; exact ⟨j, st, pcs, rfl, hj, h⟩
  | cons t ts ih =>
    intro j st pcs hj h
    rw [runSchedule]
    cases hpc : pcs[t]? with
    | none => exact ih j st pcs hj h
    | some pc =>
      obtain ⟨c, hc, hok⟩ := h t pc hpc
      obtain ⟨j', st', pc', e, hj', hok'⟩ := H.any_step j hj st c pc hok
      simp only [e]
      refine ih j' st' _ hj' ?_
      intro u pc2 hu
      rw [List.getElem?_set] at hu
      by_cases htu : t = u
      · subst htu
        rw [if_pos rfl] at hu
        split at hu
        · exact ⟨c, hc, Option.some.inj hu ▸ hok'⟩
        · cases hu
      · rw [if_neg htu] at hu
        exact h u pc2 hu

/-- The calls on an `XmssFast`, by steps. -/
def FastOk.machine : Machine XmssFast FastPc where
  step := fastStep S
  start := .start
  done := .done
  idle := Spec.fastIdle
  call := XmssFast.call S
  good := fun o => ∃ i, i ≤ 2 ^ o0.height.toNat ∧ o = fastAt S hf K o0 i
  steps := 8
  idle_iff := by
    intro pc
    cases pc <;> simp [Spec.fastIdle]
  done_inj := by intro r r' h; exact FastPc.done.inj h
  start_ne_done := by intro c r h; cases h
  start_inj := by intro c c' h; exact FastPc.start.inj h
  done_fix := by intro o r; rfl
  no_restart := by
    intro o pc c
    rw [fastStep.eq_def]
    split <;> (try split) <;> (try split) <;> (try split) <;> (try split) <;> simp
  alone := by
    rintro o c ⟨i, hi, rfl⟩
    obtain ⟨r, o', e1, e2⟩ := fastCall_alone H i hi c
    have e3 := H.call i hi c
    rw [e1] at e3
    refine Or.inl ⟨r, o', e1, ?_, e2⟩
    simp only [Option.some.injEq, Prod.mk.injEq] at e3
    refine ⟨_, ?_, e3.2⟩
    cases c with
    | setIndex n => rw [Spec.counterCall]; split <;> simp only <;> omega
    | sign m => rw [Spec.counterCall]; split <;> simp only <;> omega

end

end Qrl
