import Verif.Proof.RustTree
/-!
# Simulation: the verifier, and the traversal behind `XMSSFast`
-/

namespace Qrl.Rs

open Res

variable (S : Sha256) (hf : HashFn)

theorem _root_.Qrl.Outcome.bind_assoc {α β γ : Type} (x : Outcome α) (f : α → Outcome β) (g : β → Outcome γ) :
    (x >>= f) >>= g = x >>= fun a => f a >>= g := by cases x <;> rfl

/-- The hash key read from a signature and a public key. -/
def verifyKey (idx : Nat) (sig pk : Bytes) : Bytes := (sig.drop 4).take 32 ++ pk.take 32 ++ Qrl.toByte idx 32

theorem verifySig_sim (b : Build) (p : WotsParams) (hlg : 1 ≤ p.logW) (m m' sig pk : Bytes) (h : Nat) (hk : p.keysize = p.len * 32) (hl : p.len < 2 ^ 20)
    (hh : h < 2 ^ 20) (hm : m.length + 128 < 2 ^ 32)
    (hseen : ∀ idx, Qrl.be32At sig = .ok idx → seen hf (verifyKey idx sig pk) m = some m') :
    ∀ rc x, Qrl.xmssVerifysig S hf p m' sig pk h = .ok (rc, x) → xmssVerifySig b S hf p m sig pk h = ok (rc, m) := by
  intro rc x hx
  have key : Sim (do let (r, _) ← Qrl.xmssVerifysig S hf p m' sig pk h; .ok (r, m)) (xmssVerifySig b S hf p m sig pk h) := by
    unfold Qrl.xmssVerifysig xmssVerifySig
    dsimp only
    simp only [Outcome.bind_assoc]
    refine Sim.bind' (sim_slice _ _ _) (fun ps h1 => ?_)
    refine Sim.bind' (be32At_sim _) (fun idx hidx => ?_)
    refine Sim.bind' (sim_slice _ _ _) (fun r h2 => ?_)
    refine Sim.bind' (sim_slice _ _ _) (fun root h3 => ?_)
    obtain ⟨-, l1⟩ := slice_val h1
    obtain ⟨e2, l2⟩ := slice_val h2
    obtain ⟨e3, l3⟩ := slice_val h3
    have hsn := hseen idx hidx
    simp only [toByte_rs]
    rw [hMsg_eq_seen S hf m _ (by rw [List.length_append, List.length_append, l2, l3, length_toByte]) hm]
    have hkey : r ++ root ++ Qrl.toByte idx 32 = verifyKey idx sig pk := by rw [verifyKey, e2, e3, List.drop_zero]
    rw [hkey, hsn]
    simp only [ok_bind]
    unfold verifyRoot
    simp only [Res.bind_assoc]
    refine Sim.bind (sliceChunks_sim _ _ _) (fun wsig => ?_)
    have w := wotsPkFromSig_sim S hf b p hlg wsig (Qrl.hMsg S hf m' (verifyKey idx sig pk)) ps (setOTS (setType {} 0) idx) (by omega)
    rw [take32_of l1] at w
    refine Sim.bind w (fun pkx => ?_)
    have t := lTree_sim S hf p pkx.1 ps (setLtree (setType {} 1) idx) (by omega)
    rw [take32_of l1] at t
    refine Sim.bind t (fun lx => ?_)
    have v := validateAuthpath_sim S hf lx.1 idx sig (36 + p.keysize) h ps (setType {} 2) (by omega)
    rw [take32_of l1] at v
    refine Sim.bind v (fun root' => ?_)
    have z : sub64 (sub64 (sub64 ((4 + 32 + p.len * 32 + h * 32) % 2 ^ 32) 36) p.keysize) (h * 32) = 0 := by
      rw [hk]; unfold sub64; omega
    have z' : 4 + 32 + p.len * 32 + h * 32 - 36 - p.keysize - h * 32 = 0 := by rw [hk]; omega
    rw [z, z']
    by_cases hr : root' = root
    · rw [if_neg (fun h => h hr), if_neg (fun h => h hr)]
      exact Sim.rfl' _
    · rw [if_pos hr, if_pos hr]
      exact Sim.rfl' _
  apply key
  rw [hx]
  rfl

theorem minHeightLoop_sim (st : BdsState) : ∀ (m i r : Nat), Sim (Qrl.minHeightLoop st m i r) (minHeightLoop st m i r)
  | 0, _, _ => Sim.rfl' _
  | m + 1, i, r => by
    rw [Qrl.minHeightLoop.eq_def, minHeightLoop.eq_def]
    dsimp only
    exact Sim.ite Iff.rfl (fun _ => Sim.bind (sim_rd _ _) (fun l => minHeightLoop_sim st m _ _)) (fun _ => Sim.ub _)

theorem setThNode_sim (st : BdsState) (i : Nat) (c : Cell) : Sim (Qrl.setThNode st i c) (setThNode st i c) :=
  Sim.bind (sim_rd _ _) (fun _ => Sim.bind (sim_wr _ _ _) (fun _ => Sim.rfl' _))

theorem setupInit_sim : ∀ (m i : Nat) (ths : List TreeInst), Sim (Qrl.setupInit m i ths) (setupInit m i ths)
  | 0, _, _ => Sim.rfl' _
  | m + 1, _, _ => Sim.bind (sim_rd _ _) (fun _ => Sim.bind (sim_wr _ _ _) (fun _ => setupInit_sim m _ _))

theorem setupSave_sim (p : XmssParams) (i nodeh : Nat) (c : Cell) (st : BdsState) (hh : p.h ≤ 30) (hh2 : 2 ≤ p.h)
    (hi : i < 2 ^ 32) (hr : st.retain.length ≤ 1) :
    Sim (Qrl.setupSave p i nodeh c st) (setupSave p i nodeh c st) := by
  unfold Qrl.setupSave setupSave
  refine Sim.ite Iff.rfl (fun _ => Sim.bind (sim_wr _ _ _) (fun _ => Sim.rfl' _)) (fun h1 => ?_)
  refine Sim.ite Iff.rfl (fun _ => setThNode_sim _ _ _) (fun h2 => ?_)
  refine Sim.ite Iff.rfl (fun h3 => ?_) (fun _ => Sim.rfl' _)
  by_cases h4 : nodeh ≥ p.h
  · rw [if_pos h4]; exact Sim.ub _
  · rw [if_neg h4]
    have hs : i >>> nodeh ≤ i := by rw [Nat.shiftRight_eq_div_pow]; exact Nat.div_le_self _ _
    generalize i >>> nodeh = g at *
    have hpw : (1 <<< (p.h - 1 - nodeh)) = 2 ^ (p.h - 1 - nodeh) := by rw [Nat.shiftLeft_eq, Nat.one_mul]
    rw [hpw]
    have hcase : p.h - 1 - nodeh = 0 ∨ p.h - 1 - nodeh = 1 := by omega
    have hsum : 2 ^ (p.h - 1 - nodeh) + nodeh = p.h := by
      rcases hcase with hc | hc <;> rw [hc] <;> omega
    intro y hy
    rw [Outcome.bind_eq_ok] at hy
    obtain ⟨r, hw, hy⟩ := hy
    have hlt : (2 ^ (p.h - 1 - nodeh) + nodeh + sub32 0 p.h + sub32 g 3 >>> 1) % 2 ^ 32 < st.retain.length := by
      unfold Qrl.wr at hw
      split at hw
      · assumption
      · cases hw
    have h0 : (p.h + sub32 0 p.h + sub32 g 3 >>> 1) % 2 ^ 32 = 0 := by
      rw [hsum] at hlt; omega
    have hg : 3 ≤ g ∧ (g - 3) >>> 1 = 0 := by
      unfold sub32 at h0
      simp only [Nat.shiftRight_eq_div_pow] at h0 ⊢
      omega
    have e1 : (2 ^ (p.h - 1 - nodeh) + nodeh + sub32 0 p.h + sub32 g 3 >>> 1) % 2 ^ 32 = 0 := by rw [hsum]; exact h0
    rw [if_pos ⟨by omega, by omega, hg.1⟩, hsum, hg.2, Nat.sub_self, Nat.add_zero]
    rw [e1] at hw
    rw [sim_wr _ _ _ _ hw, ok_bind]
    cases hy
    rfl

theorem setThNode_retain {st st' : BdsState} {i : Nat} {c : Cell} (h : Qrl.setThNode st i c = .ok st') :
    st'.retain = st.retain := by
  unfold Qrl.setThNode at h
  rw [Outcome.bind_eq_ok] at h
  obtain ⟨_, _, h⟩ := h
  rw [Outcome.bind_eq_ok] at h
  obtain ⟨_, _, h⟩ := h
  cases h
  rfl

theorem setupSave_retain {p : XmssParams} {i nodeh : Nat} {c : Cell} {st st' : BdsState}
    (h : Qrl.setupSave p i nodeh c st = .ok st') : st'.retain.length = st.retain.length := by
  unfold Qrl.setupSave at h
  split at h
  · rw [Outcome.bind_eq_ok] at h
    obtain ⟨_, _, h⟩ := h
    cases h; rfl
  · split at h
    · rw [setThNode_retain h]
    · split at h
      · split at h
        · cases h
        · rw [Outcome.bind_eq_ok] at h
          obtain ⟨_, hw, h⟩ := h
          cases h
          exact wr_length hw
      · cases h; rfl

theorem setupMerge_sim (p : XmssParams) (ps : Bytes) (idx i : Nat) (hp : 32 ≤ ps.length) (hh : p.h ≤ 30) (hh2 : 2 ≤ p.h)
    (hi : i < 2 ^ 32) :
    ∀ (so : Nat) (nodes : List Cell) (levels : List (Option Nat)) (st : BdsState) (a : Adrs), st.retain.length ≤ 1 →
    Sim (Qrl.setupMerge S hf p (ps.take 32) idx i so nodes levels st a) (setupMerge S hf p ps idx i so nodes levels st a)
  | 0, _, _, _, _, _ => Sim.rfl' _
  | 1, _, _, _, _, _ => Sim.rfl' _
  | so + 2, nodes, levels, st, a, hr => by
    rw [Qrl.setupMerge.eq_def, setupMerge.eq_def]
    dsimp only
    refine Sim.bind (sim_rdLevel _ _) (fun x => Sim.bind (sim_rdLevel _ _) (fun y => ?_))
    refine Sim.ite Iff.rfl (fun _ => ?_) (fun _ => Sim.rfl' _)
    refine Sim.bind (sim_rd _ _) (fun top => ?_)
    refine Sim.bind' (setupSave_sim p i x top st hh hh2 hi hr) (fun st' hst => ?_)
    have hr' := setupSave_retain hst
    refine Sim.bind (sim_rdNode _ _) (fun l => Sim.bind (sim_rdNode _ _) (fun r => ?_))
    simp only [hashH_rs S hf _ ps _ hp, ok_bind]
    exact Sim.bind (sim_wr _ _ _) (fun n => Sim.bind (sim_wr _ _ _) (fun lv =>
      setupMerge_sim p ps idx i hp hh hh2 hi (so + 1) n lv st' _ (by omega)))

theorem setupMerge_retain (p : XmssParams) (ps : Bytes) (idx i : Nat) :
    ∀ (so : Nat) (nodes : List Cell) (levels : List (Option Nat)) (st : BdsState) (a : Adrs) (y : THStack × BdsState × Adrs),
    Qrl.setupMerge S hf p ps idx i so nodes levels st a = .ok y → y.2.1.retain.length = st.retain.length
  | 0, _, _, _, _, _, h => by cases h; rfl
  | 1, _, _, _, _, _, h => by cases h; rfl
  | so + 2, nodes, levels, st, a, y, h => by
    rw [Qrl.setupMerge.eq_def] at h
    dsimp only at h
    rw [Outcome.bind_eq_ok] at h
    obtain ⟨_, _, h⟩ := h
    rw [Outcome.bind_eq_ok] at h
    obtain ⟨_, _, h⟩ := h
    split at h
    · rw [Outcome.bind_eq_ok] at h
      obtain ⟨_, _, h⟩ := h
      rw [Outcome.bind_eq_ok] at h
      obtain ⟨st', hst, h⟩ := h
      rw [Outcome.bind_eq_ok] at h
      obtain ⟨_, _, h⟩ := h
      rw [Outcome.bind_eq_ok] at h
      obtain ⟨_, _, h⟩ := h
      rw [Outcome.bind_eq_ok] at h
      obtain ⟨_, _, h⟩ := h
      rw [Outcome.bind_eq_ok] at h
      obtain ⟨_, _, h⟩ := h
      rw [setupMerge_retain p ps idx i (so + 1) _ _ _ _ _ h, setupSave_retain hst]
    · cases h; rfl

theorem setupLoop_sim (sk : Bytes) (p : XmssParams) (ps : Bytes) (hs : 32 ≤ sk.length) (hp : 32 ≤ ps.length)
    (hh : p.h ≤ 30) (hh2 : 2 ≤ p.h) :
    ∀ (m idx i : Nat) (th : THStack) (st : BdsState) (oa la na : Adrs), i + m ≤ 2 ^ 32 → st.retain.length ≤ 1 →
    Sim (Qrl.setupLoop S hf (sk.take 32) p (ps.take 32) m idx i th st oa la na)
      (setupLoop S hf sk p ps m idx i th st oa la na)
  | 0, _, _, _, _, _, _, _, _, _ => Sim.rfl' _
  | m + 1, idx, i, th, st, oa, la, na, hi, hr => by
    rw [Qrl.setupLoop.eq_def, setupLoop.eq_def]
    dsimp only
    refine Sim.bind (genLeafWots_sim S hf sk p ps _ _ hs hp) (fun x => ?_)
    refine Sim.bind (sim_wr _ _ _) (fun n => Sim.bind (sim_wr _ _ _) (fun lv => ?_))
    have rest : ∀ st' : BdsState, st'.retain.length ≤ 1 → Sim
        (do
          let y ← Qrl.setupMerge S hf p (ps.take 32) idx i (th.offset + 1) n lv st' na
          Qrl.setupLoop S hf (sk.take 32) p (ps.take 32) m (idx + 1) (i + 1) y.1 y.2.1 x.2.2 x.2.1 y.2.2)
        (do
          let y ← setupMerge S hf p ps idx i (th.offset + 1) n lv st' na
          setupLoop S hf sk p ps m (idx + 1) (i + 1) y.1 y.2.1 x.2.2 x.2.1 y.2.2) := by
      intro st' hr'
      refine Sim.bind' (setupMerge_sim S hf p ps idx i hp hh hh2 (by omega) _ _ _ _ _ hr') (fun y hy => ?_)
      have := setupMerge_retain S hf p _ idx i _ _ _ _ _ _ hy
      exact setupLoop_sim sk p ps hs hp hh hh2 m _ _ _ _ _ _ _ (by omega) (by omega)
    refine Sim.ite Iff.rfl (fun _ => ?_) (fun _ => ?_)
    · refine Sim.bind (sim_rd _ _) (fun c => Sim.bind' (setThNode_sim _ _ _) (fun st' hst => rest st' ?_))
      rw [setThNode_retain hst]; exact hr
    · exact rest st hr

theorem treehashSetup_sim (b : Build) (height : Nat) (st : BdsState) (sk : Bytes) (p : XmssParams) (ps : Bytes)
    (hs : 32 ≤ sk.length) (hp : 32 ≤ ps.length) (hh : p.h ≤ 30) (hh2 : 2 ≤ p.h) (hht : height ≤ 30)
    (hr : st.retain.length ≤ 1) :
    Sim (Qrl.treehashSetup S hf height 0 st (sk.take 32) p (ps.take 32) {}) (treehashSetup b S hf height st sk p ps {}) := by
  have hpw : 2 ^ height ≤ 2 ^ 30 := Nat.pow_le_pow_right (by omega) hht
  unfold Qrl.treehashSetup treehashSetup
  dsimp only
  rw [if_neg (by omega), shl1_lt b (by omega), ok_bind]
  refine Sim.bind (setupInit_sim _ _ _) (fun ths => ?_)
  refine Sim.bind (setupLoop_sim S hf sk p ps hs hp hh hh2 _ _ _ _ _ _ _ _ (by omega) hr) (fun y => ?_)
  exact Sim.bind (sim_rdNode _ _) (fun _ => Sim.rfl' _)

theorem updateMerge_sim (ps : Bytes) (stack : List Cell) (levels : List Nat) (nextIdx : Nat) (hp : 32 ≤ ps.length) :
    ∀ (su so : Nat) (node : Bytes) (nh : Nat) (a : Adrs),
    Sim (Qrl.updateMerge S hf (ps.take 32) stack levels nextIdx su so node nh a)
      (updateMerge S hf ps stack levels nextIdx su so node nh a)
  | 0, _, _, _, _ => Sim.rfl' _
  | su + 1, so, node, nh, a => by
    rw [Qrl.updateMerge.eq_def, updateMerge.eq_def]
    dsimp only
    refine Sim.ite Iff.rfl (fun _ => Sim.ub _) (fun _ => Sim.bind (sim_rd _ _) (fun l => ?_))
    refine Sim.ite Iff.rfl (fun _ => Sim.bind (sim_rdNode _ _) (fun left => ?_)) (fun _ => Sim.rfl' _)
    simp only [hashH_rs S hf _ ps _ hp, ok_bind]
    exact updateMerge_sim ps stack levels nextIdx hp su _ _ _ _

theorem treehashUpdate_sim (level : Nat) (st : BdsState) (sk : Bytes) (p : XmssParams) (ps : Bytes) (a : Adrs)
    (hs : 32 ≤ sk.length) (hp : 32 ≤ ps.length) :
    Sim (Qrl.treehashUpdate S hf level st (sk.take 32) p (ps.take 32) a) (treehashUpdate S hf level st sk p ps a) := by
  unfold Qrl.treehashUpdate treehashUpdate
  refine Sim.bind (sim_rd _ _) (fun t => ?_)
  refine Sim.bind (genLeafWots_sim S hf sk p ps _ _ hs hp) (fun x => ?_)
  refine Sim.bind (updateMerge_sim S hf ps _ _ _ hp _ _ _ _ _) (fun m => ?_)
  refine Sim.ite Iff.rfl (fun _ => Sim.bind (sim_wr _ _ _) (fun _ => Sim.rfl' _)) (fun _ => ?_)
  exact Sim.bind (sim_wr _ _ _) (fun _ => Sim.bind (sim_wr _ _ _) (fun _ => Sim.bind (sim_wr _ _ _) (fun _ => Sim.rfl' _)))

theorem pickLevel_sim (st : BdsState) (p : XmssParams) : ∀ (m i level lMin : Nat),
    Sim (Qrl.pickLevel st p m i level lMin) (pickLevel st p m i level lMin)
  | 0, _, _, _ => Sim.rfl' _
  | m + 1, i, level, lMin => by
    rw [Qrl.pickLevel.eq_def, pickLevel.eq_def]
    dsimp only
    refine Sim.bind (sim_rd _ _) (fun t => ?_)
    have rest : ∀ low : Nat, Sim
        (if low < lMin then Qrl.pickLevel st p m (i + 1) i low else Qrl.pickLevel st p m (i + 1) level lMin)
        (if low < lMin then pickLevel st p m (i + 1) i low else pickLevel st p m (i + 1) level lMin) := fun low =>
      Sim.ite Iff.rfl (fun _ => pickLevel_sim st p m _ _ _) (fun _ => pickLevel_sim st p m _ _ _)
    refine Sim.ite Iff.rfl (fun _ => rest _) (fun _ => ?_)
    refine Sim.ite Iff.rfl (fun _ => rest _) (fun _ => ?_)
    exact Sim.bind (minHeightLoop_sim st _ _ _) rest

theorem bdsTreehashUpdate_sim (sk : Bytes) (p : XmssParams) (ps : Bytes) (a : Adrs) (hs : 32 ≤ sk.length)
    (hp : 32 ≤ ps.length) : ∀ (u : Nat) (st : BdsState),
    Sim (Qrl.bdsTreehashUpdate S hf (sk.take 32) p (ps.take 32) a u st) (bdsTreehashUpdate S hf sk p ps a u st)
  | 0, _ => Sim.rfl' _
  | u + 1, st => by
    rw [Qrl.bdsTreehashUpdate.eq_def, bdsTreehashUpdate.eq_def]
    dsimp only
    refine Sim.bind (pickLevel_sim st p _ _ _ _) (fun level => ?_)
    refine Sim.ite Iff.rfl (fun _ => Sim.rfl' _) (fun _ => ?_)
    exact Sim.bind (treehashUpdate_sim S hf level st sk p ps a hs hp) (fun st' => bdsTreehashUpdate_sim sk p ps a hs hp u st')

theorem findTau_rs (leafIdx h : Nat) : ∀ (m i : Nat), findTau leafIdx h m i = Qrl.findTau leafIdx h m i
  | 0, _ => rfl
  | m + 1, i => by rw [findTau, Qrl.findTau, findTau_rs leafIdx h m]

theorem findTau_le (leafIdx h : Nat) : ∀ (m i : Nat), i + m = h → Qrl.findTau leafIdx h m i ≤ h
  | 0, _, _ => by rw [Qrl.findTau]
  | m + 1, i, hi => by
    rw [Qrl.findTau]
    split
    · omega
    · exact findTau_le leafIdx h m (i + 1) (by omega)

theorem findTau_bits (leafIdx h : Nat) : ∀ (m i : Nat), i + m = h → ∀ j, i ≤ j → j < Qrl.findTau leafIdx h m i →
    (leafIdx >>> j) &&& 1 = 1
  | 0, i, hi, j, h1, h2 => by rw [Qrl.findTau] at h2; omega
  | m + 1, i, hi, j, h1, h2 => by
    rw [Qrl.findTau] at h2
    split at h2
    · omega
    · next hb =>
      by_cases hj : j = i
      · subst hj; rw [and_one_iff]; exact hb
      · exact findTau_bits leafIdx h m (i + 1) (by omega) j (by omega) h2

theorem roundAuth_sim (p : XmssParams) (leafIdx tau : Nat) (hh : p.h ≤ 30) (hh2 : 4 ≤ p.h) (hl : leafIdx < 2 ^ 32)
    (ht : tau ≤ p.h) (hb : ∀ j, j < tau → (leafIdx >>> j) &&& 1 = 1) :
    ∀ (m i : Nat) (st : BdsState), i + m = tau → st.retain.length ≤ 1 →
    Sim (Qrl.roundAuth p leafIdx m i st) (roundAuth p leafIdx m i st)
  | 0, _, _, _, _ => Sim.rfl' _
  | m + 1, i, st, hi, hr => by
    rw [Qrl.roundAuth.eq_def, roundAuth.eq_def]
    dsimp only
    have rest : ∀ c : Cell, Sim (do let auth ← Qrl.wr st.auth i c; Qrl.roundAuth p leafIdx m (i + 1) { st with auth := auth })
        (do let auth ← wr st.auth i c; roundAuth p leafIdx m (i + 1) { st with auth := auth }) := fun c =>
      Sim.bind (sim_wr _ _ _) (fun auth => roundAuth_sim p leafIdx tau hh hh2 hl ht hb m (i + 1) _ (by omega) hr)
    by_cases h1 : i < p.h - 2
    · rw [if_pos h1, if_pos h1]
      exact Sim.bind (sim_rd _ _) (fun t => rest _)
    · rw [if_neg h1, if_neg h1]
      have hbit := hb i (by omega)
      rw [Nat.and_one_is_mod] at hbit
      have hs : leafIdx >>> i ≤ leafIdx := by rw [Nat.shiftRight_eq_div_pow]; exact Nat.div_le_self _ _
      have hsum : 2 ^ (p.h - 1 - i) + i = p.h := by
        have : p.h - 1 - i = 0 ∨ p.h - 1 - i = 1 := by omega
        rcases this with hc | hc <;> rw [hc] <;> omega
      have hge : 1 ≤ leafIdx >>> i := by
        rcases Nat.eq_zero_or_pos (leafIdx >>> i) with hz | hz
        · rw [hz] at hbit; simp at hbit
        · exact hz
      rw [if_pos ⟨by omega, by omega, by omega⟩]
      have e : ((((1 <<< (p.h - 1 - i)) + i + sub32 0 p.h) % 2 ^ 32) + ((sub64 (leafIdx >>> i) 1 >>> 1) % 2 ^ 32)) % 2 ^ 32 =
          2 ^ (p.h - 1 - i) + i - p.h + ((leafIdx >>> i) - 1) >>> 1 := by
        rw [Nat.shiftLeft_eq, Nat.one_mul, hsum]
        generalize leafIdx >>> i = g at *
        unfold sub32 sub64
        simp only [Nat.shiftRight_eq_div_pow]
        omega
      rw [e]
      exact Sim.bind (sim_rd _ _) (fun c => rest c)

theorem roundRestart_sim (p : XmssParams) (leafIdx : Nat) (hh : p.h ≤ 30) (hl : leafIdx < 2 ^ p.h) :
    ∀ (m i : Nat) (st : BdsState), i + m ≤ p.h - 2 → Sim (Qrl.roundRestart p leafIdx m i st) (roundRestart p leafIdx m i st)
  | 0, _, _, _ => Sim.rfl' _
  | m + 1, i, st, hi => by
    have hpw : 2 ^ p.h ≤ 2 ^ 30 := Nat.pow_le_pow_right (by omega) hh
    have hpi : 2 ^ i ≤ 2 ^ 28 := Nat.pow_le_pow_right (by omega) (by omega)
    rw [Qrl.roundRestart.eq_def, roundRestart.eq_def]
    dsimp only
    rw [Nat.shiftLeft_eq, Nat.one_mul, Nat.mod_eq_of_lt (show leafIdx + 1 + 3 * 2 ^ i < 2 ^ 32 by omega),
      Nat.mod_eq_of_lt (show p.h < 64 by omega)]
    refine Sim.ite Iff.rfl (fun _ => Sim.bind (sim_rd _ _) (fun t => Sim.bind (sim_wr _ _ _) (fun ths => ?_))) (fun _ => ?_)
    · exact roundRestart_sim p leafIdx hh hl m (i + 1) _ (by omega)
    · exact roundRestart_sim p leafIdx hh hl m (i + 1) _ (by omega)

theorem bdsRound_sim (st : BdsState) (leafIdx : Nat) (sk : Bytes) (p : XmssParams) (ps : Bytes) (a : Adrs)
    (hs : 32 ≤ sk.length) (hp : 32 ≤ ps.length) (hh : p.h ≤ 30) (hh2 : 4 ≤ p.h) (hl : leafIdx < 2 ^ p.h)
    (hr : st.retain.length ≤ 1) :
    Sim (Qrl.bdsRound S hf st leafIdx (sk.take 32) p (ps.take 32) a) (bdsRound S hf st leafIdx sk p ps a) := by
  have hpw : 2 ^ p.h ≤ 2 ^ 30 := Nat.pow_le_pow_right (by omega) hh
  unfold Qrl.bdsRound bdsRound
  rw [findTau_rs]
  have ht := findTau_le leafIdx p.h p.h 0 (by omega)
  have hb := findTau_bits leafIdx p.h p.h 0 (by omega)
  generalize Qrl.findTau leafIdx p.h p.h 0 = tau at *
  dsimp only
  have tail : ∀ (buf : Cell × Cell) (st : BdsState), st.retain.length ≤ 1 → Sim
      (if tau = 0 then do
        let x ← Qrl.genLeafWots S hf (sk.take 32) p (ps.take 32) ((a.derive 1).setLtree leafIdx) ((a.derive 0).setOTS leafIdx)
        let auth ← Qrl.wr st.auth 0 (some x.1)
        .ok { st with auth := auth }
      else do
        let l ← Outcome.ofOption buf.1
        let r ← Outcome.ofOption buf.2
        let auth ← Qrl.wr st.auth tau (some (Qrl.hashH S hf (l ++ r) (ps.take 32)
          (((a.derive 2).setTreeHeight (tau - 1)).setTreeIndex (leafIdx >>> tau))).1)
        let st ← Qrl.roundAuth p leafIdx tau 0 { st with auth := auth }
        Qrl.roundRestart p leafIdx (if tau < p.h - 2 then tau else p.h - 2) 0 st)
      (if tau = 0 then do
        let x ← genLeafWots S hf sk p ps (setLtree (derive a 1) leafIdx) (setOTS (derive a 0) leafIdx)
        let auth ← wr st.auth 0 (some x.1)
        ok { st with auth := auth }
      else do
        let x ← hashH S hf (nodeBytes buf.1 ++ nodeBytes buf.2) ps
          (setTreeIndex (setTreeHeight (derive a 2) (tau - 1)) (leafIdx >>> tau))
        let auth ← wr st.auth tau (some x.1)
        let st ← roundAuth p leafIdx tau 0 { st with auth := auth }
        roundRestart p leafIdx (if tau < p.h - 2 then tau else p.h - 2) 0 st) := by
    intro buf st hr
    refine Sim.ite Iff.rfl (fun _ => ?_) (fun _ => ?_)
    · exact Sim.bind (genLeafWots_sim S hf sk p ps _ _ hs hp) (fun x => Sim.bind (sim_wr _ _ _) (fun _ => Sim.rfl' _))
    · obtain ⟨c1, c2⟩ := buf
      cases c1 with
      | none => exact Sim.ub _
      | some l =>
        cases c2 with
        | none => exact Sim.ub _
        | some r =>
          simp only [Outcome.ofOption_some, Outcome.ok_bind, nodeBytes, Option.getD_some, hashH_rs S hf _ ps _ hp, ok_bind]
          refine Sim.bind (sim_wr _ _ _) (fun auth => ?_)
          refine Sim.bind (roundAuth_sim p leafIdx tau hh hh2 (by omega) ht (fun j hj => hb j (by omega) hj) _ _ _ (by omega) hr)
            (fun st' => ?_)
          apply roundRestart_sim p leafIdx hh hl
          split <;> omega
  have mid : ∀ buf : Cell × Cell, Sim
      (do
        let st ← if (leafIdx >>> (tau + 1)) &&& 1 = 0 ∧ tau < p.h - 1 then do
            let x ← Qrl.rd st.auth tau
            let keep ← Qrl.wr st.keep (tau >>> 1) x
            .ok { st with keep := keep }
          else .ok st
        if tau = 0 then do
          let x ← Qrl.genLeafWots S hf (sk.take 32) p (ps.take 32) ((a.derive 1).setLtree leafIdx) ((a.derive 0).setOTS leafIdx)
          let auth ← Qrl.wr st.auth 0 (some x.1)
          .ok { st with auth := auth }
        else do
          let l ← Outcome.ofOption buf.1
          let r ← Outcome.ofOption buf.2
          let auth ← Qrl.wr st.auth tau (some (Qrl.hashH S hf (l ++ r) (ps.take 32)
            (((a.derive 2).setTreeHeight (tau - 1)).setTreeIndex (leafIdx >>> tau))).1)
          let st ← Qrl.roundAuth p leafIdx tau 0 { st with auth := auth }
          Qrl.roundRestart p leafIdx (if tau < p.h - 2 then tau else p.h - 2) 0 st)
      (do
        let st ← if (leafIdx >>> (tau + 1)) &&& 1 = 0 ∧ tau < p.h - 1 then do
            let x ← rd st.auth tau
            let keep ← wr st.keep (tau >>> 1) x
            ok { st with keep := keep }
          else ok st
        if tau = 0 then do
          let x ← genLeafWots S hf sk p ps (setLtree (derive a 1) leafIdx) (setOTS (derive a 0) leafIdx)
          let auth ← wr st.auth 0 (some x.1)
          ok { st with auth := auth }
        else do
          let x ← hashH S hf (nodeBytes buf.1 ++ nodeBytes buf.2) ps
            (setTreeIndex (setTreeHeight (derive a 2) (tau - 1)) (leafIdx >>> tau))
          let auth ← wr st.auth tau (some x.1)
          let st ← roundAuth p leafIdx tau 0 { st with auth := auth }
          roundRestart p leafIdx (if tau < p.h - 2 then tau else p.h - 2) 0 st) := by
    intro buf
    refine Sim.ite Iff.rfl (fun _ => ?_) (fun _ => tail buf st hr)
    exact Sim.bind (sim_rd _ _) (fun x => Sim.bind (sim_wr _ _ _) (fun keep => tail buf _ hr))
  refine Sim.ite Iff.rfl (fun _ => ?_) (fun _ => mid (none, none))
  exact Sim.bind (sim_rd _ _) (fun x => Sim.bind (sim_rd _ _) (fun y => mid (x, y)))

end Qrl.Rs
