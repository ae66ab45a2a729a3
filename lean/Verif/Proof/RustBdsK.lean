import Verif.Model.RustBdsK
import Verif.Proof.BdsKApi
import Verif.Proof.RustSlices
/-!
# Proofs about the Rust crate's fast functions with any `k` (C93)
-/

namespace Qrl.Rs.RK

open Res

variable (S : Sha256) (hf : HashFn) {κ : Nat}

/-- The byte offset of a retained node: in the wrapping build it is that of the C code, and it fits if `k ≤ 26`. -/
theorem start_eq (b : Build) {x : Nat} (h : b = .release ∨ x < 2 ^ 27) : ∃ s, u32 b (x * 32) = ok s ∧ s / 32 = BK.retainSlot x := by
  by_cases hx : x * 32 < 2 ^ 32
  · exact ⟨_, u32_lt b hx, by rw [BK.retainSlot, Nat.mod_eq_of_lt hx]⟩
  · rcases h with rfl | h
    · exact ⟨_, by rw [u32, if_neg hx], rfl⟩
    · omega

theorem pow_ge (j : Nat) : j + 1 ≤ 2 ^ j := Nat.lt_two_pow_self

/-- Row and place of a retained node. -/
theorem index_lt {h κ nodeh g : Nat} (h26 : κ ≤ 26) (hn : h - κ ≤ nodeh) (hlt : nodeh < h) (hg : g < 2 ^ (h - nodeh)) :
    2 ^ (h - 1 - nodeh) + nodeh - h + g >>> 1 < 2 ^ 27 := by
  have h1 : 2 ^ (h - 1 - nodeh) ≤ 2 ^ 25 := Nat.pow_le_pow_right (by omega) (by omega)
  have h2 : 2 ^ (h - nodeh) ≤ 2 ^ 26 := Nat.pow_le_pow_right (by omega) (by omega)
  rw [Nat.shiftRight_eq_div_pow]
  omega

theorem shr_lt {i h l : Nat} (hi : i < 2 ^ h) (hl : l ≤ h) : i >>> l < 2 ^ (h - l) := by
  rw [Nat.shiftRight_eq_div_pow]
  apply Nat.div_lt_of_lt_mul
  rw [← Nat.pow_add, show l + (h - l) = h by omega]
  exact hi

theorem setupSave_sim (b : Build) (hb26 : b = .release ∨ κ ≤ 26) (p : XmssParams) (i nodeh : Nat) (c : Cell) (st : BdsState) (hh : p.h ≤ 30)
    (hi : i < 2 ^ p.h) (hodd : (i >>> nodeh) % 2 = 1) :
    Sim (BK.setupSave κ p i nodeh c st) (setupSave κ b p i nodeh c st) := by
  have hpw : 2 ^ p.h ≤ 2 ^ 30 := Nat.pow_le_pow_right (by omega) hh
  unfold BK.setupSave setupSave
  refine Sim.ite Iff.rfl (fun _ => Sim.bind (sim_wr _ _ _) (fun _ => Sim.rfl' _)) (fun h1 => ?_)
  refine Sim.ite Iff.rfl (fun _ => setThNode_sim _ _ _) (fun h2 => ?_)
  refine Sim.ite Iff.rfl (fun h3 => ?_) (fun _ => Sim.rfl' _)
  by_cases h4 : nodeh ≥ p.h
  · rw [if_pos h4]; exact Sim.ub _
  · rw [if_neg h4]
    have hg := shr_lt hi (show nodeh ≤ p.h by omega)
    have hs : i >>> nodeh ≤ i := by rw [Nat.shiftRight_eq_div_pow]; exact Nat.div_le_self _ _
    generalize i >>> nodeh = g at *
    have hpw' : (1 <<< (p.h - 1 - nodeh)) = 2 ^ (p.h - 1 - nodeh) := by rw [Nat.shiftLeft_eq, Nat.one_mul]
    rw [hpw']
    have hge := pow_ge (p.h - 1 - nodeh)
    have hle : 2 ^ (p.h - 1 - nodeh) ≤ 2 ^ 29 := Nat.pow_le_pow_right (by omega) (by omega)
    rw [if_pos ⟨by omega, by omega, by omega⟩]
    have e : (2 ^ (p.h - 1 - nodeh) + nodeh + sub32 0 p.h + sub32 g 3 >>> 1) % 2 ^ 32 =
        2 ^ (p.h - 1 - nodeh) + nodeh - p.h + (g - 3) >>> 1 := by
      unfold sub32
      simp only [Nat.shiftRight_eq_div_pow]
      omega
    rw [e]
    obtain ⟨s, e1, e2⟩ := start_eq b (x := 2 ^ (p.h - 1 - nodeh) + nodeh - p.h + (g - 3) >>> 1) (by
      rcases hb26 with hb | h26
      · exact Or.inl hb
      · have := index_lt h26 h3 (show nodeh < p.h by omega) (g := g - 3) (by omega)
        exact Or.inr this)
    rw [e1, ok_bind, e2]
    exact Sim.bind (sim_wr _ _ _) (fun _ => Sim.rfl' _)

theorem roundAuth_sim (b : Build) (hb26 : b = .release ∨ κ ≤ 26) (p : XmssParams) (leafIdx tau : Nat) (hh : p.h ≤ 30)
    (hl : leafIdx < 2 ^ p.h) (ht : tau ≤ p.h) (hb : ∀ j, j < tau → (leafIdx >>> j) &&& 1 = 1) :
    ∀ (m i : Nat) (st : BdsState), i + m = tau →
    Sim (BK.roundAuth κ p leafIdx m i st) (roundAuth κ b p leafIdx m i st)
  | 0, _, _, _ => Sim.rfl' _
  | m + 1, i, st, hi => by
    have hpw : 2 ^ p.h ≤ 2 ^ 30 := Nat.pow_le_pow_right (by omega) hh
    rw [BK.roundAuth.eq_def, roundAuth.eq_def]
    dsimp only
    have rest : ∀ c : Cell, Sim (do let auth ← Qrl.wr st.auth i c; BK.roundAuth κ p leafIdx m (i + 1) { st with auth := auth })
        (do let auth ← wr st.auth i c; roundAuth κ b p leafIdx m (i + 1) { st with auth := auth }) := fun c =>
      Sim.bind (sim_wr _ _ _) (fun auth => roundAuth_sim b hb26 p leafIdx tau hh hl ht hb m (i + 1) _ (by omega))
    by_cases h1 : i < p.h - κ
    · rw [if_pos h1, if_pos h1]
      exact Sim.bind (sim_rd _ _) (fun t => rest _)
    · rw [if_neg h1, if_neg h1]
      have hbit := hb i (by omega)
      rw [Nat.and_one_is_mod] at hbit
      have hs : leafIdx >>> i ≤ leafIdx := by rw [Nat.shiftRight_eq_div_pow]; exact Nat.div_le_self _ _
      have hg := shr_lt hl (show i ≤ p.h by omega)
      have hge := pow_ge (p.h - 1 - i)
      have hle : 2 ^ (p.h - 1 - i) ≤ 2 ^ 29 := Nat.pow_le_pow_right (by omega) (by omega)
      have hge1 : 1 ≤ leafIdx >>> i := by
        generalize leafIdx >>> i = g at hbit
        omega
      rw [if_pos ⟨by omega, by omega, hge1⟩]
      have e : ((((1 <<< (p.h - 1 - i)) + i + sub32 0 p.h) % 2 ^ 32) + ((sub64 (leafIdx >>> i) 1 >>> 1) % 2 ^ 32)) % 2 ^ 32 =
          2 ^ (p.h - 1 - i) + i - p.h + ((leafIdx >>> i) - 1) >>> 1 := by
        rw [Nat.shiftLeft_eq, Nat.one_mul]
        generalize leafIdx >>> i = g at *
        unfold sub32 sub64
        simp only [Nat.shiftRight_eq_div_pow]
        omega
      rw [e]
      obtain ⟨s, e1, e2⟩ := start_eq b (x := 2 ^ (p.h - 1 - i) + i - p.h + ((leafIdx >>> i) - 1) >>> 1) (by
        rcases hb26 with hb | h26
        · exact Or.inl hb
        · have := index_lt h26 (show p.h - κ ≤ i by omega) (show i < p.h by omega) (g := (leafIdx >>> i) - 1) (Nat.lt_of_le_of_lt (Nat.sub_le _ _) hg)
          exact Or.inr this)
      rw [e1]
      simp only [ok_bind, e2]
      exact Sim.bind (sim_rd _ _) (fun c => rest c)

theorem bdsTreehashUpdate_sim (sk : Bytes) (p : XmssParams) (ps : Bytes) (a : Adrs) (hs : 32 ≤ sk.length)
    (hp : 32 ≤ ps.length) : ∀ (u : Nat) (st : BdsState),
    Sim (BK.bdsTreehashUpdate κ S hf (sk.take 32) p (ps.take 32) a u st) (bdsTreehashUpdate κ S hf sk p ps a u st)
  | 0, _ => Sim.rfl' _
  | u + 1, st => by
    rw [BK.bdsTreehashUpdate.eq_def, bdsTreehashUpdate.eq_def]
    dsimp only
    refine Sim.bind (pickLevel_sim st p _ _ _ _) (fun level => ?_)
    refine Sim.ite Iff.rfl (fun _ => Sim.rfl' _) (fun _ => ?_)
    exact Sim.bind (treehashUpdate_sim S hf level st sk p ps a hs hp) (fun st' => bdsTreehashUpdate_sim sk p ps a hs hp u st')

theorem bdsRound_sim (b : Build) (hκ : 2 ≤ κ) (hb26 : b = .release ∨ κ ≤ 26) (st : BdsState) (leafIdx : Nat) (sk : Bytes) (p : XmssParams) (ps : Bytes) (a : Adrs)
    (hs : 32 ≤ sk.length) (hp : 32 ≤ ps.length) (hκh : κ < p.h) (hh : p.h ≤ 30) (hl : leafIdx < 2 ^ p.h)
     :
    Sim (BK.bdsRound κ S hf st leafIdx (sk.take 32) p (ps.take 32) a) (bdsRound κ b S hf st leafIdx sk p ps a) := by
  have hpw : 2 ^ p.h ≤ 2 ^ 30 := Nat.pow_le_pow_right (by omega) hh
  unfold BK.bdsRound bdsRound
  rw [findTau_rs]
  have ht := findTau_le leafIdx p.h p.h 0 (by omega)
  have hb := findTau_bits leafIdx p.h p.h 0 (by omega)
  generalize Qrl.findTau leafIdx p.h p.h 0 = tau at *
  dsimp only
  have tail : ∀ (buf : Cell × Cell) (st : BdsState),  Sim
      (if tau = 0 then do
        let x ← Qrl.genLeafWots S hf (sk.take 32) p (ps.take 32) ((a.derive 1).setLtree leafIdx) ((a.derive 0).setOTS leafIdx)
        let auth ← Qrl.wr st.auth 0 (some x.1)
        .ok { st with auth := auth }
      else do
        let l ← Outcome.ofOption buf.1
        let r ← Outcome.ofOption buf.2
        let auth ← Qrl.wr st.auth tau (some (Qrl.hashH S hf (l ++ r) (ps.take 32)
          (((a.derive 2).setTreeHeight (tau - 1)).setTreeIndex (leafIdx >>> tau))).1)
        let st ← BK.roundAuth κ p leafIdx tau 0 { st with auth := auth }
        Qrl.roundRestart p leafIdx (if tau < p.h - κ then tau else p.h - κ) 0 st)
      (if tau = 0 then do
        let x ← genLeafWots S hf sk p ps (setLtree (derive a 1) leafIdx) (setOTS (derive a 0) leafIdx)
        let auth ← wr st.auth 0 (some x.1)
        ok { st with auth := auth }
      else do
        let x ← hashH S hf (nodeBytes buf.1 ++ nodeBytes buf.2) ps
          (setTreeIndex (setTreeHeight (derive a 2) (tau - 1)) (leafIdx >>> tau))
        let auth ← wr st.auth tau (some x.1)
        let st ← roundAuth κ b p leafIdx tau 0 { st with auth := auth }
        roundRestart p leafIdx (if tau < p.h - κ then tau else p.h - κ) 0 st) := by
    intro buf st
    refine Sim.ite Iff.rfl (fun _ => ?_) (fun _ => ?_)
    · exact Sim.bind (genLeafWots_sim S hf sk p ps _ _ hs hp) (fun x => Sim.bind (sim_wr _ _ _) (fun _ => Sim.rfl' _))
    · obtain ⟨c1, c2⟩ := buf
      cases c1 with
      | none => exact Sim.ub _
      | some l =>
        cases c2 with
        | none => exact Sim.ub _
        | some r =>
          simp only [Outcome.ofOption_some, Outcome.ok_bind, nodeBytes, Option.getD_some, hashH_rs S hf _ ps _ hp, ok_bind]
          refine Sim.bind (sim_wr _ _ _) (fun auth => ?_)
          refine Sim.bind (roundAuth_sim b hb26 p leafIdx tau hh hl ht (fun j hj => hb j (by omega) hj) _ _ _ (by omega))
            (fun st' => ?_)
          apply roundRestart_sim p leafIdx hh hl
          split <;> omega
  have mid : ∀ buf : Cell × Cell, Sim
      (do
        let st ← if (leafIdx >>> (tau + 1)) &&& 1 = 0 ∧ tau < p.h - 1 then do
            let x ← Qrl.rd st.auth tau
            let keep ← Qrl.wr st.keep (tau >>> 1) x
            .ok { st with keep := keep }
          else .ok st
        if tau = 0 then do
          let x ← Qrl.genLeafWots S hf (sk.take 32) p (ps.take 32) ((a.derive 1).setLtree leafIdx) ((a.derive 0).setOTS leafIdx)
          let auth ← Qrl.wr st.auth 0 (some x.1)
          .ok { st with auth := auth }
        else do
          let l ← Outcome.ofOption buf.1
          let r ← Outcome.ofOption buf.2
          let auth ← Qrl.wr st.auth tau (some (Qrl.hashH S hf (l ++ r) (ps.take 32)
            (((a.derive 2).setTreeHeight (tau - 1)).setTreeIndex (leafIdx >>> tau))).1)
          let st ← BK.roundAuth κ p leafIdx tau 0 { st with auth := auth }
          Qrl.roundRestart p leafIdx (if tau < p.h - κ then tau else p.h - κ) 0 st)
      (do
        let st ← if (leafIdx >>> (tau + 1)) &&& 1 = 0 ∧ tau < p.h - 1 then do
            let x ← rd st.auth tau
            let keep ← wr st.keep (tau >>> 1) x
            ok { st with keep := keep }
          else ok st
        if tau = 0 then do
          let x ← genLeafWots S hf sk p ps (setLtree (derive a 1) leafIdx) (setOTS (derive a 0) leafIdx)
          let auth ← wr st.auth 0 (some x.1)
          ok { st with auth := auth }
        else do
          let x ← hashH S hf (nodeBytes buf.1 ++ nodeBytes buf.2) ps
            (setTreeIndex (setTreeHeight (derive a 2) (tau - 1)) (leafIdx >>> tau))
          let auth ← wr st.auth tau (some x.1)
          let st ← roundAuth κ b p leafIdx tau 0 { st with auth := auth }
          roundRestart p leafIdx (if tau < p.h - κ then tau else p.h - κ) 0 st) := by
    intro buf
    refine Sim.ite Iff.rfl (fun _ => ?_) (fun _ => tail buf st)
    exact Sim.bind (sim_rd _ _) (fun x => Sim.bind (sim_wr _ _ _) (fun keep => tail buf _))
  refine Sim.ite Iff.rfl (fun _ => ?_) (fun _ => mid (none, none))
  exact Sim.bind (sim_rd _ _) (fun x => Sim.bind (sim_rd _ _) (fun y => mid (x, y)))

/-- Merging leaf `i`: the right node that is saved is an odd one. -/
theorem setupMerge_sim (b : Build) (hb26 : b = .release ∨ κ ≤ 26) (p : XmssParams) (ps : Bytes) (hp : 32 ≤ ps.length) (hh : p.h ≤ 30)
    (N : Nat → Nat → Bytes) (i : Nat) (hi : i < 2 ^ p.h) (q : Nat) :
    ∀ (l : Nat) (X : Bytes) (nodes : List Cell) (levels : List (Option Nat)) (st : BdsState) (a : Adrs),
    i + 1 = 2 ^ l * (q + 1) → Holds nodes levels ((l, X) :: segE N l 0 q) →
    Sim (BK.setupMerge κ S hf p (ps.take 32) i i ((segE N l 0 q).length + 1) nodes levels st a)
      (setupMerge κ b S hf p ps i i ((segE N l 0 q).length + 1) nodes levels st a) := by
  induction q using Nat.strongRecOn with
  | _ q ih =>
    intro l X nodes levels st a hq hH
    rcases Nat.mod_two_eq_zero_or_one q with h2 | h2
    · cases hs : segE N l 0 q with
      | nil => exact Sim.rfl' _
      | cons e es =>
        obtain ⟨v, x⟩ := e
        rw [hs] at hH
        obtain ⟨_, hl1, _, hl2, _⟩ := hH
        simp only [List.length_cons] at hl1
        have hd := segE_head_dvd N q l 0 v x es hs
        have hne : ¬ l = v := by
          intro e; subst e
          simp at hd; omega
        have g1 : Qrl.rdUse levels (es.length + 1) = .ok l := rdUse_eq_ok hl1
        have g2 : Qrl.rdUse levels es.length = .ok v := rdUse_eq_ok hl2
        rw [List.length_cons, BK.setupMerge.eq_def, setupMerge.eq_def]
        dsimp only
        rw [g1, g2, sim_rdLevel _ _ _ g1, sim_rdLevel _ _ _ g2, Outcome.ok_bind, Outcome.ok_bind, ok_bind, ok_bind, if_neg hne, if_neg hne]
        exact Sim.rfl' _
    · rw [segE_odd _ _ _ _ h2] at hH ⊢
      simp only [Nat.zero_add, Nat.zero_div] at hH ⊢
      obtain ⟨hn1, hl1, hn2, hl2, hrest⟩ := hH
      simp only [List.length_cons] at hl1 hn1
      have g1 : Qrl.rdUse levels ((segE N (l + 1) 0 (q / 2)).length + 1) = .ok l := rdUse_eq_ok hl1
      have g2 : Qrl.rdUse levels (segE N (l + 1) 0 (q / 2)).length = .ok l := rdUse_eq_ok hl2
      have hshr : i >>> l = q := by
        have hpl := Nat.two_pow_pos l
        rw [Nat.shiftRight_eq_div_pow]
        have : i = 2 ^ l * q + (2 ^ l - 1) := by rw [Nat.mul_add, Nat.mul_one] at hq; omega
        rw [this, Nat.mul_add_div hpl, Nat.div_eq_of_lt (by omega), Nat.add_zero]
      have hq' : i + 1 = 2 ^ (l + 1) * (q / 2 + 1) := by
        rw [hq, Nat.pow_succ, Nat.mul_assoc]; congr 1; omega
      have hlt := (List.getElem?_eq_some_iff.mp hn2).1
      have hlt2 := (List.getElem?_eq_some_iff.mp hl2).1
      rw [List.length_cons, BK.setupMerge.eq_def, setupMerge.eq_def]
      dsimp only
      rw [g1, g2, sim_rdLevel _ _ _ g1, sim_rdLevel _ _ _ g2, Outcome.ok_bind, Outcome.ok_bind, ok_bind, ok_bind, if_pos rfl, if_pos rfl]
      refine Sim.bind (sim_rd _ _) (fun top => ?_)
      refine Sim.bind (setupSave_sim b hb26 p i l top st hh hi (by rw [hshr]; exact h2)) (fun st' => ?_)
      refine Sim.bind (sim_rdNode _ _) (fun x => Sim.bind (sim_rdNode _ _) (fun y => ?_))
      simp only [hashH_rs S hf _ ps _ hp, ok_bind]
      refine Sim.bind' (sim_wr _ _ _) (fun n hn => Sim.bind' (sim_wr _ _ _) (fun lv hlv => ?_))
      rw [wr_eq_ok _ hlt] at hn
      rw [wr_eq_ok _ hlt2] at hlv
      have hn' := Outcome.ok.inj hn
      have hlv' := Outcome.ok.inj hlv
      subst hn' hlv'
      exact ih (q / 2) (by omega) (l + 1) _ _ _ _ _ hq' (hrest.push hlt hlt2 _ _)

theorem setupLoop_sim (b : Build) (hb26 : b = .release ∨ κ ≤ 26) (p : XmssParams) (sk ps : Bytes) (h1 : 1 ≤ p.wots.len)
    (hs : 32 ≤ sk.length) (hp : 32 ≤ ps.length) (hκh : κ < p.h) (hh : 4 ≤ p.h) (hh30 : p.h ≤ 30) (st0 : BdsState) (m : Nat) :
    ∀ (i : Nat) (th : THStack) (st : BdsState) (o4 o5 o6 o7 t4 t5 t6 t7 b1 c d : Nat),
      i + m = 2 ^ p.h → th.nodes.length = p.h + 1 → th.levels.length = p.h + 1 →
      Holds th.nodes th.levels (segE (Spec.node (hf.prim S) p.wots.w p.wots.len (sk.take 32) (ps.take 32)) 0 0 i) →
      th.offset = (segE (Spec.node (hf.prim S) p.wots.w p.wots.len (sk.take 32) (ps.take 32)) 0 0 i).length →
      BK.SetupInv κ (Spec.node (hf.prim S) p.wots.w p.wots.len (sk.take 32) (ps.take 32)) p.h i 0 st0 st →
      Sim (BK.setupLoop κ S hf (sk.take 32) p (ps.take 32) m i i th st ⟨0, 0, 0, 0, o4, o5, o6, o7⟩ ⟨0, 0, 0, 1, t4, t5, t6, t7⟩
          ⟨0, 0, 0, 2, 0, b1, c, d⟩)
        (setupLoop κ b S hf sk p ps m i i th st ⟨0, 0, 0, 0, o4, o5, o6, o7⟩ ⟨0, 0, 0, 1, t4, t5, t6, t7⟩ ⟨0, 0, 0, 2, 0, b1, c, d⟩) := by
  induction m with
  | zero => intro i th st o4 o5 o6 o7 t4 t5 t6 t7 b1 c d _ _ _ _ _ _; exact Sim.rfl' _
  | succ m ih =>
    intro i th st o4 o5 o6 o7 t4 t5 t6 t7 b1 c d hm hn hl hH ho I
    obtain ⟨t5', t6', t7', o5', o6', o7', hleaf⟩ := genLeafWots_eq S hf (sk.take 32) p (ps.take 32) h1 i t5 t6 t7 o5 o6 o7
    have hlen := length_segE (Spec.node (hf.prim S) p.wots.w p.wots.len (sk.take 32) (ps.take 32)) p.h 0 0 i (by omega)
    have hmerge := fun nodes levels st1 hpush I1 => BK.setupMerge_eq S hf p (sk.take 32) (ps.take 32) hκh hh hh30 i (by omega) st0 i 0 nodes
      levels st1 b1 c d (by simp) hpush I1
    have hleafN : Spec.leaf (hf.prim S) p.wots.w p.wots.len (sk.take 32) (ps.take 32) i =
      Spec.node (hf.prim S) p.wots.w p.wots.len (sk.take 32) (ps.take 32) 0 i := rfl
    rw [hleafN] at hleaf
    generalize hN : Spec.node (hf.prim S) p.wots.w p.wots.len (sk.take 32) (ps.take 32) = N at *
    rw [BK.setupLoop.eq_def, setupLoop.eq_def]
    dsimp only
    refine Sim.bind' (genLeafWots_sim S hf sk p ps _ _ hs hp) (fun x hx => ?_)
    have hx' := Outcome.ok.inj (hx.symm.trans (show Qrl.genLeafWots S hf (sk.take 32) p (ps.take 32) _ _ = _ from hleaf))
    subst hx'
    dsimp only
    refine Sim.bind' (sim_wr _ _ _) (fun n hn1 => Sim.bind' (sim_wr _ _ _) (fun lv hl1 => ?_))
    rw [ho, wr_eq_ok _ (by omega)] at hn1 hl1
    have hn2 := Outcome.ok.inj hn1
    have hl2 := Outcome.ok.inj hl1
    have hpush := hH.push (by omega) (by omega) (N 0 i) 0
    rw [hn2, hl2] at hpush
    have hnl : n.length = p.h + 1 := by rw [← hn2]; simpa using hn
    have hll : lv.length = p.h + 1 := by rw [← hl2]; simpa using hl
    have rest : ∀ st' : BdsState, BK.SetupInv κ N p.h i 0 st0 st' → Sim
        (do
          let y ← BK.setupMerge κ S hf p (ps.take 32) i i (th.offset + 1) n lv st' ⟨0, 0, 0, 2, 0, b1, c, d⟩
          BK.setupLoop κ S hf (sk.take 32) p (ps.take 32) m (i + 1) (i + 1) y.1 y.2.1 ⟨0, 0, 0, 0, i, o5', o6', o7'⟩
            ⟨0, 0, 0, 1, i, t5', t6', t7'⟩ y.2.2)
        (do
          let y ← setupMerge κ b S hf p ps i i (th.offset + 1) n lv st' ⟨0, 0, 0, 2, 0, b1, c, d⟩
          setupLoop κ b S hf sk p ps m (i + 1) (i + 1) y.1 y.2.1 ⟨0, 0, 0, 0, i, o5', o6', o7'⟩ ⟨0, 0, 0, 1, i, t5', t6', t7'⟩ y.2.2) := by
      intro st' I'
      obtain ⟨th2, st2, b', c', d', e1, e2, e3, e4, e5, e6⟩ := hmerge n lv st' hpush I'
      rw [ho]
      refine Sim.bind' (setupMerge_sim S hf b hb26 p ps hp hh30 N i (by omega) i 0 _ n lv st' _ (by simp) hpush) (fun y hy => ?_)
      have hy' := Outcome.ok.inj (hy.symm.trans e1)
      subst hy'
      exact ih (i + 1) th2 st2 i o5' o6' o7' i t5' t6' t7' b' c' d' (by omega) (by rw [e4]; exact hnl) (by rw [e5]; exact hll) e2 e3 e6
    refine Sim.ite Iff.rfl (fun hc => ?_) (fun _ => rest st I)
    obtain ⟨hc1, hc2⟩ := hc
    refine Sim.bind (sim_rd _ _) (fun cell => Sim.bind' (setThNode_sim _ _ _) (fun st' hst => rest st' ?_))
    obtain ⟨tr, g1, g2, g3, g4, g5⟩ := I.th 0 (by omega)
    have hst' := Outcome.ok.inj (hst.symm.trans (setThNode_eq g1 _))
    subst hst'
    refine ⟨I.stack, I.levels, I.offset, I.keep, I.lauth, by simpa using I.lth, I.lretain, I.auth, ?_, I.retain⟩
    intro k hk
    simp only
    by_cases hk0 : 0 = k
    · subst hk0
      refine ⟨{ tr with node := cell }, ?_, g2, g3, g4, ?_⟩
      · rw [List.getElem?_set, if_pos rfl, if_pos (by rw [I.lth]; omega)]
      · intro hc; omega
    · obtain ⟨tr', k1, k2⟩ := I.th k hk
      exact ⟨tr', by rw [List.getElem?_set, if_neg hk0]; exact k1, k2⟩

theorem treehashSetup_sim (b : Build) (hb26 : b = .release ∨ κ ≤ 26) (p : XmssParams) (sk ps : Bytes) (h1 : 1 ≤ p.wots.len)
    (hs : 32 ≤ sk.length) (hp : 32 ≤ ps.length) (hκh : κ < p.h) (hh : 4 ≤ p.h) (hh30 : p.h ≤ 30) :
    Sim (BK.treehashSetup κ S hf p.h 0 (BK.bdsInit κ p.h) (sk.take 32) p (ps.take 32) {})
      (treehashSetup κ b S hf p.h (bdsInit κ p.h) sk p ps {}) := by
  have hpos := Nat.two_pow_pos p.h
  unfold BK.treehashSetup treehashSetup
  dsimp only
  rw [if_neg (by omega), shl1_lt b (by omega), ok_bind]
  obtain ⟨ths, e1, e2, e3⟩ := setupInit_eq (p.h - κ) (p.h - κ) 0 (BK.bdsInit κ p.h).treehash (by omega)
    (by simp [BK.bdsInit]) (fun k hk => by omega)
  refine Sim.bind' (setupInit_sim _ _ _) (fun ths' hths => ?_)
  have hths' := Outcome.ok.inj (hths.symm.trans e1)
  subst hths'
  refine Sim.bind (setupLoop_sim S hf b hb26 p sk ps h1 hs hp hκh hh hh30 (BK.bdsInit κ p.h) (2 ^ p.h) 0
    ⟨List.replicate (p.h + 1) none, List.replicate (p.h + 1) none, 0⟩ { BK.bdsInit κ p.h with treehash := ths' }
    0 0 0 0 0 0 0 0 0 0 0 (by omega) (by simp) (by simp) (by rw [segE_zero]; trivial) (by rw [segE_zero]; rfl)
    ⟨rfl, rfl, rfl, rfl, by simp [BK.bdsInit], e2, by simp [BK.bdsInit, Nat.one_shiftLeft], fun k _ hc => by
      have := Nat.two_pow_pos (k + 1); omega, fun k hk => by
      obtain ⟨tr, g1, g2, g3, g4⟩ := e3 k hk
      refine ⟨tr, g1, g2, g3, g4, fun hc => ?_⟩
      have := Nat.two_pow_pos (k + 2); omega, fun d y _ _ _ hc => by
      have := Nat.mul_pos (Nat.two_pow_pos (p.h - d)) (show 0 < 2 * y + 4 by omega); omega⟩) (fun y => ?_)
  exact Sim.bind (sim_rdNode _ _) (fun _ => Sim.rfl' _)

/-- One step of the traversal, at a state of the C traversal. -/
theorem adv_step_rs (bd : Build) (hf : HashFn) (p : XmssParams) (sk ps : Bytes) (h1 : 1 ≤ p.wots.len) (hs : sk.length = 32)
    (hps : ps.length = 32)
    (hk : BK.KOk κ p.h) (hh4 : 4 ≤ p.h) (hh30 : p.h ≤ 30) (hev : p.h % 2 = 0) {st0 : BdsState}
    (H : BK.BdsInv κ (Spec.node (hf.prim S) p.wots.w p.wots.len sk ps) p.h 0 (fun _ => none) st0) (t : Nat)
    (ht : t + 1 < 2 ^ p.h) (a b c d e : Nat) :
    (bdsRound κ bd S hf (BK.stAt κ S hf p sk ps st0 t) t sk p ps ⟨0, 0, 0, a, b, c, d, e⟩ >>= fun st =>
      bdsTreehashUpdate κ S hf sk p ps ⟨0, 0, 0, a, b, c, d, e⟩ ((p.h - κ) >>> 1) st) =
      ok (BK.stAt κ S hf p sk ps st0 (t + 1)) := by
  have hcpp := BK.adv_step S hf p sk ps h1 hk hh4 hh30 hev H t ht a b c d e
  have s1 := bdsRound_sim S hf bd hk.1.1 (Or.inr hk.2) (BK.stAt κ S hf p sk ps st0 t) t sk p ps ⟨0, 0, 0, a, b, c, d, e⟩ (by omega) (by omega) hk.1.2.2 hh30
    (by omega)
  rw [take32_of hs, take32_of hps] at s1
  refine Sim.bind s1 (fun st => ?_) _ hcpp
  have s2 := bdsTreehashUpdate_sim (κ := κ) S hf sk p ps ⟨0, 0, 0, a, b, c, d, e⟩ (by omega) (by omega) ((p.h - κ) >>> 1) st
  rw [take32_of hs, take32_of hps] at s2
  exact s2

theorem adv_skip_rs (bd : Build) (hf : HashFn) (p : XmssParams) (sk ps : Bytes) (h1 : 1 ≤ p.wots.len) (hs : sk.length = 32)
    (hps : ps.length = 32)
    (hk : BK.KOk κ p.h) (hh4 : 4 ≤ p.h) (hh30 : p.h ≤ 30) (hev : p.h % 2 = 0) {st0 : BdsState}
    (H : BK.BdsInv κ (Spec.node (hf.prim S) p.wots.w p.wots.len sk ps) p.h 0 (fun _ => none) st0) :
    ∀ (m i : Nat), i + m < 2 ^ p.h →
    advanceLoop κ bd S hf sk p ps m i (BK.stAt κ S hf p sk ps st0 i) = ok (BK.stAt κ S hf p sk ps st0 (i + m)) := by
  intro m
  induction m with
  | zero => intro i _; rfl
  | succ m ih =>
    intro i hi
    have hstep := adv_step_rs S bd hf p sk ps h1 hs hps hk hh4 hh30 hev H i (by omega) 0 0 0 0 0
    rw [advanceLoop]
    rw [show ∀ (x : Res BdsState) (f g : BdsState → Res BdsState), (x >>= fun a => f a >>= g) = (x >>= f) >>= g from
      fun x f g => (Res.bind_assoc x f g).symm]
    rw [show (bdsRound κ bd S hf (BK.stAt κ S hf p sk ps st0 i) i sk p ps {} >>= fun st =>
      bdsTreehashUpdate κ S hf sk p ps {} ((p.h - κ) >>> 1) st) = ok (BK.stAt κ S hf p sk ps st0 (i + 1)) from hstep, ok_bind,
      ih (i + 1) (by omega)]
    congr 2
    omega

/-- `xmss_fast_sign_msg` on a key slice and the state that belongs to it. -/
theorem fastSignMsgRaw_eq (b : Build) (hf : HashFn) {w h : Nat} (hw : Spec.RangeW w) (hk : BK.KOk κ h) (hh4 : 4 ≤ h) (hh30 : h ≤ 30) (hev : h % 2 = 0)
    (K : KeyParts) {st0 : BdsState}
    (hst : BK.BdsInv κ (Spec.node (hf.prim S) w (Spec.rustLen w) K.skSeed K.ps) h 0 (fun _ => none) st0)
    (i : Nat) (h32 : i < 2 ^ 32) {next : Nat} (hnext : u32 b (i + 1) = ok next) (t sig msg : Bytes) (msglen : Nat) :
    xmssFastSignMsgRaw κ b S hf ⟨wotsParams w, h⟩ (K.sk i ++ t) (BK.stAt κ S hf ⟨wotsParams w, h⟩ K.skSeed K.ps st0 (min i (2 ^ h - 1))) sig msg
        msglen =
      if sig.length < Spec.rustSize w h ∨ msg.length < msglen then panic
      else match Spec.sliceSignature b S hf w h K.skSeed K.skPrf K.ps K.root i (min i (2 ^ h - 1)) (msg.take msglen) with
        | none => panic
        | some s => ok (0, K.sk next ++ t, s ++ sig.drop (Spec.rustSize w h),
            BK.stAt κ S hf ⟨wotsParams w, h⟩ K.skSeed K.ps st0 (min (i + 1) (2 ^ h - 1))) := by
  have hpos := Nat.two_pow_pos h
  generalize hj : min i (2 ^ h - 1) = j
  have hjlt : j < 2 ^ h := by omega
  obtain ⟨b', c', d', e⟩ := signHead_raw (S := S) b hf hw K i h32 hnext t sig msg msglen (fun sk sig otsAddr => do
      let path ← authOut (BK.stAt κ S hf ⟨wotsParams w, h⟩ K.skSeed K.ps st0 j).auth h 0
      let sig ← putInto sig (36 + (wotsParams w).keysize) path.flatten
      let num ← shl1 b h
      let st ← if i < num - 1 then do
          let st ← bdsRound κ b S hf (BK.stAt κ S hf ⟨wotsParams w, h⟩ K.skSeed K.ps st0 j) i K.skSeed ⟨wotsParams w, h⟩ K.ps otsAddr
          bdsTreehashUpdate κ S hf K.skSeed ⟨wotsParams w, h⟩ K.ps otsAddr ((h - κ) >>> 1) st
        else ok (BK.stAt κ S hf ⟨wotsParams w, h⟩ K.skSeed K.ps st0 j)
      ok (0, sk, sig, st))
  rw [xmssFastSignMsgRaw]
  simp only [key_be32 K h32, key_seed, key_prf, key_ps, ok_bind] at e ⊢
  rw [e]
  by_cases c1 : msg.length < msglen
  · rw [if_pos c1, if_pos (by omega)]
  rw [if_neg c1, sliceSignature_eq]
  cases hd : sigHead b S hf w K i (msg.take msglen) with
  | none =>
    by_cases c2 : sig.length < Spec.rustSize w h ∨ msg.length < msglen
    · rw [if_pos c2]
    · rw [if_neg c2]; rfl
  | some ds =>
    have hl := sigHead_length hw hd
    dsimp only [Option.map_some]
    obtain ⟨-, T, hinv⟩ := BK.adv_inv S hf ⟨wotsParams w, h⟩ K.skSeed K.ps (rustLen_pos hw) hk hh4 hh30 hev hst j hjlt
    have hpath := authOut_sim _ _ _ _ (BK.authOut_path _ h _ hinv.auth.auth h 0 (by omega))
    have hap : ((List.range' 0 h).map fun l => Spec.node (hf.prim S) w (Spec.rustLen w) K.skSeed K.ps l (Spec.sibling (j / 2 ^ l))) =
        Spec.authPath (hf.prim S) w (Spec.rustLen w) K.skSeed K.ps h j := by rw [Spec.authPath, List.range_eq_range']
    have hpath' : authOut (BK.stAt κ S hf ⟨wotsParams w, h⟩ K.skSeed K.ps st0 j).auth h 0 =
        ok (Spec.authPath (hf.prim S) w (Spec.rustLen w) K.skSeed K.ps h j) := by rw [← hap]; exact hpath
    have hround : ∀ s : Bytes, (if i < 2 ^ h - 1 then do
          let st ← bdsRound κ b S hf (BK.stAt κ S hf ⟨wotsParams w, h⟩ K.skSeed K.ps st0 j) i K.skSeed ⟨wotsParams w, h⟩ K.ps
            ⟨0, 0, 0, 0, i, b', c', d'⟩
          let st ← bdsTreehashUpdate κ S hf K.skSeed ⟨wotsParams w, h⟩ K.ps ⟨0, 0, 0, 0, i, b', c', d'⟩ ((h - κ) >>> 1) st
          ok ((0 : Nat), K.sk next ++ t, s, st)
        else ok ((0 : Nat), K.sk next ++ t, s, BK.stAt κ S hf ⟨wotsParams w, h⟩ K.skSeed K.ps st0 j)) =
        ok ((0 : Nat), K.sk next ++ t, s, BK.stAt κ S hf ⟨wotsParams w, h⟩ K.skSeed K.ps st0 (min (i + 1) (2 ^ h - 1))) := by
      intro s
      by_cases hc : i < 2 ^ h - 1
      · rw [if_pos hc]
        have hji : j = i := by omega
        rw [hji]
        have hstep := adv_step_rs S b hf ⟨wotsParams w, h⟩ K.skSeed K.ps (rustLen_pos hw) K.l1 K.l3 hk hh4 hh30 hev hst i
          (show i + 1 < 2 ^ h by omega) 0 i b' c' d'
        rw [show min (i + 1) (2 ^ h - 1) = i + 1 by omega, ← Res.bind_assoc, hstep, ok_bind]
      · rw [if_neg hc, show min (i + 1) (2 ^ h - 1) = j by omega]
    have := putSeq sig (idxBytes i) (Spec.PRF (hf.prim S) K.skPrf (Spec.be 32 i))
      (Spec.wotsSig (hf.prim S) K.skSeed K.ps i ds).flatten
      (Spec.authPath (hf.prim S) w (Spec.rustLen w) K.skSeed K.ps h j).flatten (32 * Spec.rustLen w) (32 * h) rfl
      (length_PRF ..) (length_wots hf K i hl) (length_path hf K hw h j)
      (fun s => ok ((0 : Nat), K.sk next ++ t, s, BK.stAt κ S hf ⟨wotsParams w, h⟩ K.skSeed K.ps st0 (min (i + 1) (2 ^ h - 1))))
    simp only [hpath', ok_bind, show (wotsParams w).keysize = 32 * Spec.rustLen w from Nat.mul_comm _ _,
      shl1_lt b (show h < 32 by omega), hround]
    rw [this, show idxBytes i = Spec.be 4 i from idxBytes_eq i]
    rw [Spec.rustSize]
    by_cases c3 : sig.length < 36 + 32 * Spec.rustLen w + 32 * h
    · rw [if_pos c3, if_pos (Or.inl c3)]
    · rw [if_neg c3, if_neg (by omega)]

/-- `xmss_fast_update` on a key slice and the state that belongs to it. -/
theorem fastUpdateRaw_eq (b : Build) (hf : HashFn) {w h : Nat} (hw : Spec.RangeW w) (hk : BK.KOk κ h) (hh4 : 4 ≤ h) (hh30 : h ≤ 30) (hev : h % 2 = 0)
    (K : KeyParts) {st0 : BdsState}
    (hst : BK.BdsInv κ (Spec.node (hf.prim S) w (Spec.rustLen w) K.skSeed K.ps) h 0 (fun _ => none) st0)
    (i : Nat) (h32 : i < 2 ^ 32) (t : Bytes) (n : UInt32) :
    xmssFastUpdateRaw κ b S hf ⟨wotsParams w, h⟩ (K.sk i ++ t) (BK.stAt κ S hf ⟨wotsParams w, h⟩ K.skSeed K.ps st0 (min i (2 ^ h - 1))) n =
      if n.toNat ≥ 2 ^ h ∨ n.toNat < i then err .invalidArgument
      else ok (0, K.sk n.toNat ++ t, BK.stAt κ S hf ⟨wotsParams w, h⟩ K.skSeed K.ps st0 (min n.toNat (2 ^ h - 1))) := by
  rw [xmssFastUpdateRaw, key_be32 K h32]
  simp only [shl1_lt b (show h < 32 by omega), ok_bind]
  by_cases c1 : n.toNat ≥ 2 ^ h
  · rw [if_pos c1, if_pos (Or.inl c1)]
  rw [if_neg c1]
  by_cases c2 : n.toNat < i
  · rw [if_pos c2, if_pos (Or.inr c2)]
  rw [if_neg c2, if_neg (by omega), Nat.min_eq_left (show i ≤ 2 ^ h - 1 by omega), Nat.min_eq_left (show n.toNat ≤ 2 ^ h - 1 by omega)]
  have hadv := adv_skip_rs S b hf ⟨wotsParams w, h⟩ K.skSeed K.ps (rustLen_pos hw) K.l1 K.l3 hk hh4 hh30 hev hst (n.toNat - i) i
    (show i + (n.toNat - i) < 2 ^ h by omega)
  simp only [key_seed, key_ps, key_put, ok_bind, hadv, show i + (n.toNat - i) = n.toNat by omega]

/-- Every history of the fast functions on a key slice and the state that belongs to it. -/
theorem sliceRun_eq (b : Build) (hf : HashFn) {w h : Nat} (hw : Spec.RangeW w) (hk : BK.KOk κ h) (hh4 : 4 ≤ h) (hh30 : h ≤ 30) (hev : h % 2 = 0)
    (K : KeyParts) {st0 : BdsState}
    (hst : BK.BdsInv κ (Spec.node (hf.prim S) w (Spec.rustLen w) K.skSeed K.ps) h 0 (fun _ => none) st0) (t : Bytes) (cs : List CCall) :
    ∀ i : Nat, max i (2 ^ h) + cs.length < 2 ^ 32 →
    sliceRun κ b S hf ⟨wotsParams w, h⟩ (K.sk i ++ t, BK.stAt κ S hf ⟨wotsParams w, h⟩ K.skSeed K.ps st0 (min i (2 ^ h - 1))) cs =
      (Spec.sliceCounter (Spec.rustSize w h) (2 ^ h)
        (fun j m => Spec.sliceSignature b S hf w h K.skSeed K.skPrf K.ps K.root j (min j (2 ^ h - 1)) m) i cs).map
        fun x => (x.1, (K.sk x.2 ++ t, BK.stAt κ S hf ⟨wotsParams w, h⟩ K.skSeed K.ps st0 (min x.2 (2 ^ h - 1)))) := by
  induction cs with
  | nil => intro i _; rfl
  | cons c cs ih =>
    intro i hi
    rw [List.length_cons] at hi
    cases c with
    | update n =>
      rw [sliceRun, sliceCall, fastUpdateRaw_eq S b hf hw hk hh4 hh30 hev K hst i (by omega) t n, Spec.sliceCounter]
      by_cases c1 : n.toNat ≥ 2 ^ h ∨ n.toNat < i
      · rw [if_pos c1, if_pos c1]
        simp only [Option.bind_eq_bind, Option.bind_some]
        rw [ih i (by omega), Option.map_map]
        generalize Spec.sliceCounter _ _ _ i cs = o
        cases o <;> rfl
      · rw [if_neg c1, if_neg c1]
        simp only [Option.bind_eq_bind, Option.bind_some]
        rw [ih n.toNat (by omega), Option.map_map]
        generalize Spec.sliceCounter _ _ _ n.toNat cs = o
        cases o <;> rfl
    | sign buf msg msglen =>
      rw [sliceRun, sliceCall, fastSignMsgRaw_eq S b hf hw hk hh4 hh30 hev K hst i (by omega) (u32_lt b (show i + 1 < 2 ^ 32 by omega)) t buf msg msglen, Spec.sliceCounter]
      by_cases c1 : buf.length < Spec.rustSize w h ∨ msg.length < msglen
      · rw [if_pos c1, if_pos c1]
        rfl
      · rw [if_neg c1, if_neg c1]
        cases Spec.sliceSignature b S hf w h K.skSeed K.skPrf K.ps K.root i (min i (2 ^ h - 1)) (msg.take msglen) with
        | none => rfl
        | some s =>
          simp only [Option.bind_eq_bind, Option.bind_some]
          rw [ih (i + 1) (by omega), Option.map_map]
          generalize Spec.sliceCounter _ _ _ (i + 1) cs = o
          cases o <;> rfl

theorem fastGenKeypairRaw_eq (b : Build) (hf : HashFn) {w h : Nat} (hw : Spec.RangeW w) (hk : BK.KSet κ h) (hb26 : b = .release ∨ κ ≤ 26) (hh4 : 4 ≤ h) (hh30 : h ≤ 30) (hev : h % 2 = 0)
    (pk sk seed : Bytes) :
    ∃ st, BK.BdsInv κ (Spec.node (hf.prim S) w (Spec.rustLen w) ((Qrl.shake256 96 (seed.take 48)).take 32)
        ((Qrl.shake256 96 (seed.take 48)).drop 64)) h 0 (fun _ => none) st ∧
      xmssFastGenKeypairRaw κ b S hf ⟨wotsParams w, h⟩ pk sk (bdsInit κ h) seed =
      if pk.length < 64 ∨ sk.length < 132 ∨ seed.length < 48 then panic
      else
        let x := Qrl.shake256 96 (seed.take 48)
        let root := Spec.node (hf.prim S) w (Spec.rustLen w) (x.take 32) (x.drop 64) h 0
        ok (root ++ x.drop 64 ++ pk.drop 64, List.replicate 4 0 ++ x ++ root ++ sk.drop 132, st) := by
  obtain ⟨st, e1, e2⟩ := BK.treehashSetup_eq hk.1 S hf ⟨wotsParams w, h⟩ ((Qrl.shake256 96 (seed.take 48)).take 32)
    ((Qrl.shake256 96 (seed.take 48)).drop 64) (rustLen_pos hw) hk.2.2 hh4 hh30
  refine ⟨st, e2, ?_⟩
  rw [xmssFastGenKeypairRaw, if_neg (by simp only [Nat.and_one_is_mod]; omega)]
  exact genRaw pk sk seed (fun a c => treehashSetup κ b S hf h (bdsInit κ h) a ⟨wotsParams w, h⟩ c {})
    (fun pk sk st => (pk, sk, st)) _ st (length_node S hf _ _ _ _ (rustLen_pos hw) _ _) (by
      intro a c ha hc h1 h2
      have := treehashSetup_sim S hf b hb26 ⟨wotsParams w, h⟩ a c (rustLen_pos hw) ha hc hk.2.2 hh4 hh30
      rw [h1, h2] at this
      exact this _ e1)

end Qrl.Rs.RK
