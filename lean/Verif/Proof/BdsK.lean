import Verif.Proof.CLow
import Verif.Model.BdsK
/-!
The BDS traversal with any parameter `κ` (`params->k`): as `Verif/Proof/Bds*`, where `κ = 2`, with the rows of retained nodes.
-/

namespace Qrl.BK

open Outcome

/-- The part of the traversal state used by the tree-hash instances. -/
structure ThInv (κ : Nat) (N : Nat → Nat → Bytes) (h t : Nat) (T : Prog) (st : BdsState) : Prop where
  lstack : st.stack.length = h + 1
  llevels : st.stacklevels.length = h + 1
  lth : st.treehash.length = h - κ
  sep : Sep (h - κ) T
  holds : Holds st.stack (st.stacklevels.map some) (ents N t T (h - κ) 0)
  offset : st.stackoffset = (ents N t T (h - κ) 0).length
  inst : ∀ i, i < h - κ → ∃ tr, st.treehash[i]? = some tr ∧ InstOk N h t i T tr

theorem ThInv.fits {N : Nat → Nat → Bytes} {h t : Nat} {T : Prog} {st : BdsState} (H : ThInv κ N h t T st) :
    ∀ i c, i < h - κ → T i = some c → c < 2 ^ i := by
  intro i c hi hT
  obtain ⟨tr, _, h2⟩ := H.inst i hi
  unfold InstOk at h2
  rw [hT] at h2
  exact h2.2.2.2.1

theorem ThInv.asc {N : Nat → Nat → Bytes} {h t : Nat} {T : Prog} {st : BdsState} (H : ThInv κ N h t T st) :
    Asc 0 (ents N t T (h - κ) 0) (h - κ) := by
  have := asc_ents N t T (h - κ) H.sep H.fits (h - κ) 0 0 (by omega) (by omega) (fun _ _ _ _ _ => by simp)
  rwa [Nat.zero_add] at this

/-- Priority of an instance. -/
def lowOf (κ : Nat) (N : Nat → Nat → Bytes) (h t : Nat) (T : Prog) (i : Nat) : Nat :=
  match T i with
  | none => h
  | some c => if c = 0 then i else topLevel (ents N t T (h - κ) 0)

theorem pickLevel_eq {N : Nat → Nat → Bytes} {h t : Nat} {T : Prog} {st : BdsState} (H : ThInv κ N h t T st)
    (p : XmssParams) (hp : p.h = h) (m : Nat) : ∀ i level lMin, i + m ≤ h - κ →
    pickLevel st p m i level lMin = ok (pickPure (lowOf κ N h t T) m i level lMin) := by
  induction m with
  | zero => intro i level lMin _; rfl
  | succ m ih =>
    intro i level lMin hi
    obtain ⟨tr, h1, h2⟩ := H.inst i (by omega)
    rw [pickLevel, rd_eq_ok h1, ok_bind, pickPure]
    have hlow : ∀ f : Nat → Outcome Nat, (if tr.completed = true then ok p.h >>= f
        else if tr.stackusage = 0 then ok i >>= f else treehashMinheightOnStack st p tr >>= f) =
          f (lowOf κ N h t T i) := by
      intro f
      unfold InstOk at h2
      unfold lowOf
      cases hT : T i with
      | none => rw [hT] at h2; rw [if_pos h2.1, hp]; rfl
      | some c =>
        rw [hT] at h2
        simp only at h2 ⊢
        obtain ⟨c1, c2, c3, c4, c5, c6⟩ := h2
        rw [if_neg (by rw [c1]; decide)]
        by_cases h0 : c = 0
        · subst h0
          rw [segE_zero] at c5
          rw [if_pos (show tr.stackusage = 0 from c5), if_pos rfl]; rfl
        · rw [if_neg h0]
          have hne : segE N 0 (startOf i t) c ≠ [] := segE_ne_nil N c 0 _ (by omega)
          have hpos : 0 < (segE N 0 (startOf i t) c).length := List.length_pos_iff.mpr hne
          rw [if_neg (by omega)]
          have hle := length_seg_le N t T (M := h - κ) (i := i) (by omega)
          rw [seg_some hT] at hle
          have hA := H.asc
          have hH := H.holds
          have ho := H.offset
          cases hes : ents N t T (h - κ) 0 with
          | nil => rw [hes] at hle; simp at hle; exact absurd hle hne
          | cons e es =>
            obtain ⟨l, x⟩ := e
            rw [hes] at hA hH ho hle
            simp only [List.length_cons] at hle ho
            rw [minheight_eq st p tr l x es (h - κ) hA (by omega) hH ho (by omega) (by omega)]
            rfl
    refine (hlow fun low => if low < lMin then pickLevel st p m (i + 1) i low
      else pickLevel st p m (i + 1) level lMin).trans ?_
    by_cases hl : lowOf κ N h t T i < lMin
    · rw [if_pos hl, if_pos hl]; exact ih (i + 1) i _ (by omega)
    · rw [if_neg hl, if_neg hl]; exact ih (i + 1) level lMin (by omega)

/-- The selected instance has the properties the scheduling argument needs. -/
theorem pick_spec {N : Nat → Nat → Bytes} {h t : Nat} {T : Prog} {st : BdsState} (H : ThInv κ N h t T st)
    (p : XmssParams) (hp : p.h = h) :
    (pickLevel st p (h - κ) 0 (h - κ) h = ok (h - κ) ∧ ∀ j, j < h - κ → T j = none) ∨
    ∃ k c, pickLevel st p (h - κ) 0 (h - κ) h = ok k ∧ Pick (h - κ) T k c := by
  rw [pickLevel_eq H p hp (h - κ) 0 (h - κ) h (by omega)]
  have hlt : ∀ j c, j < h - κ → T j = some c → lowOf κ N h t T j < h - κ := by
    intro j c hj hT
    unfold lowOf
    rw [hT]
    simp only
    by_cases h0 : c = 0
    · rw [if_pos h0]; exact hj
    · rw [if_neg h0]
      have hA := H.asc
      cases hes : ents N t T (h - κ) 0 with
      | nil => simp only [topLevel, List.head?_nil, Option.map_none, Option.getD_none]; omega
      | cons e es =>
        rw [hes] at hA
        exact (hA.mem_ge e (List.mem_cons_self ..)).2
  -- entries of a started instance
  have hstart : ∀ i c, i < h - κ → T i = some c → 0 < c →
      topLevel (ents N t T (h - κ) 0) < i ∧ 2 ^ topLevel (ents N t T (h - κ) 0) ∣ c := by
    intro i c hi hT h0
    have hA := H.asc
    have hne := segE_ne_nil N c 0 (startOf i t) h0
    cases hsg : segE N 0 (startOf i t) c with
    | nil => exact absurd hsg hne
    | cons e es =>
      obtain ⟨v, x⟩ := e
      have hd := segE_head_dvd N c 0 (startOf i t) v x es hsg
      have hv : v < i := by
        have h1 := asc_segE N i 0 (startOf i t) c (H.fits i c hi hT)
        rw [hsg] at h1
        have := (h1.mem_ge (v, x) (List.mem_cons_self ..)).2
        simp only at this; omega
      have hmem : (v, x) ∈ ents N t T (h - κ) 0 := by
        apply seg_subset N t T hi
        rw [seg_some hT, hsg]; exact List.mem_cons_self ..
      have htop : topLevel (ents N t T (h - κ) 0) ≤ v := by
        cases hes : ents N t T (h - κ) 0 with
        | nil => rw [hes] at hmem; simp at hmem
        | cons e' es' =>
          obtain ⟨l', x'⟩ := e'
          rw [hes] at hmem hA
          show l' ≤ v
          rcases List.mem_cons.mp hmem with h' | h'
          · injection h' with h'1 _; omega
          · have := (hA.2.mem_ge _ h').1; simp only at this; omega
      refine ⟨by omega, ?_⟩
      have := hd.2.1
      rw [Nat.sub_zero] at this
      exact Nat.dvd_trans (Nat.pow_dvd_pow 2 htop) this
  rcases pickPure_spec (lowOf κ N h t T) (h - κ) h (h - κ) 0 (h - κ) h (by omega)
    (Or.inl ⟨rfl, rfl, fun j hj => by omega⟩) with ⟨e, hall⟩ | ⟨hk, hkh, hmin, hstrict⟩
  · left
    refine ⟨by rw [e], ?_⟩
    intro j hj
    cases hT : T j with
    | none => rfl
    | some c => have := hall j hj; have := hlt j c hj hT; omega
  · right
    generalize pickPure (lowOf κ N h t T) (h - κ) 0 (h - κ) h = k at *
    cases hTk : T k with
    | none => unfold lowOf at hkh; rw [hTk] at hkh; simp at hkh
    | some c =>
      refine ⟨k, c, rfl, hk, hTk, H.fits k c hk hTk, ?_, ?_⟩
      · intro j cj hj hTj hdv
        have hs := hstrict j hj
        unfold lowOf at hs
        rw [hTk, hTj] at hs
        simp only at hs
        by_cases hcj : cj = 0
        · rw [if_pos hcj] at hs
          by_cases hck : c = 0
          · rw [if_pos hck] at hs; omega
          · rw [if_neg hck] at hs
            -- k is the lowest started instance
            have hempty : ∀ i, 0 ≤ i → i < 0 + k → seg N t T i = [] := by
              intro i _ hi
              have hs' := hstrict i (by omega)
              unfold lowOf at hs'
              rw [hTk] at hs'
              simp only [if_neg hck] at hs'
              unfold seg
              cases hTi : T i with
              | none => rfl
              | some ci =>
                rw [hTi] at hs'
                simp only at hs'
                by_cases h0 : ci = 0
                · subst h0; simp only [segE_zero]
                · rw [if_neg h0] at hs'; omega
            have hents := ents_skip N t T k (h - κ - k) 0 hempty
            rw [show k + (h - κ - k) = h - κ by omega, Nat.zero_add, show h - κ - k = (h - κ - k - 1) + 1 by omega,
              ents, seg_some hTk] at hents
            cases hsg : segE N 0 (startOf k t) c with
            | nil => exact absurd hsg (segE_ne_nil N c 0 _ (by omega))
            | cons e es =>
              obtain ⟨v, x⟩ := e
              rw [hsg] at hents
              rw [hents] at hs
              have hd := segE_head_dvd N c 0 (startOf k t) v x es hsg
              simp only [topLevel, List.cons_append, List.head?_cons, Option.map_some, Option.getD_some] at hs
              rw [Nat.sub_zero] at hd
              have h2 : 2 ^ (v + 1) ∣ c := Nat.dvd_trans (Nat.pow_dvd_pow 2 (by omega)) hdv
              obtain ⟨z, hz⟩ := h2
              rw [hz, Nat.pow_succ, Nat.mul_assoc, Nat.mul_div_cancel_left _ (Nat.two_pow_pos v)] at hd
              omega
        · rw [if_neg hcj] at hs
          have h1 := (hstart j cj (by omega) hTj (by omega)).1
          by_cases hck : c = 0
          · rw [if_pos hck] at hs; omega
          · rw [if_neg hck] at hs; omega
      · intro hc0 i c' hi hiM hTi
        by_cases h0 : c' = 0
        · subst h0; exact Nat.dvd_zero _
        · have hm := hmin i hiM
          unfold lowOf at hm
          rw [hTk, hTi] at hm
          simp only [if_pos hc0, if_neg h0] at hm
          exact Nat.dvd_trans (Nat.pow_dvd_pow 2 hm) (hstart i c' hiM hTi (by omega)).2

theorem treehashUpdate_eq (S : Sha256) (hf : HashFn) (sk ps : Bytes) (p : XmssParams) (h1 : 1 ≤ p.wots.len)
    {t : Nat} {T : Prog} {st : BdsState}
    (H : ThInv κ (Spec.node (hf.prim S) p.wots.w p.wots.len sk ps) p.h t T st) {k c : Nat} (hp : Pick (p.h - κ) T k c)
    (a b d e f : Nat) :
    ∃ st', treehashUpdate S hf k st sk p ps ⟨0, 0, 0, a, b, d, e, f⟩ = ok st' ∧ SameAuth st st' ∧
      ThInv κ (Spec.node (hf.prim S) p.wots.w p.wots.len sk ps) p.h t (stepProg T k c) st' := by
  obtain ⟨tr, htr, hinst⟩ := H.inst k hp.lt
  unfold InstOk at hinst
  rw [hp.run] at hinst
  obtain ⟨i1, i2, i3, i4, i5, i6⟩ := hinst
  generalize hN : Spec.node (hf.prim S) p.wots.w p.wots.len sk ps = N at *
  have hempty : ∀ T' : Prog, (∀ i, i < k → T' i = T i) → ∀ i, 0 ≤ i → i < 0 + k → seg N t T' i = [] := by
    intro T' hT' i _ hi
    unfold seg
    rw [hT' i (by omega)]
    cases hTi : T i with
    | none => rfl
    | some ci =>
      by_cases h0 : ci = 0
      · subst h0; simp only [segE_zero]
      · exact absurd (H.sep i k ci c (by omega) hp.lt hTi (by omega) hp.run) (hp.urgent i ci (by omega) hTi)
  have hents : ∀ T' : Prog, (∀ i, i < k → T' i = T i) →
      ents N t T' (p.h - κ) 0 = seg N t T' k ++ ents N t T' (p.h - κ - k - 1) (k + 1) := by
    intro T' hT'
    have := ents_skip N t T' k (p.h - κ - k) 0 (hempty T' hT')
    rw [show k + (p.h - κ - k) = p.h - κ by have := hp.lt; omega, Nat.zero_add] at this
    rw [this]
    conv_lhs => rw [show p.h - κ - k = (p.h - κ - k - 1) + 1 by have := hp.lt; omega]
    rw [ents]
  have hrest : ents N t (stepProg T k c) (p.h - κ - k - 1) (k + 1) = ents N t T (p.h - κ - k - 1) (k + 1) := by
    apply ents_congr
    intro j hj _
    unfold seg stepProg
    rw [Function.update_of_ne (by omega)]
  generalize hR : ents N t T (p.h - κ - k - 1) (k + 1) = R at *
  have hE := hents T (fun _ _ => rfl)
  rw [hR, seg_some hp.run] at hE
  have hE' := hents (stepProg T k c) (fun i hi => by unfold stepProg; rw [Function.update_of_ne (by omega)])
  rw [hrest] at hE'
  have hH := H.holds
  have ho := H.offset
  rw [hE] at hH ho
  have hasc := H.asc
  have hdv := pow_dvd_startOf k t
  simp only [treehashUpdate, Adrs.derive, Adrs.setType, rd_eq_ok htr, ok_bind, Adrs.setLtree, Adrs.setOTS]
  obtain ⟨t5, t6, t7, o5, o6, o7, hleaf⟩ := genLeafWots_eq S hf sk p ps h1 tr.nextIdx 0 0 0 0 0 0
  rw [hleaf]
  simp only [ok_bind]
  have hum := updateMerge_eq S hf p.wots.w p.wots.len sk ps tr.nextIdx st.stack st.stacklevels R k 0 (startOf k t) c
    0 0 0 hp.fits hdv (by rw [Nat.shiftRight_zero, i3])
  rw [hN] at hum
  obtain ⟨r, e1, e2, e3⟩ := hum hH
  rw [i5, ho, List.length_append]
  have hl0 : Spec.leaf (hf.prim S) p.wots.w p.wots.len sk ps tr.nextIdx = N 0 (startOf k t + c) := by
    rw [i3, ← hN]; rfl
  rw [hl0, e1]
  simp only [ok_bind]
  have hinst' : ∀ ths : List TreeInst, (∀ i, i ≠ k → ths[i]? = st.treehash[i]?) →
      (∃ tr, ths[k]? = some tr ∧ InstOk N p.h t k (stepProg T k c) tr) →
      ∀ i, i < p.h - κ → ∃ tr, ths[i]? = some tr ∧ InstOk N p.h t i (stepProg T k c) tr := by
    intro ths hne hk i hi
    by_cases hik : i = k
    · subst hik; exact hk
    · obtain ⟨tr', g1, g2⟩ := H.inst i hi
      refine ⟨tr', by rw [hne i hik]; exact g1, ?_⟩
      unfold InstOk stepProg
      rw [Function.update_of_ne hik]
      exact g2
  have hklt : k < st.treehash.length := by rw [H.lth]; exact hp.lt
  have hset_ne : ∀ x : TreeInst, ∀ i, i ≠ k → (st.treehash.set k x)[i]? = st.treehash[i]? := by
    intro x i hi; rw [List.getElem?_set, if_neg (by omega)]
  have hset_k : ∀ x : TreeInst, (st.treehash.set k x)[k]? = some x := by
    intro x; rw [List.getElem?_set, if_pos rfl, if_pos hklt]
  by_cases hdone : c + 1 = 2 ^ k
  · have hr := e2 hdone
    subst hr
    simp only [Nat.zero_add]
    rw [if_pos i2.symm, wr_eq_ok _ hklt]
    simp only [ok_bind]
    have hTk : stepProg T k c k = none := by
      unfold stepProg; rw [Function.update_self, if_pos hdone]
    have hseg : seg N t (stepProg T k c) k = [] := by unfold seg; rw [hTk]
    rw [hseg, List.nil_append] at hE'
    refine ⟨_, rfl, ⟨rfl, rfl, rfl⟩, ⟨H.lstack, H.llevels, by simpa using H.lth, H.sep.step hp, ?_, ?_, ?_⟩⟩
    · rw [hE']; exact hH.append
    · rw [hE']
    · refine hinst' _ (hset_ne _) ⟨_, hset_k _, ?_⟩
      unfold InstOk
      rw [hTk]
      exact ⟨rfl, fun _ => rfl⟩
  · obtain ⟨es, f1, f2, f3, f4, f5⟩ := e3 (by have := hp.fits; omega)
    have hTk : stepProg T k c k = some (c + 1) := by
      unfold stepProg; rw [Function.update_self, if_neg hdone]
    have hseg : seg N t (stepProg T k c) k = (r.nodeheight, r.node) :: es := by
      unfold seg; rw [hTk]; exact f1
    rw [hseg] at hE'
    have hlen : (es ++ R).length < p.h + 1 := by
      have hsep := H.sep.step hp
      have hfit : ∀ i c', i < p.h - κ → stepProg T k c i = some c' → c' < 2 ^ i := by
        intro i c' hi hT'
        by_cases hik : i = k
        · subst hik
          rw [hTk] at hT'
          injection hT' with hT'
          have := hp.fits; omega
        · unfold stepProg at hT'
          rw [Function.update_of_ne hik] at hT'
          exact H.fits i c' hi hT'
      have := asc_ents N t (stepProg T k c) (p.h - κ) hsep hfit (p.h - κ) 0 0 (by omega) (by omega)
        (fun _ _ _ _ _ => by simp)
      have := this.le
      rw [hE'] at this
      simp only [List.cons_append, List.length_cons] at this
      omega
    rw [if_neg (by rw [i2]; omega), f3, wr_eq_ok _ (by rw [H.lstack]; exact hlen),
      wr_eq_ok _ (by rw [H.llevels]; exact hlen), wr_eq_ok _ hklt]
    simp only [ok_bind]
    refine ⟨_, rfl, ⟨rfl, rfl, rfl⟩, ⟨by simpa using H.lstack, by simpa using H.llevels, by simpa using H.lth,
      H.sep.step hp, ?_, ?_, ?_⟩⟩
    · rw [hE']
      simp only [map_set_some]
      exact f4.push (by rw [H.lstack]; exact hlen) (by rw [List.length_map, H.llevels]; exact hlen) _ _
    · rw [hE']; rfl
    · refine hinst' _ (hset_ne _) ⟨_, hset_k _, ?_⟩
      unfold InstOk
      rw [hTk]
      refine ⟨i1, i2, ?_, ?_, ?_, i6⟩
      · simp only [i3]; omega
      · have := hp.fits; omega
      · rw [f1]; simp [f2]

/-- `bds_treehash_update` with `n` updates. -/
theorem bdsTreehashUpdate_eq (S : Sha256) (hf : HashFn) (sk ps : Bytes) (p : XmssParams) (h1 : 1 ≤ p.wots.len)
    {t : Nat} (a b d e f : Nat) (n : Nat) : ∀ (T : Prog) (st : BdsState),
    ThInv κ (Spec.node (hf.prim S) p.wots.w p.wots.len sk ps) p.h t T st →
    ∃ st' T', bdsTreehashUpdate κ S hf sk p ps ⟨0, 0, 0, a, b, d, e, f⟩ n st = ok st' ∧ SameAuth st st' ∧
      ThInv κ (Spec.node (hf.prim S) p.wots.w p.wots.len sk ps) p.h t T' st' ∧
      ∀ j, j < p.h - κ → T' j = none ∨ (T j ≠ none ∧ pot (p.h - κ) j T' + n ≤ pot (p.h - κ) j T) := by
  induction n with
  | zero =>
    intro T st H
    refine ⟨st, T, rfl, ⟨rfl, rfl, rfl⟩, H, ?_⟩
    intro j _
    by_cases hj : T j = none
    · exact Or.inl hj
    · exact Or.inr ⟨hj, Nat.le_refl _⟩
  | succ n ih =>
    intro T st H
    rw [bdsTreehashUpdate]
    rcases pick_spec H p rfl with ⟨e1, hall⟩ | ⟨k, c, e1, hp⟩
    · rw [e1, ok_bind, if_pos rfl]
      exact ⟨st, T, rfl, ⟨rfl, rfl, rfl⟩, H, fun j hj => Or.inl (hall j hj)⟩
    · rw [e1, ok_bind, if_neg (by have := hp.lt; omega)]
      obtain ⟨st1, e2, s1, H1⟩ := treehashUpdate_eq S hf sk ps p h1 H hp a b d e f
      rw [e2, ok_bind]
      obtain ⟨st2, T2, e3, s2, H2, hpot⟩ := ih _ _ H1
      refine ⟨st2, T2, e3, ⟨s2.1.trans s1.1, s2.2.1.trans s1.2.1, s2.2.2.trans s1.2.2⟩, H2, ?_⟩
      intro j hj
      rcases hpot j hj with h' | ⟨h', h''⟩
      · exact Or.inl h'
      · right
        cases hT : T j with
        | none =>
          exfalso
          apply h'
          unfold stepProg
          by_cases hjk : j = k
          · subst hjk; rw [hp.run] at hT; cases hT
          · rw [Function.update_of_ne hjk, hT]
        | some cj =>
          have := pot_step hp j cj hT
          exact ⟨by simp, by omega⟩

/-- First slot of the row of retained nodes that are `d` levels below the root. -/
def rowOff (d : Nat) : Nat := 2 ^ (d - 1) - d

theorem rowOff_succ {d : Nat} (hd : 1 ≤ d) : rowOff (d + 1) = rowOff d + (2 ^ (d - 1) - 1) := by
  have h1 : d ≤ 2 ^ (d - 1) := by have := Nat.lt_two_pow_self (n := d - 1); omega
  have h2 : 2 ^ d = 2 ^ (d - 1) * 2 := by rw [← Nat.pow_succ]; congr 1; omega
  unfold rowOff
  rw [show d + 1 - 1 = d by omega]
  omega

theorem rowOff_le {d d' : Nat} (hd : 1 ≤ d) (h : d < d') : rowOff d + (2 ^ (d - 1) - 1) ≤ rowOff d' := by
  induction d' with
  | zero => omega
  | succ n ih =>
    rw [← rowOff_succ hd]
    rcases Nat.lt_or_ge d n with h' | h'
    · rw [rowOff_succ (show 1 ≤ n by omega)]
      rw [← rowOff_succ hd] at ih
      exact Nat.le_trans (ih h') (Nat.le_add_right _ _)
    · rw [show n = d by omega]

/-- The slots of different nodes are different. -/
theorem rowOff_inj {d d' y y' : Nat} (hd : 1 ≤ d) (hd' : 1 ≤ d') (hy : y + 1 < 2 ^ (d - 1)) (hy' : y' + 1 < 2 ^ (d' - 1))
    (h : rowOff d + y = rowOff d' + y') : d = d' ∧ y = y' := by
  rcases Nat.lt_trichotomy d d' with g | g | g
  · have := rowOff_le hd g; omega
  · subst g; exact ⟨rfl, by omega⟩
  · have := rowOff_le hd' g; omega

theorem rowOff_lt {d κ y : Nat} (hd : 1 ≤ d) (hk : d ≤ κ) (hy : y + 1 < 2 ^ (d - 1)) : rowOff d + y < 2 ^ κ - κ - 1 := by
  have := rowOff_le hd (show d < κ + 1 by omega)
  have e : rowOff (κ + 1) = 2 ^ κ - (κ + 1) := by rw [rowOff, Nat.add_sub_cancel]
  omega

/-- The slot of `retain` for node `2 * y + 3` of the level `d` levels below the root. -/
def slot (d y : Nat) : Nat := retainSlot (rowOff d + y)

theorem slot_le (d y : Nat) : slot d y ≤ rowOff d + y := by rw [slot, retainSlot]; omega

theorem slot_mod {d κ y : Nat} (hd : 1 ≤ d) (hk : d ≤ κ) (h30 : κ ≤ 30) (hy : y + 1 < 2 ^ (d - 1)) : slot d y = (rowOff d + y) % 2 ^ 27 := by
  have := rowOff_lt hd hk hy
  have hb : 2 ^ κ ≤ 2 ^ 30 := Nat.pow_le_pow_right (by omega) h30
  rw [slot, retainSlot]
  omega

/-- The last node that key generation writes into its slot. -/
def Good (κ h d y : Nat) : Prop := ∀ d' y' : Nat, 2 ≤ d' → d' ≤ κ → y' + 1 < 2 ^ (d' - 1) → slot d' y' = slot d y →
  (d' = d ∧ y' = y) ∨ 2 ^ (h - d') * (2 * y' + 4) < 2 ^ (h - d) * (2 * y + 4) ∨
    (2 ^ (h - d') * (2 * y' + 4) = 2 ^ (h - d) * (2 * y + 4) ∧ h - d' < h - d)

/-- Up to `κ = 26` the slots of all nodes differ. -/
theorem good_of_le {κ h d y : Nat} (hκ26 : κ ≤ 26) (hd : 2 ≤ d) (hk : d ≤ κ) (hy : y + 1 < 2 ^ (d - 1)) : Good κ h d y := by
  intro d' y' hd' hk' hy' hs
  have h1 := rowOff_lt (by omega) hk hy
  have h2 := rowOff_lt (by omega) hk' hy'
  have hb : 2 ^ κ ≤ 2 ^ 26 := Nat.pow_le_pow_right (by omega) hκ26
  rw [slot_mod (by omega) hk' (by omega) hy', slot_mod (by omega) hk (by omega) hy, Nat.mod_eq_of_lt (by omega), Nat.mod_eq_of_lt (by omega)] at hs
  exact Or.inl (rowOff_inj (by omega) (by omega) hy' hy hs)

/-- The authentication path of leaf `t`. -/
def path (N : Nat → Nat → Bytes) (t i : Nat) : Bytes := N i (Spec.sibling (t / 2 ^ i))

/-- The part of the traversal state with the authentication path. -/
structure AuthInvP (κ : Nat) (N : Nat → Nat → Bytes) (h t : Nat) (P : Nat → Bytes) (st : BdsState) : Prop where
  lauth : st.auth.length = h
  lkeep : st.keep.length = h / 2
  auth : ∀ i, i < h → st.auth[i]? = some (some (P i))
  keep : ∀ i, i + 1 < h → t / 2 ^ i % 2 = 1 → t / 2 ^ (i + 1) % 2 = 0 → st.keep[i / 2]? = some (some (N i (t / 2 ^ i)))
  retain : ∀ d y : Nat, 2 ≤ d → d ≤ κ → y + 1 < 2 ^ (d - 1) → Good κ h d y → st.retain[slot d y]? = some (some (N (h - d) (2 * y + 3)))

/-- With the right path. -/
abbrev AuthInv (κ : Nat) (N : Nat → Nat → Bytes) (h t : Nat) (st : BdsState) : Prop := AuthInvP κ N h t (path N t) st

theorem roundAuth_eq (p : XmssParams) (t tau q : Nat) (F : TauFacts t tau q) (htau : tau < p.h) (hh : 4 ≤ p.h)
    (hh30 : p.h ≤ 30)
    (ht : t + 1 < 2 ^ p.h) (N : Nat → Nat → Bytes) (R : Nat → Bytes) (m : Nat) : ∀ (i : Nat) (st : BdsState), i + m = tau →
      st.auth.length = p.h →
      (∀ j, p.h - κ ≤ j → j < tau → st.retain[slot (p.h - j) ((t + 1) / 2 ^ (j + 1) - 1)]? = some (some (R j))) →
      (∀ j, j < p.h - κ → j < tau → ∃ tr, st.treehash[j]? = some tr ∧ tr.node = some (N j ((t + 1) / 2 ^ j + 1))) →
      ∃ auth', roundAuth κ p t m i st = ok { st with auth := auth' } ∧ auth'.length = p.h ∧
        (∀ j, j < i ∨ tau ≤ j → auth'[j]? = st.auth[j]?) ∧
        (∀ j, i ≤ j → j < tau → auth'[j]? = some (some (if j < p.h - κ then N j ((t + 1) / 2 ^ j + 1) else R j))) := by
  induction m with
  | zero =>
    intro i st hi hl _ _
    exact ⟨st.auth, rfl, hl, fun _ _ => rfl, fun j h1 h2 => by omega⟩
  | succ m ih =>
    intro i st hi hl hr hth
    have hcell : ∀ f : Cell → Outcome BdsState, (if i < p.h - κ then (rd st.treehash i >>= fun t => f t.node)
        else rd st.retain (retainSlot (((((1 <<< (p.h - 1 - i)) + i + sub32 0 p.h) % 2 ^ 32) +
          (sub64 (t >>> i) 1 >>> 1) % 2 ^ 32) % 2 ^ 32)) >>= f) = f (some (if i < p.h - κ then N i ((t + 1) / 2 ^ i + 1) else R i)) := by
      intro f
      by_cases hi2 : i < p.h - κ
      · rw [if_pos hi2]
        obtain ⟨tr, h1, h2⟩ := hth i hi2 (by omega)
        rw [rd_eq_ok h1, ok_bind, h2, if_pos hi2]
      · rw [if_neg hi2, if_neg hi2]
        have hnew := F.div_le (i := i) (by omega)
        have hev : (t + 1) / 2 ^ i = 2 * (2 ^ (tau - i - 1) * (2 * q + 1)) := by
          rw [hnew, show tau - i = (tau - i - 1) + 1 by omega, Nat.pow_succ]
          simp only [Nat.add_sub_cancel]
          ring
        have hzpos : 0 < 2 ^ (tau - i - 1) * (2 * q + 1) := Nat.mul_pos (Nat.two_pow_pos _) (by omega)
        generalize 2 ^ (tau - i - 1) * (2 * q + 1) = z at hev hzpos
        have hold : t / 2 ^ i = 2 * z - 1 := by
          have hpi := Nat.two_pow_pos i
          have hmod : (t + 1) % 2 ^ i = 0 := by
            rw [F.eq, show tau = i + (tau - i) by omega, Nat.pow_add, Nat.mul_assoc, Nat.mul_mod_right]
          have e1 := Nat.div_add_mod (t + 1) (2 ^ i)
          rw [hmod, hev, Nat.add_zero] at e1
          have e2 : t = 2 ^ i * (2 * z - 1) + (2 ^ i - 1) := by
            have : 2 ^ i * (2 * z) = 2 ^ i * (2 * z - 1) + 2 ^ i := by
              rw [← Nat.mul_succ]; congr 1; omega
            omega
          rw [e2, Nat.mul_add_div hpi, Nat.div_eq_of_lt (by omega), Nat.add_zero]
        have hzlt : z < 2 ^ (p.h - i - 1) := by
          have : (t + 1) / 2 ^ i < 2 ^ (p.h - i) := by
            rw [Nat.div_lt_iff_lt_mul (Nat.two_pow_pos i), ← Nat.pow_add, show p.h - i + i = p.h by omega]
            exact ht
          rw [hev, show p.h - i = (p.h - i - 1) + 1 by omega, Nat.pow_succ] at this
          omega
        have hb : 2 ^ (p.h - i - 1) ≤ 2 ^ 29 := Nat.pow_le_pow_right (by omega) (by omega)
        have hge : p.h - i ≤ 2 ^ (p.h - i - 1) := by have := Nat.lt_two_pow_self (n := p.h - i - 1); omega
        have hidx : (((1 <<< (p.h - 1 - i)) + i + sub32 0 p.h) % 2 ^ 32 +
            (sub64 (t >>> i) 1 >>> 1) % 2 ^ 32) % 2 ^ 32 = rowOff (p.h - i) + (z - 1) := by
          rw [Nat.shiftRight_eq_div_pow t i, hold, show p.h - 1 - i = p.h - i - 1 by omega, rowOff]
          unfold sub32 sub64
          simp only [Nat.shiftLeft_eq, Nat.shiftRight_eq_div_pow]
          generalize 2 ^ (p.h - i - 1) = P at *
          omega
        have hz : (t + 1) / 2 ^ (i + 1) = z := by
          rw [Nat.pow_succ, ← Nat.div_div_eq_div_mul, hev]; omega
        have := hr i (by omega) (by omega)
        rw [hz, slot] at this
        rw [hidx, rd_eq_ok this, ok_bind]
    have hstep : roundAuth κ p t (m + 1) i st = (wr st.auth i (some (if i < p.h - κ then N i ((t + 1) / 2 ^ i + 1) else R i)) >>= fun auth =>
        roundAuth κ p t m (i + 1) { st with auth := auth }) := by
      rw [roundAuth]
      exact hcell fun c => wr st.auth i c >>= fun auth => roundAuth κ p t m (i + 1) { st with auth := auth }
    rw [hstep, wr_eq_ok _ (by omega), ok_bind]
    obtain ⟨auth', e1, e2, e3, e4⟩ := ih (i + 1)
      { st with auth := st.auth.set i (some (if i < p.h - κ then N i ((t + 1) / 2 ^ i + 1) else R i)) } (by omega) (by simpa using hl) hr hth
    refine ⟨auth', e1, e2, ?_, ?_⟩
    · intro j hj
      rw [e3 j (by omega)]
      simp only
      rw [List.getElem?_set, if_neg (by omega)]
    · intro j h1 h2
      rcases Nat.lt_or_ge i j with h | h
      · exact e4 j (by omega) h2
      · have : j = i := by omega
        subst this
        rw [e3 j (by omega)]
        simp only
        rw [List.getElem?_set, if_pos rfl, if_pos (by omega)]

theorem roundRestart_eq (hκ : 2 ≤ κ) (p : XmssParams) (t tau q : Nat) (F : TauFacts t tau q) (hh : p.h ≤ 30)
    (ht : t + 1 < 2 ^ p.h) (n : Nat) (hn : n ≤ tau) (hn2 : n ≤ p.h - κ) (m : Nat) : ∀ (i : Nat) (st : BdsState),
      i + m = n → st.treehash.length = p.h - κ →
      ∃ ths, roundRestart p t m i st = ok { st with treehash := ths } ∧ ths.length = p.h - κ ∧
        (∀ j, j < i ∨ n ≤ j → ths[j]? = st.treehash[j]?) ∧
        (∀ j, i ≤ j → j < n → ∃ tr, st.treehash[j]? = some tr ∧ ths[j]? = some
          (if startOf j (t + 1) < 2 ^ p.h then
            { tr with h := j, nextIdx := startOf j (t + 1), completed := false, stackusage := 0 } else tr)) := by
  induction m with
  | zero =>
    intro i st hi hl
    exact ⟨st.treehash, rfl, hl, fun _ _ => rfl, fun j h1 h2 => by omega⟩
  | succ m ih =>
    intro i st hi hl
    rw [roundRestart]
    have hs : (t + 1 + 3 * (1 <<< i)) % 2 ^ 32 = startOf i (t + 1) := by
      rw [F.startOf_new (by omega), Nat.one_shiftLeft]
      apply Nat.mod_eq_of_lt
      have h1 : 2 ^ p.h ≤ 2 ^ 30 := Nat.pow_le_pow_right (by omega) hh
      have h2 : 2 ^ i ≤ 2 ^ 27 := Nat.pow_le_pow_right (by omega) (by omega)
      omega
    simp only [hs]
    obtain ⟨tr, htr⟩ : ∃ tr, st.treehash[i]? = some tr := ⟨st.treehash[i]'(by omega), List.getElem?_eq_getElem (by omega)⟩
    by_cases hlt : startOf i (t + 1) < 2 ^ p.h
    · rw [if_pos hlt, rd_eq_ok htr, ok_bind, wr_eq_ok _ (by omega), ok_bind]
      obtain ⟨ths, e1, e2, e3, e4⟩ := ih (i + 1) { st with treehash := st.treehash.set i { tr with h := i, nextIdx := startOf i (t + 1), completed := false, stackusage := 0 } } (by omega) (by simpa using hl)
      refine ⟨ths, e1, e2, ?_, ?_⟩
      · intro j hj
        rw [e3 j (by omega)]
        simp only
        rw [List.getElem?_set, if_neg (by omega)]
      · intro j h1 h2
        rcases Nat.lt_or_ge i j with h | h
        · obtain ⟨tr', g1, g2⟩ := e4 j (by omega) h2
          simp only at g1
          rw [List.getElem?_set, if_neg (by omega)] at g1
          exact ⟨tr', g1, g2⟩
        · have : j = i := by omega
          subst this
          refine ⟨tr, htr, ?_⟩
          rw [e3 j (by omega), if_pos hlt]
          simp only
          rw [List.getElem?_set, if_pos rfl, if_pos (by omega)]
    · rw [if_neg hlt]
      obtain ⟨ths, e1, e2, e3, e4⟩ := ih (i + 1) st (by omega) hl
      refine ⟨ths, e1, e2, fun j hj => e3 j (by omega), ?_⟩
      intro j h1 h2
      rcases Nat.lt_or_ge i j with h | h
      · exact e4 j (by omega) h2
      · have : j = i := by omega
        subst this
        refine ⟨tr, htr, ?_⟩
        rw [e3 j (by omega), if_neg hlt]
        exact htr

theorem seg_restart (N : Nat → Nat → Bytes) {h t tau q : Nat} (F : TauFacts t tau q) (T : Prog)
    (hdone : ∀ i, i < h - κ → i < tau → T i = none) (i : Nat) (hi : i < h - κ) :
    seg N t T i = seg N (t + 1) (restartProg h tau t T) i := by
  unfold seg restartProg
  rcases Nat.lt_or_ge i tau with hlt | hge
  · rw [hdone i hi hlt]
    by_cases hs : startOf i (t + 1) < 2 ^ h
    · rw [if_pos ⟨hlt, hs⟩]; simp only [segE_zero]
    · rw [if_neg (by omega)]
  · rw [if_neg (by omega), F.startOf_same hge]

theorem sep_restart {h t tau : Nat} {T : Prog} (hs : Sep (h - κ) T) : Sep (h - κ) (restartProg h tau t T) := by
  intro i i' c c' h1 h2 h3 h4 h5
  unfold restartProg at h3 h5
  by_cases hi : i < tau ∧ startOf i (t + 1) < 2 ^ h
  · rw [if_pos hi] at h3; injection h3 with h3; omega
  · rw [if_neg hi] at h3
    by_cases hi' : i' < tau ∧ startOf i' (t + 1) < 2 ^ h
    · rw [if_pos hi'] at h5; injection h5 with h5; subst h5; exact Nat.dvd_zero _
    · rw [if_neg hi'] at h5; exact hs i i' c c' h1 h2 h3 h4 h5

/-- The tree-hash invariant after the restarts. -/
theorem thInv_restart {N : Nat → Nat → Bytes} {h t tau q : Nat} (F : TauFacts t tau q) {T : Prog} {st st' : BdsState}
    (H : ThInv κ N h t T st) (hdone : ∀ i, i < h - κ → i < tau → T i = none)
    (e1 : st'.stack = st.stack) (e2 : st'.stacklevels = st.stacklevels) (e3 : st'.stackoffset = st.stackoffset)
    (hl : st'.treehash.length = h - κ)
    (hhi : ∀ j, tau ≤ j → st'.treehash[j]? = st.treehash[j]?)
    (hlo : ∀ j, j < h - κ → j < tau → ∃ tr, st.treehash[j]? = some tr ∧ st'.treehash[j]? = some
          (if startOf j (t + 1) < 2 ^ h then
            { tr with h := j, nextIdx := startOf j (t + 1), completed := false, stackusage := 0 } else tr)) :
    ThInv κ N h (t + 1) (restartProg h tau t T) st' := by
  have hE : ents N (t + 1) (restartProg h tau t T) (h - κ) 0 = ents N t T (h - κ) 0 :=
    (ents_congr N t (t + 1) T _ (h - κ) 0 fun j _ h2 => seg_restart N F T hdone j (by omega)).symm
  refine ⟨by rw [e1]; exact H.lstack, by rw [e2]; exact H.llevels, hl, sep_restart H.sep, ?_, ?_, ?_⟩
  · rw [e1, e2, hE]; exact H.holds
  · rw [e3, hE]; exact H.offset
  · intro i hi
    rcases Nat.lt_or_ge i tau with hlt | hge
    · obtain ⟨tr, g1, g2⟩ := hlo i hi hlt
      refine ⟨_, g2, ?_⟩
      unfold InstOk restartProg
      by_cases hs : startOf i (t + 1) < 2 ^ h
      · rw [if_pos ⟨hlt, hs⟩, if_pos hs]
        refine ⟨rfl, rfl, rfl, Nat.two_pow_pos i, by rw [segE_zero]; rfl, ?_⟩
        obtain ⟨z, hz⟩ := pow_dvd_startOf i (t + 1)
        have e : 2 ^ h = 2 ^ i * 2 ^ (h - i) := by rw [← Nat.pow_add]; congr 1; omega
        rw [hz, e] at hs ⊢
        have hlt' := Nat.lt_of_mul_lt_mul_left hs
        calc 2 ^ i * z + 2 ^ i = 2 ^ i * (z + 1) := by ring
          _ ≤ _ := Nat.mul_le_mul_left _ hlt'
      · rw [if_neg (by omega), hdone i hi hlt, if_neg hs]
        obtain ⟨tr', k1, k2⟩ := H.inst i hi
        rw [g1] at k1
        injection k1 with k1
        subst k1
        unfold InstOk at k2
        rw [hdone i hi hlt] at k2
        refine ⟨k2.1, ?_⟩
        intro hc
        have := Nat.two_pow_pos i
        omega
    · obtain ⟨tr, k1, k2⟩ := H.inst i hi
      refine ⟨tr, by rw [hhi i hge]; exact k1, ?_⟩
      unfold InstOk restartProg at *
      rw [if_neg (by omega), F.startOf_same hge]
      exact k2

/-- The path in the state after the round from leaf `t` with path `P`, where `R` is what the round finds in `retain`. -/
def nextPath (κ h : Nat) (N : Nat → Nat → Bytes) (t : Nat) (P R : Nat → Bytes) (i : Nat) : Bytes :=
  if h - κ ≤ i ∧ 2 ^ (i + 1) ∣ t + 1 then R i
  else if 2 ^ i ∣ t + 1 then path N (t + 1) i else P i

theorem bdsRound_eq (hκ : 2 ≤ κ) (hκ2 : κ % 2 = 0) (S : Sha256) (hf : HashFn) (sk ps : Bytes) (p : XmssParams) (h1 : 1 ≤ p.wots.len)
    (hκh : κ < p.h) (hh4 : 4 ≤ p.h) (hh30 : p.h ≤ 30) (hev : p.h % 2 = 0) {t : Nat} (ht : t + 1 < 2 ^ p.h) {T : Prog} {st : BdsState}
    (H : ThInv κ (Spec.node (hf.prim S) p.wots.w p.wots.len sk ps) p.h t T st)
    {P R : Nat → Bytes}
    (A : AuthInvP κ (Spec.node (hf.prim S) p.wots.w p.wots.len sk ps) p.h t P st)
    (hP : ∀ i, i < p.h → 2 ^ i ∣ t + 1 → P i = path (Spec.node (hf.prim S) p.wots.w p.wots.len sk ps) t i)
    (hR : ∀ i, i < p.h → p.h - κ ≤ i → 2 ^ (i + 1) ∣ t + 1 → st.retain[slot (p.h - i) ((t + 1) / 2 ^ (i + 1) - 1)]? = some (some (R i)))
    (B : Budget (p.h - κ) ((p.h - κ) >>> 1) t T) (a b c d e : Nat) :
    ∃ st' T', bdsRound κ S hf st t sk p ps ⟨0, 0, 0, a, b, c, d, e⟩ = ok st' ∧
      ThInv κ (Spec.node (hf.prim S) p.wots.w p.wots.len sk ps) p.h (t + 1) T' st' ∧
      AuthInvP κ (Spec.node (hf.prim S) p.wots.w p.wots.len sk ps) p.h (t + 1)
        (nextPath κ p.h (Spec.node (hf.prim S) p.wots.w p.wots.len sk ps) t P R) st' ∧
      (∀ i, i < p.h - κ → 2 ^ (i + 1) ∣ t + 1 → T' i = none ∨ T' i = some 0) ∧
      (∀ i, i < p.h - κ → ¬ 2 ^ (i + 1) ∣ t + 1 → T' i = T i) := by
  obtain ⟨q, htau, heq⟩ := findTau_spec t p.h ht p.h 0 (by omega) (by simp [Nat.mod_one])
  rw [bdsRound]
  simp only [Adrs.derive, Adrs.setType]
  generalize findTau t p.h p.h 0 = tau at *
  have F : TauFacts t tau q := ⟨heq⟩
  generalize hN : Spec.node (hf.prim S) p.wots.w p.wots.len sk ps = N at *
  have hM : p.h - κ = 2 * ((p.h - κ) >>> 1) := by rw [Nat.shiftRight_eq_div_pow]; omega
  have hdone : ∀ i, i < p.h - κ → i < tau → T i = none := fun i hi hlt =>
    B.done hM H.fits i hi (F.dvd_iff.mpr hlt)
  have hcond : (t >>> (tau + 1) &&& 1 = 0 ∧ tau < p.h - 1) ↔ (q % 2 = 0 ∧ tau < p.h - 1) := by
    rw [and_one_eq, Nat.shiftRight_eq_div_pow, Nat.pow_succ, ← Nat.div_div_eq_div_mul, F.old_tau,
      Nat.mul_div_cancel_left _ (by omega)]
  have hshift : tau >>> 1 = tau / 2 := by rw [Nat.shiftRight_eq_div_pow]
  have hdiv : ∀ i, 2 ^ i ∣ t + 1 ↔ i ≤ tau := by
    intro i
    cases i with
    | zero => simp
    | succ i => rw [F.dvd_iff]; omega
  have hauthtau : rd st.auth tau = ok (some (N tau (2 * q + 1))) := by
    have := A.auth tau htau
    rw [hP tau htau ((hdiv tau).mpr (Nat.le_refl _)), path, F.old_tau, sibling_even (by omega)] at this
    exact rd_eq_ok this
  -- the kept nodes
  have hK1 : q % 2 = 0 ∧ tau < p.h - 1 → ∀ i, i + 1 < p.h → (t + 1) / 2 ^ i % 2 = 1 → (t + 1) / 2 ^ (i + 1) % 2 = 0 →
      (st.keep.set (tau / 2) (some (N tau (2 * q + 1))))[i / 2]? = some (some (N i ((t + 1) / 2 ^ i))) := by
    intro hc i hi b1 b2
    rcases Nat.lt_trichotomy i tau with h | h | h
    · have := F.div_lt_even h; omega
    · subst h
      rw [List.getElem?_set, if_pos rfl, if_pos (by rw [A.lkeep]; omega), F.div_tau]
    · have hne : tau / 2 ≠ i / 2 := by
        intro he
        have hi1 : i = tau + 1 := by omega
        rw [hi1, Nat.pow_succ, ← Nat.div_div_eq_div_mul, F.div_tau] at b1
        omega
      rw [List.getElem?_set, if_neg hne, F.div_gt h]
      rw [F.div_gt h] at b1
      rw [F.div_gt (by omega)] at b2
      exact A.keep i hi b1 b2
  have hK2 : ¬ (q % 2 = 0 ∧ tau < p.h - 1) → ∀ i, i + 1 < p.h → (t + 1) / 2 ^ i % 2 = 1 →
      (t + 1) / 2 ^ (i + 1) % 2 = 0 → st.keep[i / 2]? = some (some (N i ((t + 1) / 2 ^ i))) := by
    intro hc i hi b1 b2
    rcases Nat.lt_trichotomy i tau with h | h | h
    · have := F.div_lt_even h; omega
    · subst h
      rw [Nat.pow_succ, ← Nat.div_div_eq_div_mul, F.div_tau] at b2
      omega
    · rw [F.div_gt h]
      rw [F.div_gt h] at b1
      rw [F.div_gt (by omega)] at b2
      exact A.keep i hi b1 b2
  -- the authentication path
  have hA : ∀ auth' : List Cell, auth'[tau]? = some (some (N tau (2 * q))) →
      (∀ j, tau < j → auth'[j]? = st.auth[j]?) →
      (∀ j, j < tau → auth'[j]? = some (some (if j < p.h - κ then N j ((t + 1) / 2 ^ j + 1) else R j))) →
      ∀ i, i < p.h → auth'[i]? = some (some (nextPath κ p.h N t P R i)) := by
    intro auth' g1 g2 g3 i hi
    rcases Nat.lt_trichotomy i tau with h | h | h
    · rw [g3 i h, nextPath, path, if_pos ((hdiv i).mpr (by omega)), sibling_even (F.div_lt_even h)]
      by_cases hk : i < p.h - κ
      · rw [if_pos hk, if_neg (by omega)]
      · rw [if_neg hk, if_pos ⟨by omega, (hdiv _).mpr h⟩]
    · subst h
      rw [g1, nextPath, path, if_neg (by rw [hdiv]; omega), if_pos ((hdiv i).mpr (Nat.le_refl _)), F.div_tau, sibling_odd (by omega)]; rfl
    · rw [g2 i h, nextPath, if_neg (by rw [hdiv]; omega), if_neg (by rw [hdiv]; omega)]; exact A.auth i hi
  have hT1 : ∀ i, i < p.h - κ → 2 ^ (i + 1) ∣ t + 1 →
      restartProg p.h tau t T i = none ∨ restartProg p.h tau t T i = some 0 := by
    intro i hi hd
    unfold restartProg
    split
    · exact Or.inr rfl
    · exact Or.inl (hdone i hi (F.dvd_iff.mp hd))
  have hT2 : ∀ i, i < p.h - κ → ¬ 2 ^ (i + 1) ∣ t + 1 → restartProg p.h tau t T i = T i := by
    intro i hi hd
    unfold restartProg
    rw [F.dvd_iff] at hd
    rw [if_neg (by omega)]
  rcases Nat.eq_zero_or_pos tau with h0 | hpos
  · subst h0
    rw [if_neg (by omega), ok_bind]
    obtain ⟨t5, t6, t7, o5, o6, o7, hleaf⟩ := genLeafWots_eq S hf sk p ps h1 t 0 0 0 0 0 0
    have hleaf' : genLeafWots S hf sk p ps (({ w3 := 1 } : Adrs).setLtree t) (({} : Adrs).setOTS t) = _ := hleaf
    have ht0 : t = 2 * q := by have := F.old_tau; simpa using this
    have hl0 : Spec.leaf (hf.prim S) p.wots.w p.wots.len sk ps t = N 0 (2 * q) := by
      rw [← ht0, ← hN]; rfl
    have fin : ∀ keep1 : List Cell, keep1.length = p.h / 2 →
        (∀ i, i + 1 < p.h → (t + 1) / 2 ^ i % 2 = 1 → (t + 1) / 2 ^ (i + 1) % 2 = 0 →
          keep1[i / 2]? = some (some (N i ((t + 1) / 2 ^ i)))) →
        ThInv κ N p.h (t + 1) (restartProg p.h 0 t T)
          { st with auth := st.auth.set 0 (some (N 0 (2 * q))), keep := keep1 } ∧
        AuthInvP κ N p.h (t + 1) (nextPath κ p.h N t P R) { st with auth := st.auth.set 0 (some (N 0 (2 * q))), keep := keep1 } := by
      intro keep1 k1 k2
      refine ⟨thInv_restart F H hdone rfl rfl rfl H.lth (fun _ _ => rfl) (fun j _ h => by omega), ?_⟩
      refine ⟨by simpa using A.lauth, k1, ?_, k2, A.retain⟩
      apply hA
      · simp only
        rw [List.getElem?_set, if_pos rfl, if_pos (by rw [A.lauth]; omega)]
      · intro j hj
        simp only
        rw [List.getElem?_set, if_neg (by omega)]
      · intro j hj; omega
    by_cases hc : q % 2 = 0 ∧ 0 < p.h - 1
    · rw [if_pos (hcond.mpr hc), hauthtau, ok_bind, hshift, wr_eq_ok _ (by rw [A.lkeep]; omega), ok_bind, ok_bind,
        if_pos rfl, hleaf']
      simp only [ok_bind]
      rw [wr_eq_ok _ (by rw [A.lauth]; omega), ok_bind, hl0]
      obtain ⟨g1, g2⟩ := fin (st.keep.set (0 / 2) (some (N 0 (2 * q + 1)))) (by simpa using A.lkeep) (hK1 hc)
      exact ⟨_, _, rfl, g1, g2, hT1, hT2⟩
    · rw [if_neg (fun h => hc (hcond.mp h)), ok_bind, if_pos rfl, hleaf']
      simp only [ok_bind]
      rw [wr_eq_ok _ (by rw [A.lauth]; omega), ok_bind, hl0]
      obtain ⟨g1, g2⟩ := fin st.keep A.lkeep (hK2 hc)
      exact ⟨_, _, rfl, g1, g2, hT1, hT2⟩
  · have hbuf1 : rd st.auth (tau - 1) = ok (some (N (tau - 1) (4 * q))) := by
      have := A.auth (tau - 1) (by omega)
      rw [hP (tau - 1) (by omega) ((hdiv _).mpr (by omega)), path, F.old_pred hpos, sibling_odd (by omega)] at this
      exact rd_eq_ok this
    have hbuf2 : rd st.keep ((tau - 1) >>> 1) = ok (some (N (tau - 1) (4 * q + 1))) := by
      have := A.keep (tau - 1) (by omega) (by rw [F.old_pred hpos]; omega)
        (by rw [show tau - 1 + 1 = tau by omega, F.old_tau]; omega)
      rw [F.old_pred hpos] at this
      rw [Nat.shiftRight_eq_div_pow]
      exact rd_eq_ok this
    rw [if_pos hpos, hbuf1, ok_bind, hbuf2, ok_bind, ok_bind]
    have hnode : Spec.H (hf.prim S) ps 2 0 (tau - 1) (t >>> tau) (N (tau - 1) (4 * q)) (N (tau - 1) (4 * q + 1)) =
        N tau (2 * q) := by
      rw [Nat.shiftRight_eq_div_pow, F.old_tau, ← hN]
      conv_rhs => rw [show tau = (tau - 1) + 1 by omega]
      rw [Spec.node, show 2 * (2 * q) = 4 * q by omega]
    have fin : ∀ keep1 : List Cell, keep1.length = p.h / 2 →
        (∀ i, i + 1 < p.h → (t + 1) / 2 ^ i % 2 = 1 → (t + 1) / 2 ^ (i + 1) % 2 = 0 →
          keep1[i / 2]? = some (some (N i ((t + 1) / 2 ^ i)))) →
        ∃ st' T', (roundAuth κ p t tau 0 { st with auth := st.auth.set tau (some (N tau (2 * q))), keep := keep1 } >>=
            fun st => roundRestart p t (if tau < p.h - κ then tau else p.h - κ) 0 st) = ok st' ∧
          ThInv κ N p.h (t + 1) T' st' ∧ AuthInvP κ N p.h (t + 1) (nextPath κ p.h N t P R) st' ∧
          (∀ i, i < p.h - κ → 2 ^ (i + 1) ∣ t + 1 → T' i = none ∨ T' i = some 0) ∧
          (∀ i, i < p.h - κ → ¬ 2 ^ (i + 1) ∣ t + 1 → T' i = T i) := by
      intro keep1 k1 k2
      obtain ⟨auth', r1, r2, r3, r4⟩ := roundAuth_eq p t tau q F htau hh4 hh30 ht N R tau 0
        { st with auth := st.auth.set tau (some (N tau (2 * q))), keep := keep1 } (by omega) (by simpa using A.lauth)
        (fun j hj hjt => hR j (by omega) hj ((hdiv _).mpr hjt)) (by
          intro j hj hjt
          obtain ⟨tr, g1, g2⟩ := H.inst j hj
          refine ⟨tr, g1, ?_⟩
          unfold InstOk at g2
          rw [hdone j hj hjt] at g2
          rw [← F.startOf_old_div hjt]
          apply g2.2
          rw [F.startOf_old hjt]
          have := F.room hjt htau ht
          have e2 : 2 ^ (j + 1) = 2 * 2 ^ j := by ring
          omega)
      rw [r1, ok_bind]
      obtain ⟨ths, s1, s2, s3, s4⟩ := roundRestart_eq hκ p t tau q F hh30 ht (if tau < p.h - κ then tau else p.h - κ)
        (by split <;> omega) (by split <;> omega) (if tau < p.h - κ then tau else p.h - κ) 0
        { st with auth := auth', keep := keep1 } (by omega) H.lth
      refine ⟨_, restartProg p.h tau t T, s1, ?_, ?_, hT1, hT2⟩
      · refine thInv_restart F H hdone rfl rfl rfl s2 ?_ ?_
        · intro j hj
          exact s3 j (Or.inr (by split <;> omega))
        · intro j hj hjt
          exact s4 j (Nat.zero_le _) (by split <;> omega)
      · refine ⟨r2, k1, ?_, k2, A.retain⟩
        apply hA
        · show auth'[tau]? = _
          rw [r3 tau (Or.inr (Nat.le_refl _))]
          simp only
          rw [List.getElem?_set, if_pos rfl, if_pos (by rw [A.lauth]; omega)]
        · intro j hj
          show auth'[j]? = _
          rw [r3 j (Or.inr (by omega))]
          simp only
          rw [List.getElem?_set, if_neg (by omega)]
        · intro j hj
          exact r4 j (Nat.zero_le _) hj
    have hhash : (hashH S hf (N (tau - 1) (4 * q) ++ N (tau - 1) (4 * q + 1)) ps
        ((({ w3 := 2 } : Adrs).setTreeHeight (tau - 1)).setTreeIndex (t >>> tau))).1 = N tau (2 * q) := by
      rw [← hnode]
      simp only [Adrs.setTreeHeight, Adrs.setTreeIndex, hashH_eq]
    by_cases hc : q % 2 = 0 ∧ tau < p.h - 1
    · rw [if_pos (hcond.mpr hc), hauthtau, ok_bind, hshift, wr_eq_ok _ (by rw [A.lkeep]; omega), ok_bind, ok_bind,
        if_neg (by omega)]
      simp only [ofOption_some, ok_bind]
      rw [hhash, wr_eq_ok _ (by rw [A.lauth]; omega), ok_bind]
      exact fin (st.keep.set (tau / 2) (some (N tau (2 * q + 1)))) (by simpa using A.lkeep) (hK1 hc)
    · rw [if_neg (fun h => hc (hcond.mp h)), ok_bind, if_neg (by omega)]
      simp only [ofOption_some, ok_bind]
      rw [hhash, wr_eq_ok _ (by rw [A.lauth]; omega), ok_bind]
      exact fin st.keep A.lkeep (hK2 hc)

/-- State of the setup while leaf `i` has been merged up to (excluding) level `l`. -/
structure SetupInv (κ : Nat) (N : Nat → Nat → Bytes) (h i l : Nat) (st0 st : BdsState) : Prop where
  stack : st.stack = st0.stack
  levels : st.stacklevels = st0.stacklevels
  offset : st.stackoffset = st0.stackoffset
  keep : st.keep = st0.keep
  lauth : st.auth.length = h
  lth : st.treehash.length = h - κ
  lretain : st.retain.length = 2 ^ κ - κ - 1
  auth : ∀ k, k < h → (2 ^ (k + 1) ≤ i ∨ (k < l ∧ 2 ^ (k + 1) ≤ i + 1)) → st.auth[k]? = some (some (N k 1))
  th : ∀ k, k < h - κ → ∃ tr, st.treehash[k]? = some tr ∧ tr.completed = true ∧ tr.stackusage = 0 ∧ tr.h = k ∧
    ((2 ^ (k + 2) ≤ i ∨ (k < l ∧ 2 ^ (k + 2) ≤ i + 1)) → tr.node = some (N k 3))
  retain : ∀ d y : Nat, 2 ≤ d → d ≤ κ → y + 1 < 2 ^ (d - 1) →
    (2 ^ (h - d) * (2 * y + 4) ≤ i ∨ (h - d < l ∧ 2 ^ (h - d) * (2 * y + 4) ≤ i + 1)) → Good κ h d y →
    st.retain[slot d y]? = some (some (N (h - d) (2 * y + 3)))

theorem setupSave_eq {N : Nat → Nat → Bytes} {p : XmssParams} (hκh : κ < p.h) {i l q : Nat} {st0 st : BdsState} (hh : 4 ≤ p.h)
    (hh30 : p.h ≤ 30)
    (I : SetupInv κ N p.h i l st0 st) (hi : i < 2 ^ p.h) (hq : i + 1 = 2 ^ l * (q + 1)) (hodd : q % 2 = 1) :
    ∃ st', setupSave κ p i l (some (N l q)) st = ok st' ∧ SetupInv κ N p.h i (l + 1) st0 st' := by
  have hpl := Nat.two_pow_pos l
  have hshr : i >>> l = q := by
    rw [Nat.shiftRight_eq_div_pow]
    have : i = 2 ^ l * q + (2 ^ l - 1) := by rw [Nat.mul_add, Nat.mul_one] at hq; omega
    rw [this, Nat.mul_add_div hpl, Nat.div_eq_of_lt (by omega), Nat.add_zero]
  have e1 : 2 ^ (l + 1) = 2 ^ l * 2 := by ring
  have e2 : 2 ^ (l + 2) = 2 ^ l * 4 := by ring
  have hle : ∀ x y, x ≤ y → 2 ^ l * x ≤ 2 ^ l * y := fun x y h => Nat.mul_le_mul_left _ h
  have hlt : ∀ x y, 2 ^ l * x ≤ 2 ^ l * y → x ≤ y := fun x y h => Nat.le_of_mul_le_mul_left h hpl
  have hlh : l < p.h := by
    apply Classical.byContradiction
    intro hc
    have h1 : 2 ^ p.h ≤ 2 ^ l := Nat.pow_le_pow_right (by omega) (by omega)
    have h2 := hle 2 (q + 1) (by omega)
    omega
  rw [setupSave, hshr]
  by_cases hq1 : q = 1
  · subst hq1
    rw [if_pos rfl, wr_eq_ok _ (by rw [I.lauth]; omega), ok_bind]
    refine ⟨_, rfl, ⟨I.stack, I.levels, I.offset, I.keep, by simpa using I.lauth, I.lth, I.lretain, ?_, ?_, ?_⟩⟩
    · intro k hk hc
      simp only
      rw [List.getElem?_set]
      by_cases hkl : l = k
      · subst hkl; rw [if_pos rfl, if_pos (by rw [I.lauth]; omega)]
      · rw [if_neg hkl]
        exact I.auth k hk (by omega)
    · intro k hk
      obtain ⟨tr, g1, g2, g3, g4, g5⟩ := I.th k hk
      refine ⟨tr, g1, g2, g3, g4, ?_⟩
      intro hc
      apply g5
      by_cases hkl : k = l
      · subst hkl; omega
      · omega
    · intro d y hd hdk hy hc hg
      refine I.retain d y hd hdk hy ?_ hg
      by_cases hkl : p.h - d = l
      · rw [hkl] at hc
        have := hle 4 (2 * y + 4) (by omega)
        omega
      · omega
  · rw [if_neg hq1]
    have h4 : 2 ^ l * 4 ≤ i + 1 := by rw [hq]; exact hle _ _ (by omega)
    have hauth : ∀ k, k < p.h → (2 ^ (k + 1) ≤ i ∨ (k < l + 1 ∧ 2 ^ (k + 1) ≤ i + 1)) →
        st.auth[k]? = some (some (N k 1)) := by
      intro k hk hc
      apply I.auth k hk
      by_cases hkl : k = l
      · subst hkl; omega
      · omega
    have hsmall : l + 2 ≤ p.h := by
      apply Classical.byContradiction
      intro hc
      have : 2 ^ p.h = 2 ^ l * 2 := by rw [← e1]; congr 1; omega
      have := hlt (q + 1) 2 (by omega)
      omega
    by_cases hth : l < p.h - κ ∧ q = 3
    · rw [if_pos hth]
      obtain ⟨tr, g1, g2, g3, g4, g5⟩ := I.th l hth.1
      rw [setThNode_eq g1]
      refine ⟨_, rfl, ⟨I.stack, I.levels, I.offset, I.keep, I.lauth, by simpa using I.lth, I.lretain, hauth, ?_, ?_⟩⟩
      · intro k hk
        simp only
        by_cases hkl : l = k
        · subst hkl
          refine ⟨{ tr with node := some (N l q) }, ?_, g2, g3, g4, ?_⟩
          · rw [List.getElem?_set, if_pos rfl, if_pos (by rw [I.lth]; omega)]
          · intro _; rw [hth.2]
        · obtain ⟨tr', k1, k2, k3, k4, k5⟩ := I.th k hk
          refine ⟨tr', ?_, k2, k3, k4, fun hc => k5 (by omega)⟩
          rw [List.getElem?_set, if_neg hkl]; exact k1
      · intro d y hd hdk hy hc hg; exact I.retain d y hd hdk hy (by omega) hg
    · rw [if_neg hth]
      have hthk : ∀ k, k < p.h - κ → ∃ tr, st.treehash[k]? = some tr ∧ tr.completed = true ∧ tr.stackusage = 0 ∧
          tr.h = k ∧ ((2 ^ (k + 2) ≤ i ∨ (k < l + 1 ∧ 2 ^ (k + 2) ≤ i + 1)) → tr.node = some (N k 3)) := by
        intro k hk
        obtain ⟨tr', k1, k2, k3, k4, k5⟩ := I.th k hk
        refine ⟨tr', k1, k2, k3, k4, fun hc => k5 ?_⟩
        by_cases hkl : k = l
        · subst hkl
          left
          have := hle 5 (q + 1) (by omega)
          omega
        · omega
      by_cases hr : l ≥ p.h - κ
      · rw [if_pos hr, if_neg (by omega)]
        obtain ⟨y, hy⟩ : ∃ y, q = 2 * y + 3 := ⟨(q - 3) / 2, by omega⟩
        have hpd : 2 ^ p.h = 2 ^ l * (2 ^ (p.h - l - 1) * 2) := by
          rw [← Nat.pow_succ, ← Nat.pow_add]; congr 1; omega
        have hyd : y + 1 < 2 ^ (p.h - l - 1) := by
          have := hlt (q + 1) (2 ^ (p.h - l - 1) * 2) (by omega)
          omega
        have hb : 2 ^ (p.h - l - 1) ≤ 2 ^ 29 := Nat.pow_le_pow_right (by omega) (by omega)
        have hge : p.h - l ≤ 2 ^ (p.h - l - 1) := by have := Nat.lt_two_pow_self (n := p.h - l - 1); omega
        have hidx : ((1 <<< (p.h - 1 - l)) + l + sub32 0 p.h + (sub32 q 3) >>> 1) % 2 ^ 32 = rowOff (p.h - l) + y := by
          rw [hy, show p.h - 1 - l = p.h - l - 1 by omega, rowOff]
          unfold sub32
          simp only [Nat.shiftLeft_eq, Nat.shiftRight_eq_div_pow]
          clear hpd
          generalize 2 ^ (p.h - l - 1) = P at *
          omega
        have hroom : slot (p.h - l) y < st.retain.length := by
          rw [I.lretain]; exact Nat.lt_of_le_of_lt (slot_le _ _) (rowOff_lt (by omega) (by omega) hyd)
        rw [hidx, ← slot, wr_eq_ok _ hroom, ok_bind]
        refine ⟨_, rfl, ⟨I.stack, I.levels, I.offset, I.keep, I.lauth, I.lth, by simpa using I.lretain, hauth, hthk, ?_⟩⟩
        intro d y' hd hdk hy' hc hg
        simp only
        rw [List.getElem?_set]
        by_cases hsame : slot (p.h - l) y = slot d y'
        · have htime : 2 ^ (p.h - (p.h - l)) * (2 * y + 4) = i + 1 := by
            rw [show p.h - (p.h - l) = l by omega, hq, hy]
          rcases hg (p.h - l) y (by omega) (by omega) hyd hsame with ⟨g1, g2⟩ | g | g
          · subst g2
            rw [if_pos hsame, if_pos hroom, hy, ← g1, show p.h - (p.h - l) = l by omega]
          · omega
          · omega
        · rw [if_neg hsame]
          refine I.retain d y' hd hdk hy' ?_ hg
          by_cases hdl : p.h - d = l
          · left
            have hdd : d = p.h - l := by omega
            have hne : y' ≠ y := by rintro rfl; exact hsame (by rw [hdd])
            rw [hdl] at hc ⊢
            have hle' : 2 * y' + 4 ≤ q + 1 := hlt _ _ (by omega)
            have h5 := hle (2 * y' + 4 + 1) (q + 1) (by omega)
            rw [Nat.mul_add (2 ^ l) (2 * y' + 4) 1] at h5
            omega
          · omega
      · rw [if_neg hr]
        refine ⟨_, rfl, ⟨I.stack, I.levels, I.offset, I.keep, I.lauth, I.lth, I.lretain, hauth, hthk, ?_⟩⟩
        intro d y hd hdk hy hc hg; exact I.retain d y hd hdk hy (by omega) hg

theorem setupMerge_eq (S : Sha256) (hf : HashFn) (p : XmssParams) (sk ps : Bytes) (hκh : κ < p.h) (hh : 4 ≤ p.h) (hh30 : p.h ≤ 30)
    (i : Nat) (hi : i < 2 ^ p.h) (st0 : BdsState) (q : Nat) :
    ∀ (l : Nat) (nodes : List Cell) (levels : List (Option Nat)) (st : BdsState) (b c d : Nat),
      i + 1 = 2 ^ l * (q + 1) →
      Holds nodes levels ((l, Spec.node (hf.prim S) p.wots.w p.wots.len sk ps l q) ::
        segE (Spec.node (hf.prim S) p.wots.w p.wots.len sk ps) l 0 q) →
      SetupInv κ (Spec.node (hf.prim S) p.wots.w p.wots.len sk ps) p.h i l st0 st →
      ∃ th st' b' c' d', setupMerge κ S hf p ps i i
          ((segE (Spec.node (hf.prim S) p.wots.w p.wots.len sk ps) l 0 q).length + 1) nodes levels st
          ⟨0, 0, 0, 2, 0, b, c, d⟩ = ok (th, st', ⟨0, 0, 0, 2, 0, b', c', d'⟩) ∧
        Holds th.nodes th.levels (segE (Spec.node (hf.prim S) p.wots.w p.wots.len sk ps) l 0 (q + 1)) ∧
        th.offset = (segE (Spec.node (hf.prim S) p.wots.w p.wots.len sk ps) l 0 (q + 1)).length ∧
        th.nodes.length = nodes.length ∧ th.levels.length = levels.length ∧
        SetupInv κ (Spec.node (hf.prim S) p.wots.w p.wots.len sk ps) p.h (i + 1) 0 st0 st' := by
  induction q using Nat.strongRecOn with
  | _ q ih =>
    intro l nodes levels st b c d hq hH I
    generalize hN : Spec.node (hf.prim S) p.wots.w p.wots.len sk ps = N at *
    rcases Nat.mod_two_eq_zero_or_one q with h2 | h2
    · have hodd : segE N l 0 (q + 1) = (l, N l q) :: segE N l 0 q := by
        rw [segE_odd _ _ _ _ (by omega), segE_even _ _ _ _ h2, show (q + 1) / 2 = q / 2 by omega]
        simp
      refine ⟨⟨nodes, levels, (segE N l 0 q).length + 1⟩, st, b, c, d, ?_, ?_, ?_, rfl, rfl, ?_⟩
      · cases hs : segE N l 0 q with
        | nil => rfl
        | cons e es =>
          obtain ⟨v, x⟩ := e
          rw [hs] at hH
          obtain ⟨_, hl1, _, hl2, _⟩ := hH
          simp only [List.length_cons] at hl1
          simp only [List.length_cons, setupMerge, rdUse_eq_ok hl1, rdUse_eq_ok hl2, ok_bind]
          have hd := segE_head_dvd N q l 0 v x es hs
          have hne : ¬ l = v := by
            intro e; subst e
            simp at hd; omega
          rw [if_neg hne]
      · rw [hodd]; exact hH
      · rw [hodd]; rfl
      · -- every power of two equal to `i + 1` has been seen below level `l`
        have hpow' : ∀ k, 2 ^ k ∣ i + 1 → k ≤ l := by
          intro k hk
          apply Classical.byContradiction
          intro hc
          have h1 : 2 ^ (l + 1) ∣ 2 ^ l * (q + 1) := by
            rw [← hq]; exact Nat.dvd_trans (Nat.pow_dvd_pow 2 (by omega)) hk
          rw [Nat.pow_succ] at h1
          have := Nat.dvd_of_mul_dvd_mul_left (Nat.two_pow_pos l) h1
          omega
        have hpow : ∀ k, 2 ^ k = i + 1 → k ≤ l := fun k hk => hpow' k (by rw [hk])
        refine ⟨I.stack, I.levels, I.offset, I.keep, I.lauth, I.lth, I.lretain, ?_, ?_, ?_⟩
        · intro k hk hc
          apply I.auth k hk
          by_cases he : 2 ^ (k + 1) = i + 1
          · have := hpow _ he; right; omega
          · left; omega
        · intro k hk
          obtain ⟨tr, g1, g2, g3, g4, g5⟩ := I.th k hk
          refine ⟨tr, g1, g2, g3, g4, ?_⟩
          intro hc
          apply g5
          by_cases he : 2 ^ (k + 2) = i + 1
          · have := hpow _ he; right; omega
          · left; omega
        · intro d y hd hdk hy hc hg
          refine I.retain d y hd hdk hy ?_ hg
          by_cases he : 2 ^ (p.h - d) * (2 * y + 4) = i + 1
          · have := hpow' (p.h - d + 1) ⟨y + 2, by rw [← he, Nat.pow_succ]; ring⟩
            right; omega
          · left; omega
    · rw [segE_odd _ _ _ _ h2] at hH ⊢
      simp only [Nat.zero_add, Nat.zero_div] at hH ⊢
      obtain ⟨hn1, hl1, hn2, hl2, hrest⟩ := hH
      simp only [List.length_cons] at hl1 hn1
      obtain ⟨st1, hsave, I1⟩ := setupSave_eq hκh hh hh30 I hi hq h2
      simp only [List.length_cons, setupMerge, rdUse_eq_ok hl1, rdUse_eq_ok hl2, rdUse_eq_ok hn1,
        rdUse_eq_ok hn2, rd_eq_ok hn1, hsave, ok_bind, Adrs.setTreeHeight, Adrs.setTreeIndex, hashH_eq, if_true]
      have hlt := (List.getElem?_eq_some_iff.mp hn2).1
      have hlt2 := (List.getElem?_eq_some_iff.mp hl2).1
      rw [wr_eq_ok _ hlt, wr_eq_ok _ hlt2]
      simp only [ok_bind]
      have hshr : i >>> l = q := by
        have hpl := Nat.two_pow_pos l
        rw [Nat.shiftRight_eq_div_pow]
        have : i = 2 ^ l * q + (2 ^ l - 1) := by rw [Nat.mul_add, Nat.mul_one] at hq; omega
        rw [this, Nat.mul_add_div hpl, Nat.div_eq_of_lt (by omega), Nat.add_zero]
      have hnode : Spec.H (hf.prim S) ps 2 0 l (i >>> (l + 1)) (N l (q - 1)) (N l q) = N (l + 1) (q / 2) := by
        rw [shr_succ, hshr, ← hN, Spec.node]
        rw [show 2 * (q / 2) = q - 1 by omega, show q - 1 + 1 = q by omega]
      rw [hnode]
      have hq' : i + 1 = 2 ^ (l + 1) * (q / 2 + 1) := by
        rw [hq, Nat.pow_succ, Nat.mul_assoc]; congr 1; omega
      obtain ⟨th, st', b', c', d', r1, r2, r3, r4, r5, r6⟩ := ih (q / 2) (by omega) (l + 1)
        (nodes.set (segE N (l + 1) 0 (q / 2)).length (some (N (l + 1) (q / 2))))
        (levels.set (segE N (l + 1) 0 (q / 2)).length (some (l + 1))) st1 l (i >>> (l + 1)) 2
        hq' (hrest.push hlt hlt2 _ _) I1
      refine ⟨th, st', b', c', d', r1, ?_, ?_, by simpa using r4, by simpa using r5, r6⟩
      · rw [segE_even _ _ _ _ (by omega), show (q + 1) / 2 = q / 2 + 1 by omega]; exact r2
      · rw [segE_even _ _ _ _ (by omega), show (q + 1) / 2 = q / 2 + 1 by omega]; exact r3

theorem setupLoop_eq (S : Sha256) (hf : HashFn) (p : XmssParams) (sk ps : Bytes) (h1 : 1 ≤ p.wots.len)
    (hκh : κ < p.h) (hh : 4 ≤ p.h) (hh30 : p.h ≤ 30) (st0 : BdsState) (m : Nat) :
    ∀ (i : Nat) (th : THStack) (st : BdsState) (o4 o5 o6 o7 t4 t5 t6 t7 b c d : Nat),
      i + m = 2 ^ p.h → th.nodes.length = p.h + 1 → th.levels.length = p.h + 1 →
      Holds th.nodes th.levels (segE (Spec.node (hf.prim S) p.wots.w p.wots.len sk ps) 0 0 i) →
      th.offset = (segE (Spec.node (hf.prim S) p.wots.w p.wots.len sk ps) 0 0 i).length →
      SetupInv κ (Spec.node (hf.prim S) p.wots.w p.wots.len sk ps) p.h i 0 st0 st →
      ∃ th' st', setupLoop κ S hf sk p ps m i i th st ⟨0, 0, 0, 0, o4, o5, o6, o7⟩ ⟨0, 0, 0, 1, t4, t5, t6, t7⟩
          ⟨0, 0, 0, 2, 0, b, c, d⟩ = ok (th', st') ∧
        Holds th'.nodes th'.levels (segE (Spec.node (hf.prim S) p.wots.w p.wots.len sk ps) 0 0 (i + m)) ∧
        SetupInv κ (Spec.node (hf.prim S) p.wots.w p.wots.len sk ps) p.h (i + m) 0 st0 st' := by
  induction m with
  | zero => intro i th st o4 o5 o6 o7 t4 t5 t6 t7 b c d _ _ _ hH _ I; exact ⟨th, st, rfl, hH, I⟩
  | succ m ih =>
    intro i th st o4 o5 o6 o7 t4 t5 t6 t7 b c d hm hn hl hH ho I
    obtain ⟨t5', t6', t7', o5', o6', o7', hleaf⟩ := genLeafWots_eq S hf sk p ps h1 i t5 t6 t7 o5 o6 o7
    have hlen := length_segE (Spec.node (hf.prim S) p.wots.w p.wots.len sk ps) p.h 0 0 i (by omega)
    rw [setupLoop]
    simp only [Adrs.setLtree, Adrs.setOTS, hleaf, ok_bind]
    rw [ho, wr_eq_ok _ (by omega), wr_eq_ok _ (by omega)]
    simp only [ok_bind]
    rw [show Spec.leaf (hf.prim S) p.wots.w p.wots.len sk ps i =
      Spec.node (hf.prim S) p.wots.w p.wots.len sk ps 0 i from rfl]
    generalize hN : Spec.node (hf.prim S) p.wots.w p.wots.len sk ps = N at *
    have hpush := hH.push (by omega) (by omega) (N 0 i) 0
    generalize hnodes : th.nodes.set (segE N 0 0 i).length (some (N 0 i)) = nodes at *
    generalize hlevels : th.levels.set (segE N 0 0 i).length (some 0) = levels at *
    have hnl : nodes.length = p.h + 1 := by rw [← hnodes]; simpa using hn
    have hll : levels.length = p.h + 1 := by rw [← hlevels]; simpa using hl
    have hmid : ∃ st1, SetupInv κ N p.h i 0 st0 st1 ∧ ∀ f : BdsState → Outcome (THStack × BdsState),
        (if p.h - κ > 0 ∧ i = 3 then (rd nodes ((segE N 0 0 i).length + 1) >>= fun c => setThNode st 0 c >>= f)
          else (ok st >>= f)) = f st1 := by
      by_cases hc : p.h - κ > 0 ∧ i = 3
      · obtain ⟨hc1, hc2⟩ := hc
        have hl3 : (segE N 0 0 i).length ≤ 2 := length_segE N 2 0 0 i (by omega)
        obtain ⟨cell, hcell⟩ : ∃ cell, nodes[(segE N 0 0 i).length + 1]? = some cell :=
          ⟨_, List.getElem?_eq_getElem (by omega)⟩
        obtain ⟨tr, g1, g2, g3, g4, g5⟩ := I.th 0 (by omega)
        refine ⟨{ st with treehash := st.treehash.set 0 { tr with node := cell } },
          ⟨I.stack, I.levels, I.offset, I.keep, I.lauth, by simpa using I.lth, I.lretain, I.auth, ?_, I.retain⟩, ?_⟩
        · intro k hk
          simp only
          by_cases hk0 : 0 = k
          · subst hk0
            refine ⟨{ tr with node := cell }, ?_, g2, g3, g4, ?_⟩
            · rw [List.getElem?_set, if_pos rfl, if_pos (by rw [I.lth]; omega)]
            · intro hc; omega
          · obtain ⟨tr', k1, k2⟩ := I.th k hk
            exact ⟨tr', by rw [List.getElem?_set, if_neg hk0]; exact k1, k2⟩
        · intro f
          rw [if_pos ⟨hc1, hc2⟩, rd_eq_ok hcell, ok_bind, setThNode_eq g1, ok_bind]
      · exact ⟨st, I, fun f => by rw [if_neg hc, ok_bind]⟩
    obtain ⟨st1, I1, hmid⟩ := hmid
    have hmerge := setupMerge_eq S hf p sk ps hκh hh hh30 i (by omega) st0 i 0 nodes levels st1 b c d (by simp)
    rw [hN] at hmerge
    obtain ⟨th2, st2, b', c', d', e1, e2, e3, e4, e5, e6⟩ := hmerge hpush I1
    obtain ⟨th', st', r1, r2, r3⟩ := ih (i + 1) th2 st2 i o5' o6' o7' i t5' t6' t7' b' c' d' (by omega)
      (by rw [e4]; exact hnl) (by rw [e5]; exact hll) e2 e3 e6
    refine ⟨th', st', ?_, by rw [show i + (m + 1) = i + 1 + m by omega]; exact r2,
      by rw [show i + (m + 1) = i + 1 + m by omega]; exact r3⟩
    refine (hmid _).trans ?_
    rw [e1, ok_bind]
    exact r1

/-- Complete traversal invariant at index `t`. -/
structure BdsInvP (κ : Nat) (N : Nat → Nat → Bytes) (h t : Nat) (P : Nat → Bytes) (T : Prog) (st : BdsState) : Prop where
  th : ThInv κ N h t T st
  auth : AuthInvP κ N h t P st
  budget : Budget (h - κ) ((h - κ) >>> 1) t T

/-- With the right path. -/
abbrev BdsInv (κ : Nat) (N : Nat → Nat → Bytes) (h t : Nat) (T : Prog) (st : BdsState) : Prop := BdsInvP κ N h t (path N t) T st

theorem treehashSetup_eq (hκ : 2 ≤ κ) (S : Sha256) (hf : HashFn) (p : XmssParams) (sk ps : Bytes) (h1 : 1 ≤ p.wots.len)
    (hκh : κ < p.h) (hh : 4 ≤ p.h) (hh30 : p.h ≤ 30) :
    ∃ st, treehashSetup κ S hf p.h 0 (bdsInit κ p.h) sk p ps {} =
        ok (Spec.node (hf.prim S) p.wots.w p.wots.len sk ps p.h 0, st) ∧
      BdsInv κ (Spec.node (hf.prim S) p.wots.w p.wots.len sk ps) p.h 0 (fun _ => none) st := by
  generalize hN : Spec.node (hf.prim S) p.wots.w p.wots.len sk ps = N
  obtain ⟨ths, e1, e2, e3⟩ := setupInit_eq (p.h - κ) (p.h - κ) 0 (bdsInit κ p.h).treehash (by omega)
    (by simp [bdsInit]) (fun k hk => by omega)
  rw [treehashSetup]
  simp only [Adrs.derive, Adrs.setType]
  rw [if_neg (by omega), e1, ok_bind]
  have hpos := Nat.two_pow_pos p.h
  have hloop := setupLoop_eq S hf p sk ps h1 hκh hh hh30 (bdsInit κ p.h) (2 ^ p.h) 0
    ⟨List.replicate (p.h + 1) none, List.replicate (p.h + 1) none, 0⟩ { bdsInit κ p.h with treehash := ths }
    0 0 0 0 0 0 0 0 0 0 0 (by omega) (by simp) (by simp)
  rw [hN] at hloop
  obtain ⟨th', st', r1, r2, r3⟩ := hloop (by rw [segE_zero]; trivial) (by rw [segE_zero]; rfl)
    ⟨rfl, rfl, rfl, rfl, by simp [bdsInit], e2, by simp [bdsInit, Nat.one_shiftLeft], fun k _ hc => by
      have := Nat.two_pow_pos (k + 1); omega, fun k hk => by
      obtain ⟨tr, g1, g2, g3, g4⟩ := e3 k hk
      refine ⟨tr, g1, g2, g3, g4, fun hc => ?_⟩
      have := Nat.two_pow_pos (k + 2); omega, fun d y _ _ _ hc => by
      have := Nat.mul_pos (Nat.two_pow_pos (p.h - d)) (show 0 < 2 * y + 4 by omega); omega⟩
  refine ⟨st', ?_, ?_, ?_, ?_⟩
  · have r1' : setupLoop κ S hf sk p ps (2 ^ p.h) 0 0
      ⟨List.replicate (p.h + 1) none, List.replicate (p.h + 1) none, 0⟩ { bdsInit κ p.h with treehash := ths }
      {} { w3 := 1 } { w3 := 2 } = ok (th', st') := r1
    rw [r1', ok_bind]
    rw [Nat.zero_add, segE_pow, Nat.zero_add] at r2
    have hroot : rdUse th'.nodes 0 = ok (N p.h 0) := rdUse_eq_ok r2.1
    show (rdUse th'.nodes 0 >>= fun root => ok (root, st')) = _
    rw [hroot, ok_bind]
  · rw [Nat.zero_add] at r3
    have hents : ∀ m i, ents N 0 (fun _ => none) m i = [] := by
      intro m
      induction m with
      | zero => intro i; rfl
      | succ m ih => intro i; rw [ents, ih]; rfl
    refine ⟨by rw [r3.stack]; simp [bdsInit], by rw [r3.levels]; simp [bdsInit], r3.lth, ?_, ?_, ?_, ?_⟩
    · intro i i' c c' _ _ h; cases h
    · rw [hents]; trivial
    · rw [hents, r3.offset]; rfl
    · intro i hi
      obtain ⟨tr, g1, g2, g3, g4, g5⟩ := r3.th i hi
      refine ⟨tr, g1, g2, ?_⟩
      intro _
      rw [g5 (Or.inl (Nat.pow_le_pow_right (by omega) (by omega)))]
      congr 2
      simp only [startOf, Nat.zero_div, Nat.zero_mul, Nat.zero_add]
      rw [Nat.mul_div_cancel _ (Nat.two_pow_pos i)]
  · rw [Nat.zero_add] at r3
    refine ⟨r3.lauth, by rw [r3.keep]; simp [bdsInit, Nat.shiftRight_eq_div_pow], ?_, ?_, ?_⟩
    · intro i hi
      rw [r3.auth i hi (Or.inl (Nat.pow_le_pow_right (by omega) (by omega)))]
      simp [path, Spec.sibling]
    · intro i _ hc; simp at hc
    · intro d y hd hdk hy hg
      refine r3.retain d y hd hdk hy (Or.inl ?_) hg
      calc 2 ^ (p.h - d) * (2 * y + 4) ≤ 2 ^ (p.h - d) * (2 ^ (d - 1) * 2) := Nat.mul_le_mul_left _ (by omega)
        _ = 2 ^ p.h := by rw [← Nat.pow_succ, ← Nat.pow_add]; congr 1; omega
  · intro j _; exact Or.inl rfl

/-- One whole step of the traversal: round and updates. -/
theorem bdsAdvance_eqP (hκ : 2 ≤ κ) (hκ2 : κ % 2 = 0) (S : Sha256) (hf : HashFn) (sk ps : Bytes) (p : XmssParams) (h1 : 1 ≤ p.wots.len)
    (hκh : κ < p.h) (hh4 : 4 ≤ p.h) (hh30 : p.h ≤ 30) (hev : p.h % 2 = 0) {t : Nat} (ht : t + 1 < 2 ^ p.h) {T : Prog} {st : BdsState}
    {P R : Nat → Bytes}
    (H : BdsInvP κ (Spec.node (hf.prim S) p.wots.w p.wots.len sk ps) p.h t P T st)
    (hP : ∀ i, i < p.h → 2 ^ i ∣ t + 1 → P i = path (Spec.node (hf.prim S) p.wots.w p.wots.len sk ps) t i)
    (hR : ∀ i, i < p.h → p.h - κ ≤ i → 2 ^ (i + 1) ∣ t + 1 → st.retain[slot (p.h - i) ((t + 1) / 2 ^ (i + 1) - 1)]? = some (some (R i)))
    (a b c d e a' b' c' d' e' : Nat) :
    ∃ st1 st2 T2, bdsRound κ S hf st t sk p ps ⟨0, 0, 0, a, b, c, d, e⟩ = ok st1 ∧
      bdsTreehashUpdate κ S hf sk p ps ⟨0, 0, 0, a', b', c', d', e'⟩ ((p.h - κ) >>> 1) st1 = ok st2 ∧
      BdsInvP κ (Spec.node (hf.prim S) p.wots.w p.wots.len sk ps) p.h (t + 1)
        (nextPath κ p.h (Spec.node (hf.prim S) p.wots.w p.wots.len sk ps) t P R) T2 st2 := by
  obtain ⟨st1, T1, e1, i1, i2, i3, i4⟩ := bdsRound_eq hκ hκ2 S hf sk ps p h1 hκh hh4 hh30 hev ht H.th H.auth hP hR H.budget a b c d e
  obtain ⟨st2, T2, e2, s2, j1, j2⟩ := bdsTreehashUpdate_eq S hf sk ps p h1 a' b' c' d' e' ((p.h - κ) >>> 1) T1 st1 i1
  refine ⟨st1, st2, T2, e1, e2, j1, ?_, H.budget.round i3 i4 i1.sep j2⟩
  exact ⟨by rw [s2.1]; exact i2.lauth, by rw [s2.2.1]; exact i2.lkeep, by rw [s2.1]; exact i2.auth,
    by rw [s2.2.1]; exact i2.keep, by rw [s2.2.2]; exact i2.retain⟩

/-- The retained nodes that the round from leaf `t` reads are the last ones that were written into their slots. -/
def Reads (κ h t : Nat) : Prop :=
  ∀ i, i < h → h - κ ≤ i → 2 ^ (i + 1) ∣ t + 1 → Good κ h (h - i) ((t + 1) / 2 ^ (i + 1) - 1)

theorem retain_range {h t i : Nat} (ht : t + 1 < 2 ^ h) (hd : 2 ^ (i + 1) ∣ t + 1) :
    i + 2 ≤ h ∧ 1 ≤ (t + 1) / 2 ^ (i + 1) ∧ (t + 1) / 2 ^ (i + 1) < 2 ^ (h - i - 1) := by
  obtain ⟨z, hz⟩ := hd
  have hp := Nat.two_pow_pos (i + 1)
  rw [hz, Nat.mul_div_cancel_left _ hp]
  have hz1 : 1 ≤ z := by
    rcases Nat.eq_zero_or_pos z with h0 | h0
    · subst h0; omega
    · exact h0
  have hlt : i + 1 < h := by
    apply Classical.byContradiction
    intro hc
    have h1 : 2 ^ h ≤ 2 ^ (i + 1) := Nat.pow_le_pow_right (by omega) (by omega)
    have h2 := Nat.mul_le_mul_left (2 ^ (i + 1)) hz1
    omega
  refine ⟨by omega, hz1, ?_⟩
  have e : 2 ^ h = 2 ^ (i + 1) * 2 ^ (h - i - 1) := by rw [← Nat.pow_add]; congr 1; omega
  rw [hz, e] at ht
  exact Nat.lt_of_mul_lt_mul_left ht

theorem reads_of_le {κ h t : Nat} (hκ26 : κ ≤ 26) (ht : t + 1 < 2 ^ h) : Reads κ h t := by
  intro i _ hk hd
  obtain ⟨h1, h2, h3⟩ := retain_range ht hd
  exact good_of_le hκ26 (by omega) (by omega) (by omega)

theorem path_next {N : Nat → Nat → Bytes} {t i : Nat} (h : ¬ 2 ^ i ∣ t + 1) : path N t i = path N (t + 1) i := by
  rw [path, path]
  have hp := Nat.two_pow_pos i
  have hm : (t + 1) % 2 ^ i ≠ 0 := fun hc => h (Nat.dvd_of_mod_eq_zero hc)
  have e := Nat.div_add_mod (t + 1) (2 ^ i)
  have hlt := Nat.mod_lt (t + 1) hp
  generalize (t + 1) / 2 ^ i = x at *
  generalize (t + 1) % 2 ^ i = r at *
  have e2 : t / 2 ^ i = x := by
    rw [show t = 2 ^ i * x + (r - 1) by omega, Nat.mul_add_div hp, Nat.div_eq_of_lt (by omega), Nat.add_zero]
  rw [e2]

/-- One whole step of the traversal that reads only retained nodes that are still there. -/
theorem bdsAdvance_eq (hκ : 2 ≤ κ) (hκ2 : κ % 2 = 0) (S : Sha256) (hf : HashFn) (sk ps : Bytes) (p : XmssParams) (h1 : 1 ≤ p.wots.len)
    (hκh : κ < p.h) (hh4 : 4 ≤ p.h) (hh30 : p.h ≤ 30) (hev : p.h % 2 = 0) {t : Nat} (hrd : Reads κ p.h t) (ht : t + 1 < 2 ^ p.h)
    {T : Prog} {st : BdsState}
    (H : BdsInv κ (Spec.node (hf.prim S) p.wots.w p.wots.len sk ps) p.h t T st) (a b c d e a' b' c' d' e' : Nat) :
    ∃ st1 st2 T2, bdsRound κ S hf st t sk p ps ⟨0, 0, 0, a, b, c, d, e⟩ = ok st1 ∧
      bdsTreehashUpdate κ S hf sk p ps ⟨0, 0, 0, a', b', c', d', e'⟩ ((p.h - κ) >>> 1) st1 = ok st2 ∧
      BdsInv κ (Spec.node (hf.prim S) p.wots.w p.wots.len sk ps) p.h (t + 1) T2 st2 := by
  obtain ⟨st1, st2, T2, e1, e2, I⟩ := bdsAdvance_eqP hκ hκ2 S hf sk ps p h1 hκh hh4 hh30 hev ht
    (R := path (Spec.node (hf.prim S) p.wots.w p.wots.len sk ps) (t + 1)) H (fun _ _ _ => rfl) (by
      intro i hi hk hd
      obtain ⟨g1, g2, g3⟩ := retain_range ht hd
      rw [H.auth.retain (p.h - i) _ (by omega) (by omega) (by omega) (hrd i hi hk hd)]
      obtain ⟨z, hz⟩ := hd
      have hz1 : (t + 1) / 2 ^ (i + 1) = z := by rw [hz, Nat.mul_div_cancel_left _ (Nat.two_pow_pos _)]
      have hz2 : (t + 1) / 2 ^ i = 2 * z := by
        rw [hz, Nat.pow_succ, Nat.mul_assoc, Nat.mul_div_cancel_left _ (Nat.two_pow_pos _)]
      rw [hz1] at g2 ⊢
      rw [path, hz2, sibling_even (by omega), show p.h - (p.h - i) = i by omega, show 2 * (z - 1) + 3 = 2 * z + 1 by omega])
    a b c d e a' b' c' d' e'
  refine ⟨st1, st2, T2, e1, e2, I.th, ⟨I.auth.lauth, I.auth.lkeep, fun i hi => ?_, I.auth.keep, I.auth.retain⟩, I.budget⟩
  rw [I.auth.auth i hi, nextPath]
  split
  · rfl
  · split
    · rfl
    next hn => rw [path_next hn]

end Qrl.BK
