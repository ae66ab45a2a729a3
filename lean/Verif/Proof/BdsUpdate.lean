import Verif.Proof.BdsStack

/-!
One `treehash_update`, and a whole `bds_treehash_update`.
-/

namespace Qrl

open Outcome

theorem updateMerge_eq (S : Sha256) (hf : HashFn) (w len : Nat) (sk ps : Bytes) (idx : Nat) (stack : List Cell)
    (levels : List Nat) (rest : List (Nat × Bytes)) (e : Nat) :
    ∀ (l a q b c d : Nat), q < 2 ^ e → 2 ^ e ∣ a → idx >>> l = a + q →
      Holds stack (levels.map some) (segE (Spec.node (hf.prim S) w len sk ps) l a q ++ rest) →
      ∃ r, updateMerge S hf ps stack levels idx (segE (Spec.node (hf.prim S) w len sk ps) l a q).length
          ((segE (Spec.node (hf.prim S) w len sk ps) l a q).length + rest.length)
          (Spec.node (hf.prim S) w len sk ps l (a + q)) l ⟨0, 0, 0, 2, 0, b, c, d⟩ = ok r ∧
        (q + 1 = 2 ^ e → r = ⟨Spec.node (hf.prim S) w len sk ps (l + e) (a / 2 ^ e), l + e, 0, rest.length⟩) ∧
        (q + 1 < 2 ^ e → ∃ es, segE (Spec.node (hf.prim S) w len sk ps) l a (q + 1) = (r.nodeheight, r.node) :: es ∧
          r.stackusage = es.length ∧ r.stackoffset = (es ++ rest).length ∧
          Holds stack (levels.map some) (es ++ rest) ∧ r.nodeheight < l + e) := by
  induction e with
  | zero =>
    intro l a q b c d hq _ _ _
    have : q = 0 := by omega
    subst this
    rw [segE_zero]
    refine ⟨_, rfl, ?_, ?_⟩
    · intro _; simp
    · intro h; omega
  | succ e ih =>
    intro l a q b c d hq hd hidx hH
    generalize hN : Spec.node (hf.prim S) w len sk ps = N at *
    have hda : 2 ∣ a := Nat.dvd_trans ⟨2 ^ e, by ring⟩ hd
    rcases Nat.mod_two_eq_zero_or_one q with h2 | h2
    · have hodd : segE N l a (q + 1) = (l, N l (a + q)) :: segE N l a q := by
        rw [segE_odd _ _ _ _ (by omega), segE_even _ _ _ _ h2, show (q + 1) / 2 = q / 2 by omega]
        rfl
      refine ⟨⟨N l (a + q), l, (segE N l a q).length, (segE N l a q).length + rest.length⟩, ?_, ?_, ?_⟩
      · cases hs : segE N l a q with
        | nil => rfl
        | cons e0 es =>
          obtain ⟨v, x⟩ := e0
          rw [hs] at hH
          obtain ⟨_, hl, _⟩ := hH
          have hl := getElem?_map_some hl
          simp only [List.append_eq, List.length_append] at hl
          simp only [List.length_cons, updateMerge]
          rw [if_neg (by omega), show es.length + 1 + rest.length - 1 = es.length + rest.length by omega,
            rd_eq_ok hl, ok_bind]
          have hdv := segE_head_dvd N q l a v x es hs
          have hne : ¬ v = l := by
            intro e; subst e
            simp at hdv; omega
          rw [if_neg hne]
      · intro hc; rw [Nat.pow_succ] at hc; omega
      · intro _
        refine ⟨segE N l a q, hodd, rfl, by simp, hH, by simp only; omega⟩
    · rw [segE_odd _ _ _ _ h2] at hH ⊢
      obtain ⟨hn, hl, hrest⟩ := hH
      have hl := getElem?_map_some hl
      simp only [List.append_eq, List.length_append] at hl hn
      simp only [List.length_cons, updateMerge]
      rw [if_neg (by omega), show (segE N (l + 1) (a / 2) (q / 2)).length + 1 + rest.length - 1 =
        (segE N (l + 1) (a / 2) (q / 2)).length + rest.length by omega, rd_eq_ok hl, ok_bind, if_pos rfl,
        rdUse_eq_ok hn, ok_bind]
      simp only [Adrs.setTreeHeight, Adrs.setTreeIndex, hashH_eq]
      have hnode : Spec.H (hf.prim S) ps 2 0 l (idx >>> (l + 1)) (N l (a + q - 1)) (N l (a + q)) =
          N (l + 1) (a / 2 + q / 2) := by
        rw [shr_succ, hidx, ← hN, Spec.node]
        rw [show 2 * (a / 2 + q / 2) = a + q - 1 by omega, show a + q - 1 + 1 = a + q by omega,
          show (a + q) / 2 = a / 2 + q / 2 by omega]
      rw [hnode]
      have p2 : 2 ^ (e + 1) = 2 * 2 ^ e := by ring
      have hd' : 2 ^ e ∣ a / 2 := by
        obtain ⟨z, hz⟩ := hd
        exact ⟨z, by rw [hz, p2, Nat.mul_assoc, Nat.mul_div_cancel_left _ (by omega)]⟩
      obtain ⟨r, e1, e2, e3⟩ := ih (l + 1) (a / 2) (q / 2) l (idx >>> (l + 1)) 2 (by omega) hd'
        (by rw [shr_succ, hidx]; omega) hrest
      refine ⟨r, e1, ?_, ?_⟩
      · intro hc
        rw [e2 (by omega), p2, ← Nat.div_div_eq_div_mul, show l + 1 + e = l + (e + 1) by omega]
      · intro hc
        obtain ⟨es, f1, f2, f3, f4, f5⟩ := e3 (by omega)
        refine ⟨es, ?_, f2, f3, f4, by omega⟩
        rw [segE_even _ _ _ _ (by omega), show (q + 1) / 2 = q / 2 + 1 by omega]; exact f1

/-- Members of the state that the tree-hash instances do not touch. -/
def SameAuth (st st' : BdsState) : Prop :=
  st'.auth = st.auth ∧ st'.keep = st.keep ∧ st'.retain = st.retain

theorem map_set_some (l : List Nat) (k v : Nat) : (l.set k v).map some = (l.map some).set k (some v) := by
  rw [List.map_set]

theorem treehashUpdate_eq (S : Sha256) (hf : HashFn) (sk ps : Bytes) (p : XmssParams) (h1 : 1 ≤ p.wots.len)
    {t : Nat} {T : Prog} {st : BdsState}
    (H : ThInv (Spec.node (hf.prim S) p.wots.w p.wots.len sk ps) p.h t T st) {k c : Nat} (hp : Pick (p.h - 2) T k c)
    (a b d e f : Nat) :
    ∃ st', treehashUpdate S hf k st sk p ps ⟨0, 0, 0, a, b, d, e, f⟩ = ok st' ∧ SameAuth st st' ∧
      ThInv (Spec.node (hf.prim S) p.wots.w p.wots.len sk ps) p.h t (stepProg T k c) st' := by
  obtain ⟨tr, htr, hinst⟩ := H.inst k hp.lt
  unfold InstOk at hinst
  rw [hp.run] at hinst
  obtain ⟨i1, i2, i3, i4, i5, i6⟩ := hinst
  generalize hN : Spec.node (hf.prim S) p.wots.w p.wots.len sk ps = N at *
  have hempty : ∀ T' : Prog, (∀ i, i < k → T' i = T i) → ∀ i, 0 ≤ i → i < 0 + k → seg N t T' i = [] := by
    intro T' hT' i _ hi
    unfold seg
    rw [hT' i (by omega)]
    cases hTi : T i with
    | none => rfl
    | some ci =>
      by_cases h0 : ci = 0
      · subst h0; simp only [segE_zero]
      · exact absurd (H.sep i k ci c (by omega) hp.lt hTi (by omega) hp.run) (hp.urgent i ci (by omega) hTi)
  have hents : ∀ T' : Prog, (∀ i, i < k → T' i = T i) →
      ents N t T' (p.h - 2) 0 = seg N t T' k ++ ents N t T' (p.h - 2 - k - 1) (k + 1) := by
    intro T' hT'
    have := ents_skip N t T' k (p.h - 2 - k) 0 (hempty T' hT')
    rw [show k + (p.h - 2 - k) = p.h - 2 by have := hp.lt; omega, Nat.zero_add] at this
    rw [this]
    conv_lhs => rw [show p.h - 2 - k = (p.h - 2 - k - 1) + 1 by have := hp.lt; omega]
    rw [ents]
  have hrest : ents N t (stepProg T k c) (p.h - 2 - k - 1) (k + 1) = ents N t T (p.h - 2 - k - 1) (k + 1) := by
    apply ents_congr
    intro j hj _
    unfold seg stepProg
    rw [Function.update_of_ne (by omega)]
  generalize hR : ents N t T (p.h - 2 - k - 1) (k + 1) = R at *
  have hE := hents T (fun _ _ => rfl)
  rw [hR, seg_some hp.run] at hE
  have hE' := hents (stepProg T k c) (fun i hi => by unfold stepProg; rw [Function.update_of_ne (by omega)])
  rw [hrest] at hE'
  have hH := H.holds
  have ho := H.offset
  rw [hE] at hH ho
  have hasc := H.asc
  have hdv := pow_dvd_startOf k t
  simp only [treehashUpdate, Adrs.derive, Adrs.setType, rd_eq_ok htr, ok_bind, Adrs.setLtree, Adrs.setOTS]
  obtain ⟨t5, t6, t7, o5, o6, o7, hleaf⟩ := genLeafWots_eq S hf sk p ps h1 tr.nextIdx 0 0 0 0 0 0
  rw [hleaf]
  simp only [ok_bind]
  have hum := updateMerge_eq S hf p.wots.w p.wots.len sk ps tr.nextIdx st.stack st.stacklevels R k 0 (startOf k t) c
    0 0 0 hp.fits hdv (by rw [Nat.shiftRight_zero, i3])
  rw [hN] at hum
  obtain ⟨r, e1, e2, e3⟩ := hum hH
  rw [i5, ho, List.length_append]
  have hl0 : Spec.leaf (hf.prim S) p.wots.w p.wots.len sk ps tr.nextIdx = N 0 (startOf k t + c) := by
    rw [i3, ← hN]; rfl
  rw [hl0, e1]
  simp only [ok_bind]
  have hinst' : ∀ ths : List TreeInst, (∀ i, i ≠ k → ths[i]? = st.treehash[i]?) →
      (∃ tr, ths[k]? = some tr ∧ InstOk N p.h t k (stepProg T k c) tr) →
      ∀ i, i < p.h - 2 → ∃ tr, ths[i]? = some tr ∧ InstOk N p.h t i (stepProg T k c) tr := by
    intro ths hne hk i hi
    by_cases hik : i = k
    · subst hik; exact hk
    · obtain ⟨tr', g1, g2⟩ := H.inst i hi
      refine ⟨tr', by rw [hne i hik]; exact g1, ?_⟩
      unfold InstOk stepProg
      rw [Function.update_of_ne hik]
      exact g2
  have hklt : k < st.treehash.length := by rw [H.lth]; exact hp.lt
  have hset_ne : ∀ x : TreeInst, ∀ i, i ≠ k → (st.treehash.set k x)[i]? = st.treehash[i]? := by
    intro x i hi; rw [List.getElem?_set, if_neg (by omega)]
  have hset_k : ∀ x : TreeInst, (st.treehash.set k x)[k]? = some x := by
    intro x; rw [List.getElem?_set, if_pos rfl, if_pos hklt]
  by_cases hdone : c + 1 = 2 ^ k
  · have hr := e2 hdone
    subst hr
    simp only [Nat.zero_add]
    rw [if_pos i2.symm, wr_eq_ok _ hklt]
    simp only [ok_bind]
    have hTk : stepProg T k c k = none := by
      unfold stepProg; rw [Function.update_self, if_pos hdone]
    have hseg : seg N t (stepProg T k c) k = [] := by unfold seg; rw [hTk]
    rw [hseg, List.nil_append] at hE'
    refine ⟨_, rfl, ⟨rfl, rfl, rfl⟩, ⟨H.lstack, H.llevels, by simpa using H.lth, H.sep.step hp, ?_, ?_, ?_⟩⟩
    · rw [hE']; exact hH.append
    · rw [hE']
    · refine hinst' _ (hset_ne _) ⟨_, hset_k _, ?_⟩
      unfold InstOk
      rw [hTk]
      exact ⟨rfl, fun _ => rfl⟩
  · obtain ⟨es, f1, f2, f3, f4, f5⟩ := e3 (by have := hp.fits; omega)
    have hTk : stepProg T k c k = some (c + 1) := by
      unfold stepProg; rw [Function.update_self, if_neg hdone]
    have hseg : seg N t (stepProg T k c) k = (r.nodeheight, r.node) :: es := by
      unfold seg; rw [hTk]; exact f1
    rw [hseg] at hE'
    have hlen : (es ++ R).length < p.h + 1 := by
      have hsep := H.sep.step hp
      have hfit : ∀ i c', i < p.h - 2 → stepProg T k c i = some c' → c' < 2 ^ i := by
        intro i c' hi hT'
        by_cases hik : i = k
        · subst hik
          rw [hTk] at hT'
          injection hT' with hT'
          have := hp.fits; omega
        · unfold stepProg at hT'
          rw [Function.update_of_ne hik] at hT'
          exact H.fits i c' hi hT'
      have := asc_ents N t (stepProg T k c) (p.h - 2) hsep hfit (p.h - 2) 0 0 (by omega) (by omega)
        (fun _ _ _ _ _ => by simp)
      have := this.le
      rw [hE'] at this
      simp only [List.cons_append, List.length_cons] at this
      omega
    rw [if_neg (by rw [i2]; omega), f3, wr_eq_ok _ (by rw [H.lstack]; exact hlen),
      wr_eq_ok _ (by rw [H.llevels]; exact hlen), wr_eq_ok _ hklt]
    simp only [ok_bind]
    refine ⟨_, rfl, ⟨rfl, rfl, rfl⟩, ⟨by simpa using H.lstack, by simpa using H.llevels, by simpa using H.lth,
      H.sep.step hp, ?_, ?_, ?_⟩⟩
    · rw [hE']
      simp only [map_set_some]
      exact f4.push (by rw [H.lstack]; exact hlen) (by rw [List.length_map, H.llevels]; exact hlen) _ _
    · rw [hE']; rfl
    · refine hinst' _ (hset_ne _) ⟨_, hset_k _, ?_⟩
      unfold InstOk
      rw [hTk]
      refine ⟨i1, i2, ?_, ?_, ?_, i6⟩
      · simp only [i3]; omega
      · have := hp.fits; omega
      · rw [f1]; simp [f2]

/-- `bds_treehash_update` with `n` updates. -/
theorem bdsTreehashUpdate_eq (S : Sha256) (hf : HashFn) (sk ps : Bytes) (p : XmssParams) (h1 : 1 ≤ p.wots.len)
    {t : Nat} (a b d e f : Nat) (n : Nat) : ∀ (T : Prog) (st : BdsState),
    ThInv (Spec.node (hf.prim S) p.wots.w p.wots.len sk ps) p.h t T st →
    ∃ st' T', bdsTreehashUpdate S hf sk p ps ⟨0, 0, 0, a, b, d, e, f⟩ n st = ok st' ∧ SameAuth st st' ∧
      ThInv (Spec.node (hf.prim S) p.wots.w p.wots.len sk ps) p.h t T' st' ∧
      ∀ j, j < p.h - 2 → T' j = none ∨ (T j ≠ none ∧ pot (p.h - 2) j T' + n ≤ pot (p.h - 2) j T) := by
  induction n with
  | zero =>
    intro T st H
    refine ⟨st, T, rfl, ⟨rfl, rfl, rfl⟩, H, ?_⟩
    intro j _
    by_cases hj : T j = none
    · exact Or.inl hj
    · exact Or.inr ⟨hj, Nat.le_refl _⟩
  | succ n ih =>
    intro T st H
    rw [bdsTreehashUpdate]
    rcases pick_spec H p rfl with ⟨e1, hall⟩ | ⟨k, c, e1, hp⟩
    · rw [e1, ok_bind, if_pos rfl]
      exact ⟨st, T, rfl, ⟨rfl, rfl, rfl⟩, H, fun j hj => Or.inl (hall j hj)⟩
    · rw [e1, ok_bind, if_neg (by have := hp.lt; omega)]
      obtain ⟨st1, e2, s1, H1⟩ := treehashUpdate_eq S hf sk ps p h1 H hp a b d e f
      rw [e2, ok_bind]
      obtain ⟨st2, T2, e3, s2, H2, hpot⟩ := ih _ _ H1
      refine ⟨st2, T2, e3, ⟨s2.1.trans s1.1, s2.2.1.trans s1.2.1, s2.2.2.trans s1.2.2⟩, H2, ?_⟩
      intro j hj
      rcases hpot j hj with h' | ⟨h', h''⟩
      · exact Or.inl h'
      · right
        cases hT : T j with
        | none =>
          exfalso
          apply h'
          unfold stepProg
          by_cases hjk : j = k
          · subst hjk; rw [hp.run] at hT; cases hT
          · rw [Function.update_of_ne hjk, hT]
        | some cj =>
          have := pot_step hp j cj hT
          exact ⟨by simp, by omega⟩

end Qrl
