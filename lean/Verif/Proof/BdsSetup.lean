import Verif.Proof.BdsRound

/-!
`treehash_setup`: root and initial traversal state.
-/

namespace Qrl

open Outcome

/-- State of the setup while leaf `i` has been merged up to (excluding) level `l`. -/
structure SetupInv (N : Nat → Nat → Bytes) (h i l : Nat) (st0 st : BdsState) : Prop where
  stack : st.stack = st0.stack
  levels : st.stacklevels = st0.stacklevels
  offset : st.stackoffset = st0.stackoffset
  keep : st.keep = st0.keep
  lauth : st.auth.length = h
  lth : st.treehash.length = h - 2
  lretain : st.retain.length = 1
  auth : ∀ k, k < h → (2 ^ (k + 1) ≤ i ∨ (k < l ∧ 2 ^ (k + 1) ≤ i + 1)) → st.auth[k]? = some (some (N k 1))
  th : ∀ k, k < h - 2 → ∃ tr, st.treehash[k]? = some tr ∧ tr.completed = true ∧ tr.stackusage = 0 ∧ tr.h = k ∧
    ((2 ^ (k + 2) ≤ i ∨ (k < l ∧ 2 ^ (k + 2) ≤ i + 1)) → tr.node = some (N k 3))
  retain : (2 ^ h ≤ i ∨ (h - 2 < l ∧ 2 ^ h ≤ i + 1)) → st.retain = [some (N (h - 2) 3)]

theorem setThNode_eq {st : BdsState} {i : Nat} {tr : TreeInst} (h : st.treehash[i]? = some tr) (c : Cell) :
    setThNode st i c = ok { st with treehash := st.treehash.set i { tr with node := c } } := by
  have hlt := (List.getElem?_eq_some_iff.mp h).1
  rw [setThNode, rd_eq_ok h, ok_bind, wr_eq_ok _ hlt, ok_bind]

theorem setupSave_eq {N : Nat → Nat → Bytes} {p : XmssParams} {i l q : Nat} {st0 st : BdsState} (hh : 4 ≤ p.h)
    (hh30 : p.h ≤ 30)
    (I : SetupInv N p.h i l st0 st) (hi : i < 2 ^ p.h) (hq : i + 1 = 2 ^ l * (q + 1)) (hodd : q % 2 = 1) :
    ∃ st', setupSave p i l (some (N l q)) st = ok st' ∧ SetupInv N p.h i (l + 1) st0 st' := by
  have hpl := Nat.two_pow_pos l
  have hshr : i >>> l = q := by
    rw [Nat.shiftRight_eq_div_pow]
    have : i = 2 ^ l * q + (2 ^ l - 1) := by rw [Nat.mul_add, Nat.mul_one] at hq; omega
    rw [this, Nat.mul_add_div hpl, Nat.div_eq_of_lt (by omega), Nat.add_zero]
  have e1 : 2 ^ (l + 1) = 2 ^ l * 2 := by ring
  have e2 : 2 ^ (l + 2) = 2 ^ l * 4 := by ring
  have hle : ∀ x y, x ≤ y → 2 ^ l * x ≤ 2 ^ l * y := fun x y h => Nat.mul_le_mul_left _ h
  have hlt : ∀ x y, 2 ^ l * x ≤ 2 ^ l * y → x ≤ y := fun x y h => Nat.le_of_mul_le_mul_left h hpl
  have hlh : l < p.h := by
    apply Classical.byContradiction
    intro hc
    have h1 : 2 ^ p.h ≤ 2 ^ l := Nat.pow_le_pow_right (by omega) (by omega)
    have h2 := hle 2 (q + 1) (by omega)
    omega
  rw [setupSave, hshr]
  by_cases hq1 : q = 1
  · subst hq1
    rw [if_pos rfl, wr_eq_ok _ (by rw [I.lauth]; omega), ok_bind]
    refine ⟨_, rfl, ⟨I.stack, I.levels, I.offset, I.keep, by simpa using I.lauth, I.lth, I.lretain, ?_, ?_, ?_⟩⟩
    · intro k hk hc
      simp only
      rw [List.getElem?_set]
      by_cases hkl : l = k
      · subst hkl; rw [if_pos rfl, if_pos (by rw [I.lauth]; omega)]
      · rw [if_neg hkl]
        exact I.auth k hk (by omega)
    · intro k hk
      obtain ⟨tr, g1, g2, g3, g4, g5⟩ := I.th k hk
      refine ⟨tr, g1, g2, g3, g4, ?_⟩
      intro hc
      apply g5
      by_cases hkl : k = l
      · subst hkl; omega
      · omega
    · intro hc
      apply I.retain
      by_cases hkl : p.h - 2 = l
      · have : 2 ^ p.h = 2 ^ l * 4 := by rw [← e2]; congr 1; omega
        omega
      · omega
  · rw [if_neg hq1]
    have h4 : 2 ^ l * 4 ≤ i + 1 := by rw [hq]; exact hle _ _ (by omega)
    have hauth : ∀ k, k < p.h → (2 ^ (k + 1) ≤ i ∨ (k < l + 1 ∧ 2 ^ (k + 1) ≤ i + 1)) →
        st.auth[k]? = some (some (N k 1)) := by
      intro k hk hc
      apply I.auth k hk
      by_cases hkl : k = l
      · subst hkl; omega
      · omega
    have hsmall : l ≤ p.h - 2 ∧ (l = p.h - 2 → q = 3) := by
      have hn : ¬ l = p.h - 1 := by
        intro hc
        have : 2 ^ p.h = 2 ^ l * 2 := by rw [← e1]; congr 1; omega
        have := hlt (q + 1) 2 (by omega)
        omega
      refine ⟨by omega, fun hc => ?_⟩
      have : 2 ^ p.h = 2 ^ l * 4 := by rw [← e2]; congr 1; omega
      have := hlt (q + 1) 4 (by omega)
      omega
    by_cases hth : l < p.h - 2 ∧ q = 3
    · rw [if_pos hth]
      obtain ⟨tr, g1, g2, g3, g4, g5⟩ := I.th l hth.1
      rw [setThNode_eq g1]
      refine ⟨_, rfl, ⟨I.stack, I.levels, I.offset, I.keep, I.lauth, by simpa using I.lth, I.lretain, hauth, ?_, ?_⟩⟩
      · intro k hk
        simp only
        by_cases hkl : l = k
        · subst hkl
          refine ⟨{ tr with node := some (N l q) }, ?_, g2, g3, g4, ?_⟩
          · rw [List.getElem?_set, if_pos rfl, if_pos (by rw [I.lth]; omega)]
          · intro _; rw [hth.2]
        · obtain ⟨tr', k1, k2, k3, k4, k5⟩ := I.th k hk
          refine ⟨tr', ?_, k2, k3, k4, fun hc => k5 (by omega)⟩
          rw [List.getElem?_set, if_neg hkl]; exact k1
      · intro hc; exact I.retain (by omega)
    · rw [if_neg hth]
      have hthk : ∀ k, k < p.h - 2 → ∃ tr, st.treehash[k]? = some tr ∧ tr.completed = true ∧ tr.stackusage = 0 ∧
          tr.h = k ∧ ((2 ^ (k + 2) ≤ i ∨ (k < l + 1 ∧ 2 ^ (k + 2) ≤ i + 1)) → tr.node = some (N k 3)) := by
        intro k hk
        obtain ⟨tr', k1, k2, k3, k4, k5⟩ := I.th k hk
        refine ⟨tr', k1, k2, k3, k4, fun hc => k5 ?_⟩
        by_cases hkl : k = l
        · subst hkl
          left
          have := hle 5 (q + 1) (by omega)
          omega
        · omega
      by_cases hr : l ≥ p.h - 2
      · rw [if_pos hr, if_neg (by omega)]
        have hl2 : l = p.h - 2 := by omega
        have hq3 := hsmall.2 hl2
        have hidx : ((1 <<< (p.h - 1 - l)) + l + sub32 0 p.h + (sub32 q 3) >>> 1) % 2 ^ 32 = 0 := by
          rw [hq3, show p.h - 1 - l = 1 by omega]
          unfold sub32
          simp only [Nat.shiftLeft_eq, Nat.shiftRight_eq_div_pow]
          omega
        rw [hidx, wr_eq_ok _ (by rw [I.lretain]; omega), ok_bind]
        refine ⟨_, rfl, ⟨I.stack, I.levels, I.offset, I.keep, I.lauth, I.lth, by simpa using I.lretain, hauth, hthk, ?_⟩⟩
        intro _
        simp only
        have hlr := I.lretain
        match st.retain, hlr with
        | [x], _ => simp [hq3, hl2]
      · rw [if_neg hr]
        refine ⟨_, rfl, ⟨I.stack, I.levels, I.offset, I.keep, I.lauth, I.lth, I.lretain, hauth, hthk, ?_⟩⟩
        intro hc; exact I.retain (by omega)

theorem setupMerge_eq (S : Sha256) (hf : HashFn) (p : XmssParams) (sk ps : Bytes) (hh : 4 ≤ p.h) (hh30 : p.h ≤ 30)
    (i : Nat) (hi : i < 2 ^ p.h) (st0 : BdsState) (q : Nat) :
    ∀ (l : Nat) (nodes : List Cell) (levels : List (Option Nat)) (st : BdsState) (b c d : Nat),
      i + 1 = 2 ^ l * (q + 1) →
      Holds nodes levels ((l, Spec.node (hf.prim S) p.wots.w p.wots.len sk ps l q) ::
        segE (Spec.node (hf.prim S) p.wots.w p.wots.len sk ps) l 0 q) →
      SetupInv (Spec.node (hf.prim S) p.wots.w p.wots.len sk ps) p.h i l st0 st →
      ∃ th st' b' c' d', setupMerge S hf p ps i i
          ((segE (Spec.node (hf.prim S) p.wots.w p.wots.len sk ps) l 0 q).length + 1) nodes levels st
          ⟨0, 0, 0, 2, 0, b, c, d⟩ = ok (th, st', ⟨0, 0, 0, 2, 0, b', c', d'⟩) ∧
        Holds th.nodes th.levels (segE (Spec.node (hf.prim S) p.wots.w p.wots.len sk ps) l 0 (q + 1)) ∧
        th.offset = (segE (Spec.node (hf.prim S) p.wots.w p.wots.len sk ps) l 0 (q + 1)).length ∧
        th.nodes.length = nodes.length ∧ th.levels.length = levels.length ∧
        SetupInv (Spec.node (hf.prim S) p.wots.w p.wots.len sk ps) p.h (i + 1) 0 st0 st' := by
  induction q using Nat.strongRecOn with
  | _ q ih =>
    intro l nodes levels st b c d hq hH I
    generalize hN : Spec.node (hf.prim S) p.wots.w p.wots.len sk ps = N at *
    rcases Nat.mod_two_eq_zero_or_one q with h2 | h2
    · have hodd : segE N l 0 (q + 1) = (l, N l q) :: segE N l 0 q := by
        rw [segE_odd _ _ _ _ (by omega), segE_even _ _ _ _ h2, show (q + 1) / 2 = q / 2 by omega]
        simp
      refine ⟨⟨nodes, levels, (segE N l 0 q).length + 1⟩, st, b, c, d, ?_, ?_, ?_, rfl, rfl, ?_⟩
      · cases hs : segE N l 0 q with
        | nil => rfl
        | cons e es =>
          obtain ⟨v, x⟩ := e
          rw [hs] at hH
          obtain ⟨_, hl1, _, hl2, _⟩ := hH
          simp only [List.length_cons] at hl1
          simp only [List.length_cons, setupMerge, rdUse_eq_ok hl1, rdUse_eq_ok hl2, ok_bind]
          have hd := segE_head_dvd N q l 0 v x es hs
          have hne : ¬ l = v := by
            intro e; subst e
            simp at hd; omega
          rw [if_neg hne]
      · rw [hodd]; exact hH
      · rw [hodd]; rfl
      · -- every power of two equal to `i + 1` has been seen below level `l`
        have hpow : ∀ k, 2 ^ k = i + 1 → k ≤ l := by
          intro k hk
          apply Classical.byContradiction
          intro hc
          have h1 : 2 ^ (l + 1) ∣ 2 ^ l * (q + 1) := by
            rw [← hq, ← hk]; exact Nat.pow_dvd_pow 2 (by omega)
          rw [Nat.pow_succ] at h1
          have := Nat.dvd_of_mul_dvd_mul_left (Nat.two_pow_pos l) h1
          omega
        refine ⟨I.stack, I.levels, I.offset, I.keep, I.lauth, I.lth, I.lretain, ?_, ?_, ?_⟩
        · intro k hk hc
          apply I.auth k hk
          by_cases he : 2 ^ (k + 1) = i + 1
          · have := hpow _ he; right; omega
          · left; omega
        · intro k hk
          obtain ⟨tr, g1, g2, g3, g4, g5⟩ := I.th k hk
          refine ⟨tr, g1, g2, g3, g4, ?_⟩
          intro hc
          apply g5
          by_cases he : 2 ^ (k + 2) = i + 1
          · have := hpow _ he; right; omega
          · left; omega
        · intro hc
          apply I.retain
          by_cases he : 2 ^ p.h = i + 1
          · have := hpow _ he; right; omega
          · left; omega
    · rw [segE_odd _ _ _ _ h2] at hH ⊢
      simp only [Nat.zero_add, Nat.zero_div] at hH ⊢
      obtain ⟨hn1, hl1, hn2, hl2, hrest⟩ := hH
      simp only [List.length_cons] at hl1 hn1
      obtain ⟨st1, hsave, I1⟩ := setupSave_eq hh hh30 I hi hq h2
      simp only [List.length_cons, setupMerge, rdUse_eq_ok hl1, rdUse_eq_ok hl2, rdUse_eq_ok hn1,
        rdUse_eq_ok hn2, rd_eq_ok hn1, hsave, ok_bind, Adrs.setTreeHeight, Adrs.setTreeIndex, hashH_eq, if_true]
      have hlt := (List.getElem?_eq_some_iff.mp hn2).1
      have hlt2 := (List.getElem?_eq_some_iff.mp hl2).1
      rw [wr_eq_ok _ hlt, wr_eq_ok _ hlt2]
      simp only [ok_bind]
      have hshr : i >>> l = q := by
        have hpl := Nat.two_pow_pos l
        rw [Nat.shiftRight_eq_div_pow]
        have : i = 2 ^ l * q + (2 ^ l - 1) := by rw [Nat.mul_add, Nat.mul_one] at hq; omega
        rw [this, Nat.mul_add_div hpl, Nat.div_eq_of_lt (by omega), Nat.add_zero]
      have hnode : Spec.H (hf.prim S) ps 2 0 l (i >>> (l + 1)) (N l (q - 1)) (N l q) = N (l + 1) (q / 2) := by
        rw [shr_succ, hshr, ← hN, Spec.node]
        rw [show 2 * (q / 2) = q - 1 by omega, show q - 1 + 1 = q by omega]
      rw [hnode]
      have hq' : i + 1 = 2 ^ (l + 1) * (q / 2 + 1) := by
        rw [hq, Nat.pow_succ, Nat.mul_assoc]; congr 1; omega
      obtain ⟨th, st', b', c', d', r1, r2, r3, r4, r5, r6⟩ := ih (q / 2) (by omega) (l + 1)
        (nodes.set (segE N (l + 1) 0 (q / 2)).length (some (N (l + 1) (q / 2))))
        (levels.set (segE N (l + 1) 0 (q / 2)).length (some (l + 1))) st1 l (i >>> (l + 1)) 2
        hq' (hrest.push hlt hlt2 _ _) I1
      refine ⟨th, st', b', c', d', r1, ?_, ?_, by simpa using r4, by simpa using r5, r6⟩
      · rw [segE_even _ _ _ _ (by omega), show (q + 1) / 2 = q / 2 + 1 by omega]; exact r2
      · rw [segE_even _ _ _ _ (by omega), show (q + 1) / 2 = q / 2 + 1 by omega]; exact r3

theorem setupLoop_eq (S : Sha256) (hf : HashFn) (p : XmssParams) (sk ps : Bytes) (h1 : 1 ≤ p.wots.len)
    (hh : 4 ≤ p.h) (hh30 : p.h ≤ 30) (st0 : BdsState) (m : Nat) :
    ∀ (i : Nat) (th : THStack) (st : BdsState) (o4 o5 o6 o7 t4 t5 t6 t7 b c d : Nat),
      i + m = 2 ^ p.h → th.nodes.length = p.h + 1 → th.levels.length = p.h + 1 →
      Holds th.nodes th.levels (segE (Spec.node (hf.prim S) p.wots.w p.wots.len sk ps) 0 0 i) →
      th.offset = (segE (Spec.node (hf.prim S) p.wots.w p.wots.len sk ps) 0 0 i).length →
      SetupInv (Spec.node (hf.prim S) p.wots.w p.wots.len sk ps) p.h i 0 st0 st →
      ∃ th' st', setupLoop S hf sk p ps m i i th st ⟨0, 0, 0, 0, o4, o5, o6, o7⟩ ⟨0, 0, 0, 1, t4, t5, t6, t7⟩
          ⟨0, 0, 0, 2, 0, b, c, d⟩ = ok (th', st') ∧
        Holds th'.nodes th'.levels (segE (Spec.node (hf.prim S) p.wots.w p.wots.len sk ps) 0 0 (i + m)) ∧
        SetupInv (Spec.node (hf.prim S) p.wots.w p.wots.len sk ps) p.h (i + m) 0 st0 st' := by
  induction m with
  | zero => intro i th st o4 o5 o6 o7 t4 t5 t6 t7 b c d _ _ _ hH _ I; exact ⟨th, st, rfl, hH, I⟩
  | succ m ih =>
    intro i th st o4 o5 o6 o7 t4 t5 t6 t7 b c d hm hn hl hH ho I
    obtain ⟨t5', t6', t7', o5', o6', o7', hleaf⟩ := genLeafWots_eq S hf sk p ps h1 i t5 t6 t7 o5 o6 o7
    have hlen := length_segE (Spec.node (hf.prim S) p.wots.w p.wots.len sk ps) p.h 0 0 i (by omega)
    rw [setupLoop]
    simp only [Adrs.setLtree, Adrs.setOTS, hleaf, ok_bind]
    rw [ho, wr_eq_ok _ (by omega), wr_eq_ok _ (by omega)]
    simp only [ok_bind]
    rw [show Spec.leaf (hf.prim S) p.wots.w p.wots.len sk ps i =
      Spec.node (hf.prim S) p.wots.w p.wots.len sk ps 0 i from rfl]
    generalize hN : Spec.node (hf.prim S) p.wots.w p.wots.len sk ps = N at *
    have hpush := hH.push (by omega) (by omega) (N 0 i) 0
    generalize hnodes : th.nodes.set (segE N 0 0 i).length (some (N 0 i)) = nodes at *
    generalize hlevels : th.levels.set (segE N 0 0 i).length (some 0) = levels at *
    have hnl : nodes.length = p.h + 1 := by rw [← hnodes]; simpa using hn
    have hll : levels.length = p.h + 1 := by rw [← hlevels]; simpa using hl
    have hmid : ∃ st1, SetupInv N p.h i 0 st0 st1 ∧ ∀ f : BdsState → Outcome (THStack × BdsState),
        (if p.h - 2 > 0 ∧ i = 3 then (rd nodes ((segE N 0 0 i).length + 1) >>= fun c => setThNode st 0 c >>= f)
          else (ok st >>= f)) = f st1 := by
      by_cases hc : p.h - 2 > 0 ∧ i = 3
      · obtain ⟨hc1, hc2⟩ := hc
        have hl3 : (segE N 0 0 i).length ≤ 2 := length_segE N 2 0 0 i (by omega)
        obtain ⟨cell, hcell⟩ : ∃ cell, nodes[(segE N 0 0 i).length + 1]? = some cell :=
          ⟨_, List.getElem?_eq_getElem (by omega)⟩
        obtain ⟨tr, g1, g2, g3, g4, g5⟩ := I.th 0 (by omega)
        refine ⟨{ st with treehash := st.treehash.set 0 { tr with node := cell } },
          ⟨I.stack, I.levels, I.offset, I.keep, I.lauth, by simpa using I.lth, I.lretain, I.auth, ?_, I.retain⟩, ?_⟩
        · intro k hk
          simp only
          by_cases hk0 : 0 = k
          · subst hk0
            refine ⟨{ tr with node := cell }, ?_, g2, g3, g4, ?_⟩
            · rw [List.getElem?_set, if_pos rfl, if_pos (by rw [I.lth]; omega)]
            · intro hc; omega
          · obtain ⟨tr', k1, k2⟩ := I.th k hk
            exact ⟨tr', by rw [List.getElem?_set, if_neg hk0]; exact k1, k2⟩
        · intro f
          rw [if_pos ⟨hc1, hc2⟩, rd_eq_ok hcell, ok_bind, setThNode_eq g1, ok_bind]
      · exact ⟨st, I, fun f => by rw [if_neg hc, ok_bind]⟩
    obtain ⟨st1, I1, hmid⟩ := hmid
    have hmerge := setupMerge_eq S hf p sk ps hh hh30 i (by omega) st0 i 0 nodes levels st1 b c d (by simp)
    rw [hN] at hmerge
    obtain ⟨th2, st2, b', c', d', e1, e2, e3, e4, e5, e6⟩ := hmerge hpush I1
    obtain ⟨th', st', r1, r2, r3⟩ := ih (i + 1) th2 st2 i o5' o6' o7' i t5' t6' t7' b' c' d' (by omega)
      (by rw [e4]; exact hnl) (by rw [e5]; exact hll) e2 e3 e6
    refine ⟨th', st', ?_, by rw [show i + (m + 1) = i + 1 + m by omega]; exact r2,
      by rw [show i + (m + 1) = i + 1 + m by omega]; exact r3⟩
    refine (hmid _).trans ?_
    rw [e1, ok_bind]
    exact r1

theorem setupInit_eq (n : Nat) (m : Nat) : ∀ (i : Nat) (ths : List TreeInst), i + m = n → ths.length = n →
    (∀ k, k < i → ∃ tr, ths[k]? = some tr ∧ tr.completed = true ∧ tr.stackusage = 0 ∧ tr.h = k) →
    ∃ ths', setupInit m i ths = ok ths' ∧ ths'.length = n ∧
      ∀ k, k < n → ∃ tr, ths'[k]? = some tr ∧ tr.completed = true ∧ tr.stackusage = 0 ∧ tr.h = k := by
  induction m with
  | zero => intro i ths hi hl h; exact ⟨ths, rfl, hl, fun k hk => h k (by omega)⟩
  | succ m ih =>
    intro i ths hi hl h
    rw [setupInit, rd_eq_ok (List.getElem?_eq_getElem (show i < ths.length by omega)), ok_bind,
      wr_eq_ok _ (by omega), ok_bind]
    apply ih (i + 1) _ (by omega) (by simpa using hl)
    intro k hk
    by_cases hik : i = k
    · subst hik
      refine ⟨_, by rw [List.getElem?_set, if_pos rfl, if_pos (by omega)], rfl, rfl, rfl⟩
    · obtain ⟨tr, g1, g2⟩ := h k (by omega)
      exact ⟨tr, by rw [List.getElem?_set, if_neg hik]; exact g1, g2⟩

/-- Complete traversal invariant at index `t`. -/
structure BdsInv (N : Nat → Nat → Bytes) (h t : Nat) (T : Prog) (st : BdsState) : Prop where
  th : ThInv N h t T st
  auth : AuthInv N h t st
  budget : Budget (h - 2) ((h - 2) >>> 1) t T

theorem treehashSetup_eq (S : Sha256) (hf : HashFn) (p : XmssParams) (sk ps : Bytes) (h1 : 1 ≤ p.wots.len)
    (hh : 4 ≤ p.h) (hh30 : p.h ≤ 30) :
    ∃ st, treehashSetup S hf p.h 0 (bdsInit p.h) sk p ps {} =
        ok (Spec.node (hf.prim S) p.wots.w p.wots.len sk ps p.h 0, st) ∧
      BdsInv (Spec.node (hf.prim S) p.wots.w p.wots.len sk ps) p.h 0 (fun _ => none) st := by
  generalize hN : Spec.node (hf.prim S) p.wots.w p.wots.len sk ps = N
  obtain ⟨ths, e1, e2, e3⟩ := setupInit_eq (p.h - 2) (p.h - 2) 0 (bdsInit p.h).treehash (by omega)
    (by simp [bdsInit]) (fun k hk => by omega)
  rw [treehashSetup]
  simp only [Adrs.derive, Adrs.setType]
  rw [if_neg (by omega), e1, ok_bind]
  have hpos := Nat.two_pow_pos p.h
  have hloop := setupLoop_eq S hf p sk ps h1 hh hh30 (bdsInit p.h) (2 ^ p.h) 0
    ⟨List.replicate (p.h + 1) none, List.replicate (p.h + 1) none, 0⟩ { bdsInit p.h with treehash := ths }
    0 0 0 0 0 0 0 0 0 0 0 (by omega) (by simp) (by simp)
  rw [hN] at hloop
  obtain ⟨th', st', r1, r2, r3⟩ := hloop (by rw [segE_zero]; trivial) (by rw [segE_zero]; rfl)
    ⟨rfl, rfl, rfl, rfl, by simp [bdsInit], e2, by simp [bdsInit], fun k _ hc => by
      have := Nat.two_pow_pos (k + 1); omega, fun k hk => by
      obtain ⟨tr, g1, g2, g3, g4⟩ := e3 k hk
      refine ⟨tr, g1, g2, g3, g4, fun hc => ?_⟩
      have := Nat.two_pow_pos (k + 2); omega, fun hc => by omega⟩
  refine ⟨st', ?_, ?_, ?_, ?_⟩
  · have r1' : setupLoop S hf sk p ps (2 ^ p.h) 0 0
      ⟨List.replicate (p.h + 1) none, List.replicate (p.h + 1) none, 0⟩ { bdsInit p.h with treehash := ths }
      {} { w3 := 1 } { w3 := 2 } = ok (th', st') := r1
    rw [r1', ok_bind]
    rw [Nat.zero_add, segE_pow, Nat.zero_add] at r2
    have hroot : rdUse th'.nodes 0 = ok (N p.h 0) := rdUse_eq_ok r2.1
    show (rdUse th'.nodes 0 >>= fun root => ok (root, st')) = _
    rw [hroot, ok_bind]
  · rw [Nat.zero_add] at r3
    have hents : ∀ m i, ents N 0 (fun _ => none) m i = [] := by
      intro m
      induction m with
      | zero => intro i; rfl
      | succ m ih => intro i; rw [ents, ih]; rfl
    refine ⟨by rw [r3.stack]; simp [bdsInit], by rw [r3.levels]; simp [bdsInit], r3.lth, ?_, ?_, ?_, ?_⟩
    · intro i i' c c' _ _ h; cases h
    · rw [hents]; trivial
    · rw [hents, r3.offset]; rfl
    · intro i hi
      obtain ⟨tr, g1, g2, g3, g4, g5⟩ := r3.th i hi
      refine ⟨tr, g1, g2, ?_⟩
      intro _
      rw [g5 (Or.inl (Nat.pow_le_pow_right (by omega) (by omega)))]
      congr 2
      simp only [startOf, Nat.zero_div, Nat.zero_mul, Nat.zero_add]
      rw [Nat.mul_div_cancel _ (Nat.two_pow_pos i)]
  · rw [Nat.zero_add] at r3
    refine ⟨r3.lauth, by rw [r3.keep]; simp [bdsInit, Nat.shiftRight_eq_div_pow], ?_, ?_, ?_⟩
    · intro i hi
      rw [r3.auth i hi (Or.inl (Nat.pow_le_pow_right (by omega) (by omega)))]
      simp [Spec.sibling]
    · intro i _ hc; simp at hc
    · exact r3.retain (Or.inl (Nat.le_refl _))
  · intro j _; exact Or.inl rfl

/-- One whole step of the traversal: round and updates. -/
theorem bdsAdvance_eq (S : Sha256) (hf : HashFn) (sk ps : Bytes) (p : XmssParams) (h1 : 1 ≤ p.wots.len)
    (hh4 : 4 ≤ p.h) (hh30 : p.h ≤ 30) (hev : p.h % 2 = 0) {t : Nat} (ht : t + 1 < 2 ^ p.h) {T : Prog} {st : BdsState}
    (H : BdsInv (Spec.node (hf.prim S) p.wots.w p.wots.len sk ps) p.h t T st) (a b c d e a' b' c' d' e' : Nat) :
    ∃ st1 st2 T2, bdsRound S hf st t sk p ps ⟨0, 0, 0, a, b, c, d, e⟩ = ok st1 ∧
      bdsTreehashUpdate S hf sk p ps ⟨0, 0, 0, a', b', c', d', e'⟩ ((p.h - 2) >>> 1) st1 = ok st2 ∧
      BdsInv (Spec.node (hf.prim S) p.wots.w p.wots.len sk ps) p.h (t + 1) T2 st2 := by
  obtain ⟨st1, T1, e1, i1, i2, i3, i4⟩ := bdsRound_eq S hf sk ps p h1 hh4 hh30 hev ht H.th H.auth H.budget a b c d e
  obtain ⟨st2, T2, e2, s2, j1, j2⟩ := bdsTreehashUpdate_eq S hf sk ps p h1 a' b' c' d' e' ((p.h - 2) >>> 1) T1 st1 i1
  refine ⟨st1, st2, T2, e1, e2, j1, ?_, H.budget.round i3 i4 i1.sep j2⟩
  exact ⟨by rw [s2.1]; exact i2.lauth, by rw [s2.2.1]; exact i2.lkeep, by rw [s2.1]; exact i2.auth,
    by rw [s2.2.1]; exact i2.keep, by rw [s2.2.2]; exact i2.retain⟩

end Qrl
